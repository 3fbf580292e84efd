import Verif.Py.Basic

/-!
# Model of `punx/_version.py`

The file computes the version of a source tree from the keywords written by `git archive`, from
`git describe`, or from the name of the directory.  No other file of the package imports it.

Left out: the messages printed with `verbose` (`get_config` sets it to `False`), the table
`HANDLERS` that only registers three of the functions, and `env`, which is never given.
-/

namespace Punx

/-! ## texts and paths -/

/-- The characters for which `str.isspace()` holds; `str.strip()` removes them and `\s` matches
them (`punx/_version.py:152`, `179-185`). -/
def isPySpace (c : Char) : Bool :=
  (9 ≤ c.toNat && c.toNat ≤ 13) || (28 ≤ c.toNat && c.toNat ≤ 32) || c.toNat = 0x85 ||
  c.toNat = 0xa0 || c.toNat = 0x1680 || (0x2000 ≤ c.toNat && c.toNat ≤ 0x200a) ||
  c.toNat = 0x2028 || c.toNat = 0x2029 || c.toNat = 0x202f || c.toNat = 0x205f || c.toNat = 0x3000

/-- `s.strip(chars)`: without the characters of a set at both ends. -/
def stripBy (p : Char → Bool) (s : Str) : Str :=
  ((s.dropWhile p).reverse.dropWhile p).reverse

/-- `s.strip()` -/
def pyStrip (s : Str) : Str := stripBy isPySpace s

/-- `b.strip()` for the bytes of a text (`punx/_version.py:98`): only ASCII white space. -/
def asciiStrip (s : Str) : Str := stripBy (fun c => (9 ≤ c.toNat && c.toNat ≤ 13) || c = ' ') s

/-- `s.replace(old, new, 1)` for a one character `old`. -/
def replaceFirst (old : Char) (new : Str) : Str → Str
  | [] => []
  | c :: cs => if c = old then new ++ cs else c :: replaceFirst old new cs

/-- The text cut at the last `sep`, if there is one. -/
def cutLast (sep : Char) : Str → Option (Str × Str)
  | [] => none
  | c :: cs =>
    match cutLast sep cs with
    | some (a, b) => some (c :: a, b)
    | none => if c = sep then some ([], cs) else none

/-- `os.path.basename` (POSIX) -/
def baseName (p : Str) : Str :=
  match cutLast '/' p with
  | some (_, b) => b
  | none => p

/-- `os.path.dirname` (POSIX): the text before the last slash, without slashes at its end unless
there is nothing else. -/
def dirName (p : Str) : Str :=
  match cutLast '/' p with
  | none => []
  | some (a, _) =>
    if a.all (· = '/') then a ++ ['/']
    else (a.reverse.dropWhile (· = '/')).reverse

/-! ## what the functions are given -/

/-- Character classes and numbers of Python: `digit` is `\d`, `int` is `int(text)` (`none` for
`ValueError`). -/
structure VEnv where
  digit : Char → Bool
  int : Str → Option Int

/-- What happens when a program is started (`punx/_version.py:78-92`): it is not there (`ENOENT`),
it cannot be started for another reason, or it ends with an output and a status.  `none` is an
output that is not UTF-8. -/
inductive Spawn
  | notFound
  | failed
  | done (out : Option Str) (rc : Int)
  deriving DecidableEq, Repr

/-- Programs, the platform, and `os.path.realpath(__file__)` (`none` when there is no
`__file__`). -/
structure VWorld where
  spawn : Str → List Str → Str → Spawn
  win32 : Bool
  file : Option Str

/-- `NotThisMethod`, or another exception. -/
inductive VErr
  | notThisMethod
  | py (e : PyErr)
  deriving DecidableEq, Repr

/-- The dictionary that is returned: `version`, `full-revisionid`, `dirty`, `error`, `date`. -/
structure VersionInfo where
  version : Str
  full : Option Str
  dirty : Option Bool
  error : Option Str
  date : Option Str
  deriving DecidableEq, Repr

/-- The keywords of the file (`punx/_version.py:19-30`). -/
structure Keywords where
  refnames : Option Str
  full : Option Str
  date : Option Str
  deriving DecidableEq, Repr

/-- `punx/_version.py:19-30`: the keywords as they are in the repository. -/
def shippedKeywords : Keywords :=
  ⟨some s%"$Format:%d$", some s%"$Format:%H$", some s%"$Format:%ci$"⟩

/-- `punx/_version.py:44-45` -/
def tagPrefix : Str := []

/-- `punx/_version.py:45` -/
def parentdirPrefix : Str := s%"punx-"

/-- `punx/_version.py:43` -/
def versionStyle : Str := s%"pep440"

/-! ## running programs -/

/-- `punx/_version.py:71-107`: run the first of several programs that is there; output and
status. -/
def runCommand (w : VWorld) (args : List Str) (cwd : Str) :
    List Str → Except VErr (Option Str × Option Int)
  | [] => .ok (none, none)
  | c :: cs =>
    match w.spawn c args cwd with
    | .notFound => runCommand w args cwd cs
    | .failed => .ok (none, none)
    | .done none _ => .error (.py .unicodeDecodeError)
    | .done (some out) rc => if rc ≠ 0 then .ok (none, some rc) else .ok (some (asciiStrip out), some rc)

/-! ## keywords in a file -/

/-- `re.search(r'=\s*"(.*)"', line)` (`punx/_version.py:153`); a line has no line feed but at its
end. -/
def quoted : Str → Option Str
  | [] => none
  | c :: cs =>
    if c = '=' then
      match cs.dropWhile isPySpace with
      | '"' :: r =>
        match cutLast '"' (r.takeWhile (· ≠ '\n')) with
        | some (v, _) => some v
        | none => quoted cs
      | _ => quoted cs
    else quoted cs

/-- `punx/_version.py:152-163`: the value a line gives for a keyword. -/
def lineValue (key line : Str) : Option Str :=
  if startsWith (pyStrip line) (key ++ s%" =") then quoted line else none

/-- `punx/_version.py:151-163`: one line of the file. -/
def readKeywordLine (k : Keywords) (line : Str) : Keywords :=
  ⟨(lineValue s%"git_refnames" line).or k.refnames,
   (lineValue s%"git_full" line).or k.full,
   (lineValue s%"git_date" line).or k.date⟩

/-- `punx/_version.py:142-167`: the keywords of a file given by its lines; `none`: the file cannot
be opened. -/
def gitGetKeywords : Option (List Str) → Keywords
  | none => ⟨none, none, none⟩
  | some lines => lines.foldl readKeywordLine ⟨none, none, none⟩

/-! ## version from keywords -/

/-- `punx/_version.py:185`, `325-327`: the date in ISO form. -/
def fixDate (d : Str) : Str :=
  replaceFirst ' ' [] (replaceFirst ' ' s%"T" (pyStrip d))

/-- `punx/_version.py:191`: names of the references.  The code keeps them in a set; here an equal
name may occur twice, of which only the first in order is looked at. -/
def refsOf (refnames : Str) : List Str :=
  (split ',' (stripBy (fun c => c = '(' || c = ')') refnames)).map pyStrip

/-- `punx/_version.py:194-205`: the tags among the references. -/
def tagsOf (env : VEnv) (refs : List Str) : List Str :=
  let tags := (refs.filter (fun r => startsWith r s%"tag: ")).map (List.drop 5)
  if tags = [] then refs.filter (fun r => r.any env.digit) else tags

/-- `punx/_version.py:171-229` -/
def gitVersionsFromKeywords (env : VEnv) (k : Keywords) (tagPrefix : Str) :
    Except VErr VersionInfo :=
  if k = ⟨none, none, none⟩ then .error .notThisMethod
  else
    match k.refnames with
    | none => .error (.py .keyError)
    | some r =>
      let refnames := pyStrip r
      if startsWith refnames s%"$Format" then .error .notThisMethod
      else
        match k.full with
        | none => .error (.py .keyError)
        | some full =>
          match (sortBy strLe (tagsOf env (refsOf refnames))).find?
              (fun t => startsWith t tagPrefix) with
          | some t =>
            .ok ⟨t.drop tagPrefix.length, some (pyStrip full), some false, none,
              k.date.map fixDate⟩
          | none =>
            .ok ⟨s%"0+unknown", some (pyStrip full), some false, some s%"no suitable tags", none⟩

/-! ## version from `git describe` -/

/-- `pieces` (`punx/_version.py:276-330`).  `closest` is `none` if there is no key `closest-tag`,
`some none` if its value is `None`. -/
structure Pieces where
  long : Str
  short : Str
  error : Option Str
  dirty : Bool
  closest : Option (Option Str)
  distance : Option Int
  date : Option Str
  deriving DecidableEq, Repr

/-- A digit of `[0-9a-f]`. -/
def isHexDigit (c : Char) : Bool :=
  (48 ≤ c.toNat && c.toNat ≤ 57) || (97 ≤ c.toNat && c.toNat ≤ 102)

/-- `re.search(r"^(.+)-(\d+)-g([0-9a-f]+)$", text)` (`punx/_version.py:297`): the three groups.
`$` also matches before a line feed at the end. -/
def matchDescribe (env : VEnv) (text : Str) : Option (Str × Str × Str) :=
  let s := if text.getLast? = some '\n' then text.dropLast else text
  match cutLast '-' s with
  | none => none
  | some (front, last) =>
    match cutLast '-' front with
    | none => none
    | some (tag, num) =>
      match last with
      | 'g' :: hex =>
        if tag ≠ [] ∧ tag.all (· ≠ '\n') ∧ num ≠ [] ∧ num.all env.digit ∧ hex ≠ [] ∧
            hex.all isHexDigit then some (tag, num, hex) else none
      | _ => none

/-- `punx/_version.py:287-292`: is the text marked, and the text without the mark. -/
def cutDirty (s : Str) : Bool × Str :=
  if endsWith s s%"-dirty" then (true, s.take (s.length - 6)) else (false, s)

/-- `punx/_version.py:322-328`: the date of the commit. -/
def commitDate (w : VWorld) (gits : List Str) (root : Str) : Except VErr Str := do
  let (out, _) ← runCommand w [s%"show", s%"-s", s%"--format=%ci", s%"HEAD"] root gits
  match out with
  | none => .error (.py .attributeError)
  | some d => .ok (fixDate (pyStrip d))

/-- `punx/_version.py:241-243` -/
def gits (w : VWorld) : List Str := if w.win32 then [s%"git.cmd", s%"git.exe"] else [s%"git"]

/-- `punx/_version.py:233-330`.  `git_describe.rindex` finds the mark at the end. -/
def gitPiecesFromVcs (env : VEnv) (w : VWorld) (tagPrefix root : Str) : Except VErr Pieces := do
  let (_, rc) ← runCommand w [s%"rev-parse", s%"--git-dir"] root (gits w)
  if rc ≠ some 0 then .error .notThisMethod
  else do
    let (describe, _) ← runCommand w
      [s%"describe", s%"--tags", s%"--dirty", s%"--always", s%"--long", s%"--match",
        tagPrefix ++ s%"*"] root (gits w)
    match describe with
    | none => .error .notThisMethod
    | some describe =>
      let (head, _) ← runCommand w [s%"rev-parse", s%"HEAD"] root (gits w)
      match head with
      | none => .error .notThisMethod
      | some head =>
        let describe := pyStrip describe
        let full := pyStrip head
        let (dirty, text) := cutDirty describe
        if '-' ∈ text then
          match matchDescribe env text with
          | none =>
            .ok ⟨full, full.take 7, some (s%"unable to parse git-describe output: '" ++ describe ++ s%"'"),
              dirty, none, none, none⟩
          | some (tag, num, hex) =>
            if !startsWith tag tagPrefix then
              .ok ⟨full, full.take 7, some (s%"tag '" ++ tag ++ s%"' doesn't start with prefix '" ++
                tagPrefix ++ s%"'"), dirty, none, none, none⟩
            else
              match env.int num with
              | none => .error (.py .valueError)
              | some n => do
                let date ← commitDate w (gits w) root
                .ok ⟨full, hex, none, dirty, some (some (tag.drop tagPrefix.length)), some n,
                  some date⟩
        else do
          let (count, _) ← runCommand w [s%"rev-list", s%"HEAD", s%"--count"] root (gits w)
          match count with
          | none => .error (.py .typeError)
          | some c =>
            match env.int c with
            | none => .error (.py .valueError)
            | some n => do
              let date ← commitDate w (gits w) root
              .ok ⟨full, full.take 7, none, dirty, some none, some n, some date⟩

/-! ## version texts -/

/-- `punx/_version.py:333-337` -/
def plusOrDot (p : Pieces) : Except VErr Str :=
  match p.closest with
  | none => .ok s%"+"
  | some none => .error (.py .typeError)
  | some (some t) => if '+' ∈ t then .ok s%"." else .ok s%"+"

/-- `pieces["closest-tag"]` -/
def Pieces.closest! (p : Pieces) : Except VErr (Option Str) :=
  match p.closest with
  | none => .error (.py .keyError)
  | some t => .ok t

/-- `pieces["distance"]` -/
def Pieces.distance! (p : Pieces) : Except VErr Int :=
  match p.distance with
  | none => .error (.py .keyError)
  | some n => .ok n

/-- `text if condition else ""` -/
def textIf (b : Bool) (s : Str) : Str := if b then s else []

/-- `punx/_version.py:340-361` -/
def renderPep440 (p : Pieces) : Except VErr Str := do
  match ← p.closest! with
  | some (c :: cs) =>
    let n ← p.distance!
    if n ≠ 0 ∨ p.dirty = true then
      let sep ← plusOrDot p
      .ok (c :: cs ++ sep ++ intStr n ++ s%".g" ++ p.short ++ textIf p.dirty s%".dirty")
    else .ok (c :: cs)
  | _ =>
    let n ← p.distance!
    .ok (s%"0+untagged." ++ intStr n ++ s%".g" ++ p.short ++ textIf p.dirty s%".dirty")

/-- `punx/_version.py:364-377` -/
def renderPep440Pre (p : Pieces) : Except VErr Str := do
  match ← p.closest! with
  | some (c :: cs) =>
    let n ← p.distance!
    if n ≠ 0 then .ok (c :: cs ++ s%".post.dev" ++ intStr n) else .ok (c :: cs)
  | _ =>
    let n ← p.distance!
    .ok (s%"0.post.dev" ++ intStr n)

/-- `punx/_version.py:380-404` -/
def renderPep440Post (p : Pieces) : Except VErr Str := do
  match ← p.closest! with
  | some (c :: cs) =>
    let n ← p.distance!
    if n ≠ 0 ∨ p.dirty = true then
      let sep ← plusOrDot p
      .ok (c :: cs ++ s%".post" ++ intStr n ++ textIf p.dirty s%".dev0" ++ sep ++ s%"g" ++ p.short)
    else .ok (c :: cs)
  | _ =>
    let n ← p.distance!
    .ok (s%"0.post" ++ intStr n ++ textIf p.dirty s%".dev0" ++ s%"+g" ++ p.short)

/-- `punx/_version.py:407-426` -/
def renderPep440Old (p : Pieces) : Except VErr Str := do
  match ← p.closest! with
  | some (c :: cs) =>
    let n ← p.distance!
    if n ≠ 0 ∨ p.dirty = true then
      .ok (c :: cs ++ s%".post" ++ intStr n ++ textIf p.dirty s%".dev0")
    else .ok (c :: cs)
  | _ =>
    let n ← p.distance!
    .ok (s%"0.post" ++ intStr n ++ textIf p.dirty s%".dev0")

/-- `punx/_version.py:429-446` -/
def renderGitDescribe (p : Pieces) : Except VErr Str := do
  match ← p.closest! with
  | some (c :: cs) =>
    let n ← p.distance!
    if n ≠ 0 then
      .ok (c :: cs ++ s%"-" ++ intStr n ++ s%"-g" ++ p.short ++ textIf p.dirty s%"-dirty")
    else .ok (c :: cs ++ textIf p.dirty s%"-dirty")
  | _ => .ok (p.short ++ textIf p.dirty s%"-dirty")

/-- `punx/_version.py:449-466` -/
def renderGitDescribeLong (p : Pieces) : Except VErr Str := do
  match ← p.closest! with
  | some (c :: cs) =>
    let n ← p.distance!
    .ok (c :: cs ++ s%"-" ++ intStr n ++ s%"-g" ++ p.short ++ textIf p.dirty s%"-dirty")
  | _ => .ok (p.short ++ textIf p.dirty s%"-dirty")

/-- `punx/_version.py:480-496`: the text in one of the styles. -/
def renderStyle (style : Str) (p : Pieces) : Except VErr Str :=
  let style := if style = [] ∨ style = s%"default" then s%"pep440" else style
  if style = s%"pep440" then renderPep440 p
  else if style = s%"pep440-pre" then renderPep440Pre p
  else if style = s%"pep440-post" then renderPep440Post p
  else if style = s%"pep440-old" then renderPep440Old p
  else if style = s%"git-describe" then renderGitDescribe p
  else if style = s%"git-describe-long" then renderGitDescribeLong p
  else .error (.py .valueError)

/-- `punx/_version.py:469-504` -/
def renderVersion (p : Pieces) (style : Str) : Except VErr VersionInfo :=
  if p.error.getD [] ≠ [] then .ok ⟨s%"unknown", some p.long, none, p.error, none⟩
  else
    match renderStyle style p with
    | .error e => .error e
    | .ok v => .ok ⟨v, some p.long, some p.dirty, none, p.date⟩

/-! ## version from the directory, and all methods together -/

/-- `punx/_version.py:110-139`: look at the last part of a path, going up a number of times. -/
def versionsFromParentdir (pre : Str) : Nat → Str → Except VErr VersionInfo
  | 0, _ => .error .notThisMethod
  | n + 1, root =>
    if startsWith (baseName root) pre then
      .ok ⟨(baseName root).drop pre.length, none, some false, none, none⟩
    else versionsFromParentdir pre n (dirName root)

/-- `punx/_version.py:520-523`, `525-528`, …: go on with the next method only for
`NotThisMethod`. -/
def orElse (x y : Except VErr VersionInfo) : Except VErr VersionInfo :=
  match x with
  | .error .notThisMethod => y
  | _ => x

/-- `punx/_version.py:507-556` -/
def getVersions (env : VEnv) (w : VWorld) (k : Keywords) : Except VErr VersionInfo :=
  orElse (gitVersionsFromKeywords env k tagPrefix)
    (match w.file with
     | none =>
       .ok ⟨s%"0+unknown", none, none, some s%"unable to find root of source tree", none⟩
     | some file =>
       let root := dirName (dirName file)
       orElse (do let p ← gitPiecesFromVcs env w tagPrefix root; renderVersion p versionStyle)
         (orElse (versionsFromParentdir parentdirPrefix 3 root)
           (.ok ⟨s%"0+unknown", none, none, some s%"unable to compute version", none⟩)))

end Punx

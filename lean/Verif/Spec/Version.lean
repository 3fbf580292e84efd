import Verif.Model.Version

/-!
# What a version of the source tree is (claims C93 to C98)
-/

namespace Punx.Spec

/-- What is used of Python's digits and of `int`. -/
structure PythonDigits (env : VEnv) : Prop where
  ascii : ∀ c : Char, c.isDigit = true → env.digit c = true
  dash : env.digit '-' = false
  int : ∀ n : Nat, env.int (natStr n) = some (n : Int)

/-- The answer of one of several programs: those before it are not there. -/
def Runs (w : VWorld) (programs : List Str) (args : List Str) (cwd : Str) (r : Spawn) : Prop :=
  ∃ before c after, programs = before ++ c :: after ∧
    (∀ b ∈ before, w.spawn b args cwd = .notFound) ∧ w.spawn c args cwd = r ∧ r ≠ .notFound

/-- The names of the program `git`. -/
def gitPrograms (w : VWorld) : List Str :=
  if w.win32 then [s%"git.cmd", s%"git.exe"] else [s%"git"]

/-- `git` with these arguments ends well and writes this text. -/
def GitSays (w : VWorld) (root : Str) (args : List Str) (out : Str) : Prop :=
  Runs w (gitPrograms w) args root (.done (some out) 0)

/-- The arguments of the four questions to `git`. -/
def askDir : List Str := [s%"rev-parse", s%"--git-dir"]
def askHead : List Str := [s%"rev-parse", s%"HEAD"]
def askCount : List Str := [s%"rev-list", s%"HEAD", s%"--count"]
def askDate : List Str := [s%"show", s%"-s", s%"--format=%ci", s%"HEAD"]
def askDescribe (pre : Str) : List Str :=
  [s%"describe", s%"--tags", s%"--dirty", s%"--always", s%"--long", s%"--match", pre ++ s%"*"]

/-- `git` with these arguments writes something that is not UTF-8. -/
def GitGarbled (w : VWorld) (root : Str) (args : List Str) : Prop :=
  ∃ rc, Runs w (gitPrograms w) args root (.done none rc)

/-- There is no `git`, it cannot be started, or it ends with an error. -/
def GitFails (w : VWorld) (root : Str) (args : List Str) : Prop :=
  (∀ p ∈ gitPrograms w, w.spawn p args root = .notFound) ∨
    Runs w (gitPrograms w) args root .failed ∨
    ∃ out rc, rc ≠ 0 ∧ Runs w (gitPrograms w) args root (.done (some out) rc)

/-- The mark of a changed source tree. -/
def mark (dirty : Bool) (text : Str) : Str := if dirty then text else []

/-- A text without white space at its ends. -/
def Trimmed (s : Str) : Prop :=
  (∀ c cs, s = c :: cs → isPySpace c = false) ∧ (∀ cs c, s = cs ++ [c] → isPySpace c = false)

/-- A lower case hexadecimal number. -/
def IsHex (s : Str) : Prop := s ≠ [] ∧ ∀ c ∈ s, c ∈ s%"0123456789abcdef"

/-- What `git describe --long` writes for a commit after a tag. -/
def describeText (tag : Str) (n : Nat) (hex : Str) (dirty : Bool) : Str :=
  tag ++ s%"-" ++ natStr n ++ s%"-g" ++ hex ++ mark dirty s%"-dirty"

/-- What is known about a commit that is found: `none` stands for no tag. -/
structure Commit where
  tag : Option Str
  distance : Nat
  hex : Str
  dirty : Bool

/-- The pieces that say this about a commit. -/
def Says (p : Pieces) (c : Commit) : Prop :=
  p.error = none ∧ p.closest = some c.tag ∧ p.distance = some (c.distance : Int) ∧
    p.short = c.hex ∧ p.dirty = c.dirty

/-- A commit as `git` describes it. -/
def Commit.Real (c : Commit) : Prop := c.tag ≠ some [] ∧ IsHex c.hex

/-- The commit is that of the tag, and nothing is changed. -/
def Commit.IsRelease (c : Commit) : Prop := c.tag ≠ none ∧ c.distance = 0 ∧ c.dirty = false

/-- A list of references as `git archive` writes it. -/
def decorated (refs : List Str) : Str := s%" (" ++ join s%", " refs ++ s%")"

/-- A name in such a list.  The brackets of the list are removed with the text's own. -/
def PlainRef (r : Str) : Prop :=
  r ≠ [] ∧ ',' ∉ r ∧ Trimmed r ∧ '(' ∉ r ∧ ')' ∉ r

/-- A tag that may name the version: one marked as tag, or if there is none a name with a
digit. -/
def Candidate (env : VEnv) (refs : List Str) (t : Str) : Prop :=
  s%"tag: " ++ t ∈ refs ∨
    ((∀ u, s%"tag: " ++ u ∉ refs) ∧ t ∈ refs ∧ ∃ c ∈ t, env.digit c = true)

/-- The first candidate with a prefix, in the order of texts. -/
def FirstCandidate (env : VEnv) (refs : List Str) (pre v : Str) : Prop :=
  Candidate env refs (pre ++ v) ∧
    ∀ u, Candidate env refs (pre ++ u) → strLe (pre ++ v) (pre ++ u) = true

/-- A line of the file that gives a keyword a value: `key = "value"`, with white space before it
and anything but a quotation mark after it. -/
def Assigns (key value line : Str) : Prop :=
  ∃ indent space rest, line = indent ++ key ++ s%" =" ++ space ++ s%"\"" ++ value ++ s%"\"" ++ rest ∧
    (∀ c ∈ indent, isPySpace c = true) ∧ (∀ c ∈ space, isPySpace c = true) ∧
    '\n' ∉ value ∧ '"' ∉ rest

/-- A line that does not begin as such a line. -/
def NotAbout (key line : Str) : Prop :=
  ¬ ∃ indent rest, line = indent ++ key ++ s%" =" ++ rest ∧ ∀ c ∈ indent, isPySpace c = true

/-- A path from the root. -/
def pathOf (names : List Str) : Str := names.flatMap ('/' :: ·)

/-- The name of a file or directory. -/
def IsFileName (n : Str) : Prop := n ≠ [] ∧ '/' ∉ n

end Punx.Spec

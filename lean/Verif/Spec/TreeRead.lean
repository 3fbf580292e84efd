import Verif.Spec.H5Tree

/-!
# A reader for the tree report

What a user who knows the notation reads in the lines of `punx tree`: for each object its path, what it
is, and its attributes.
-/

namespace Punx.Spec

/-- What a line says about an object. -/
inductive ReadKind
  /-- a group of this class -/
  | group (cls : Option Str)
  /-- a dataset: type and value -/
  | dataset (text : Str)
  /-- a soft link -/
  | soft (path : Str)
  /-- an external link that cannot be followed -/
  | missing
  /-- a link to a target -/
  | link (target : Str)
  deriving DecidableEq, Repr

/-- What is read about an object. -/
structure ReadEntry where
  path : List Str
  kind : ReadKind
  /-- attributes, with the texts of their values -/
  attrs : List (Str × Str)
  deriving DecidableEq, Repr

/-- A line. -/
inductive RawLine
  | attr (name value : Str)
  | array
  | entry (depth : Nat) (name : Str) (kind : ReadKind)
  deriving DecidableEq, Repr

/-- What follows the name. -/
def readKind (tail : Str) : ReadKind :=
  if tail = [] then .group none
  else if startsWith tail s%" --> " then .link (tail.drop 5)
  else if startsWith tail s%": --> " then .soft (tail.drop 6)
  else if tail = s%": missing external file" then .missing
  else if ' ' ∈ tail then .dataset (tail.drop 1)
  else .group (some (tail.drop 1))

/-- Read one line: two spaces for each level, `@` before attributes. -/
def readLine (l : Str) : RawLine :=
  let n := (l.takeWhile (· == ' ')).length
  let t := l.dropWhile (· == ' ')
  if startsWith t s%"@" then
    let name := (t.drop 1).takeWhile (· != ' ')
    .attr name (t.drop (name.length + 4))
  else if startsWith t s%"__array = " then .array
  else
    let name := t.takeWhile (fun c => c != ':' && c != ' ')
    .entry (n / 2) name (readKind (t.drop name.length))

/-- An attribute in a line. -/
def attrOf : RawLine → Option (Str × Str)
  | .attr n v => some (n, v)
  | _ => none

/-- Is the line the first one of an object? -/
def isEntry : RawLine → Bool
  | .entry .. => true
  | _ => false

/-- The attributes in the lines before the next object. -/
def attrsBelow (ls : List Str) : List (Str × Str) :=
  ((ls.map readLine).takeWhile (fun l => !isEntry l)).filterMap attrOf

/-- Read the lines; `at_` is the path of the object before.  The path of an object is found from the
indentation. -/
def readLines (at_ : List Str) : List Str → List ReadEntry
  | [] => []
  | l :: ls =>
    match readLine l with
    | .entry depth name kind =>
      let p := at_.take (depth - 1) ++ [name]
      ⟨p, kind, attrsBelow ls⟩ :: readLines p ls
    | _ => readLines at_ ls

/-- Read a report: the attributes of the file, and the objects in it.  The first line has the name of
the file. -/
def readTree (ls : List Str) : List (Str × Str) × List ReadEntry :=
  (attrsBelow (ls.drop 1), readLines [] (ls.drop 1))

/-! ## what is in the file -/

/-- The links of a group. -/
def memberLinks : Kids → List (Str × LinkKind × Option Node)
  | .nil => []
  | .cons l k n rest => (l, k, some n) :: memberLinks rest
  | .broken l k rest => (l, k, none) :: memberLinks rest

/-- How a link that is not followed is shown. -/
def unfollowedAs : LinkKind → What × List (Str × Val)
  | .soft path => (.soft path, [])
  | k => (.missing, location k)

open Classical in
/-- How the object behind a link is shown, and with which attributes. -/
noncomputable def appearance (env : Env) (isNeXus : Bool) (kind : LinkKind) (o : Option Node) :
    What × List (Str × Val) :=
  let linkTo : List (Str × Val) → What := fun a => .link ((a.lookup s%"target").getD .none)
  match o, followed kind with
  | some (.group name a _), true =>
    if NexusLink env a name then (linkTo a, []) else (.group a, a ++ location kind)
  | some (.dataset name a d), true =>
    if NexusLink env a name then (linkTo a, [])
    else if isNeXus = true ∧ AnyTarget env a name then (linkTo a, location kind)
    else (.dataset isNeXus d, a ++ location kind)
  | some (.datatype _ a), true => (linkTo a, [])
  | _, _ => unfollowedAs kind

/-- At this path (from a group with these members) there is an object that is to be shown in this way.
What is below a link is not shown. -/
inductive ShownAt (env : Env) (isNeXus : Bool) : Kids → List Str → What → List (Str × Val) → Prop
  | here {kids : Kids} {link : Str} {kind : LinkKind} {o : Option Node} :
    (link, kind, o) ∈ memberLinks kids →
    ShownAt env isNeXus kids [link] (appearance env isNeXus kind o).1 (appearance env isNeXus kind o).2
  | within {kids : Kids} {link : Str} {kind : LinkKind} {name : Str} {attrs : List (Str × Val)}
      {sub : Kids} {p : List Str} {w : What} {as : List (Str × Val)} :
    (link, kind, some (.group name attrs sub)) ∈ memberLinks kids → followed kind = true →
    ¬ NexusLink env attrs name → ShownAt env isNeXus sub p w as →
    ShownAt env isNeXus kids (link :: p) w as

/-- A name that can be found in a line. -/
def PlainName (s : Str) : Prop := s ≠ [] ∧ ' ' ∉ s ∧ ':' ∉ s ∧ s.head? ≠ some '@'

/-- Names of attributes have no spaces. -/
def PlainAttrs (as : List (Str × Val)) : Prop := ∀ a ∈ as, ' ' ∉ a.1

/-- Names of classes have no spaces, names of types do not start with one. -/
def PlainWhat (env : Env) : What → Prop
  | .group attrs => ∀ t, ClassTail env attrs t → ' ' ∉ t
  | .dataset _ d => d.dtype.head? ≠ some ' '
  | _ => True

/-- The names in the file are plain. -/
def PlainFile (env : Env) (isNeXus : Bool) (f : H5File) : Prop :=
  PlainAttrs f.attrs ∧ ∀ p w as, ShownAt env isNeXus f.kids p w as →
    (∀ n ∈ p, PlainName n) ∧ PlainWhat env w ∧ PlainAttrs as

/-- The kind that was read is right. -/
def TellsKind (env : Env) : ReadKind → What → Prop
  | .group none, .group attrs => ClassTail env attrs []
  | .group (some c), .group attrs => ClassTail env attrs (':' :: c)
  | .dataset t, .dataset isNeXus d => ∃ v, t = shownType isNeXus d ++ s%" = " ++ v
  | .soft p, .soft q => p = q
  | .missing, .missing => True
  | .link t, .link v => TargetText env v t
  | _, _ => False

/-- The attributes that were read are right, if attributes are shown. -/
def TellsAttrs (env : Env) (showAttrs : Bool) (rs : List (Str × Str)) (as : List (Str × Val)) : Prop :=
  if showAttrs then List.Forall₂ (fun r a => r.1 = a.1 ∧ ValueText env a.2 r.2) rs as else rs = []

/-- What was read is right. -/
def Tells (env : Env) (showAttrs : Bool) (r : ReadEntry) (p : List Str) (w : What)
    (as : List (Str × Val)) : Prop :=
  r.path = p ∧ TellsKind env r.kind w ∧ TellsAttrs env showAttrs r.attrs as

end Punx.Spec

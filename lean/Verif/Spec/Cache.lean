import Verif.Model.Cache

/-!
# What the caches should do

Small independent definitions, used to state the properties of `Verif/Props/Cache*.lean` and
`Verif/Props/Install*.lean`.
-/

namespace Punx.Spec

/-- A file set with the given name is in the directory: there is a subdirectory with an info
file. -/
def IsListed (d : Disk) (name : Str) : Prop := d [name] = some .dir ∧ d [name, infoName] ≠ none

instance (d : Disk) (name : Str) : Decidable (IsListed d name) := by
  unfold IsListed; infer_instance

/-- The text of the info file, if it can be read. -/
def Described (d : Disk) (name : Str) (o : Dict Str Str) : Prop :=
  d [name, infoName] = some (.file (.json o))

/-- The file set that an info file describes. -/
def FromInfo (cachePath name : Str) (o : Dict Str Str) (s : FileSet) : Prop :=
  s.path = cachePath ++ s%"/" ++ name ∧ s.info = s.path ++ s%"/" ++ infoName ∧
  s.ref = Dict.get? o s%"ref" ∧ s.sha = Dict.get? o s%"sha" ∧
  s.zipUrl = Dict.get? o s%"zip_url" ∧ s.lastModified = Dict.get? o s%"last_modified"

/-- An info file says when the file set was modified and from which commit it is. -/
def WellDescribed (s : FileSet) : Prop := s.lastModified ≠ none ∧ s.sha ≠ none

/-- Strictly earlier (in the order of texts). -/
def Earlier (a b : FileSet) : Prop := strLe (dateText b) (dateText a) = false

/-- The most recent one of the sets, the first listed one if there are several. -/
def Latest (sets : Dict Str FileSet) (k : Str) (s : FileSet) : Prop :=
  ∃ before after, sets = before ++ (k, s) :: after ∧
    (∀ x ∈ before, Earlier x.2 s) ∧ (∀ x ∈ after, ¬ Earlier s x.2)

/-- Calls of constructors, one after the other: the results, and the registry afterwards. -/
def callAll {κ α β : Type} [DecidableEq κ] (make : κ → β → Nat → Except PyErr α) (r : Registry κ α) :
    List (κ × β) → List (κ × Except PyErr α) × Registry κ α
  | [] => ([], r)
  | c :: cs =>
    let x := r.call make c.1 c.2
    let y := callAll make x.2 cs
    ((c.1, x.1) :: y.1, y.2)

/-! ## installation -/

/-- `Stops d ops s`: if operations are carried out from disk `d` and this is interrupted at any
point (a crash, a power failure, a full disk, …) then `s` may be what is on the disk: the
operations so far are done; if it happens while a file is written, the file has any content. -/
inductive Stops : Disk → List Op → Disk → Prop
  | here (d : Disk) (ops : List Op) : Stops d ops d
  | later {d : Disk} {op : Op} {ops : List Op} {s : Disk} :
      Stops (op.apply d) ops s → Stops d (op :: ops) s
  | torn (d : Disk) (p : FPath) (c junk : Content) (ops : List Op) :
      Stops d (.write p c :: ops) (d.put p (some (.file junk)))

/-- The components of the name of an archive member, without empty ones and dots. -/
def words (name : Str) : List Str := (split '/' name).filter (fun w => !(w == []) && !(w == s%"."))

/-- The members of an archive that belong to a file set: XML files, schemas and style sheets, in the
directory of a category or in the top directory. -/
def Wanted (top name : Str) : Prop :=
  ∃ front parent stem ext, words name = front ++ [parent, stem ++ ext] ∧ stem ≠ [] ∧
    ext ∈ [s%".xsd", s%".xml", s%".xsl"] ∧
    parent ∈ [s%"base_classes", s%"applications", s%"contributed_definitions", top]

/-- The member that is at a path in the end: the last wanted one with this place. -/
def FinalAt (z : Archive) (top : Str) (p : FPath) (m : ZipMember) : Prop :=
  ∃ before after, z.members = before ++ m :: after ∧ Wanted top m.name ∧
    extractPath m.name = p ∧ ∀ m' ∈ after, Wanted top m'.name → extractPath m'.name ≠ p

/-- What a member becomes: names with a slash at the end are directories. -/
def memberObj (m : ZipMember) : FObj :=
  if s%"/" <:+ m.name then .dir else .file (.raw m.text)

/-- `q` is a directory above `p`. -/
def Above (q p : FPath) : Prop := q ≠ [] ∧ ∃ w rest, p = q ++ w :: rest

/-- The archive has everything in one directory, like those of GitHub. -/
def OneDirectory (z : Archive) (top : Str) : Prop :=
  z.members ≠ [] ∧ '/' ∉ top ∧ top ∉ [[], s%".", s%".."] ∧
  ∀ m ∈ z.members, ∃ rest, m.name = top ++ '/' :: rest

/-- A date is not earlier than another one. -/
def NotBefore (a b : Date) : Prop := natsLe b.toList a.toList = true

/-- The member is the last one with its name. -/
def Current (z : Archive) (m : ZipMember) : Prop :=
  ∃ before after, z.members = before ++ m :: after ∧ ∀ m' ∈ after, m'.name ≠ m.name

/-- The date of the newest wanted member (none is older than the NeXus project). -/
def Newest (z : Archive) (top : Str) (dt : Date) : Prop :=
  (dt = ⟨1980, 1, 1, 1, 1, 1⟩ ∨ ∃ m, Current z m ∧ Wanted top m.name ∧ m.date = dt) ∧
  NotBefore dt ⟨1980, 1, 1, 1, 1, 1⟩ ∧ ∀ m, Current z m → Wanted top m.name → NotBefore dt m.date

/-- A complete file set is in the directory `at_`: every wanted member of the archive, and an info
file that says the name, the commit and the date. -/
def Complete (z : Archive) (top name : Str) (s : Disk) (at_ : FPath) : Prop :=
  s at_ = some .dir ∧
  (∀ q m, FinalAt z top (top :: q) m → s (at_ ++ q) = some (memberObj m)) ∧
  ∃ o dt, s (at_ ++ [s%"__github_info__.json"]) = some (.file (.json o)) ∧ Dict.get? o s%"ref" = some name ∧
    Dict.get? o s%"sha" = some z.comment ∧ Newest z top dt ∧
    Dict.get? o s%"last_modified" = some dt.iso

/-- Nothing changed below a directory (and the directory itself did not). -/
def SameBelow (s d : Disk) (name : Str) : Prop := ∀ q, s (name :: q) = d (name :: q)

/-- Nothing is left of a directory. -/
def Gone (s : Disk) (name : Str) : Prop := ∀ q, s (name :: q) = none

/-- Every info file in the cache can be read and says when and from which commit the set is. -/
def Readable (d : Disk) : Prop :=
  ∀ k, d [k, infoName] ≠ none → ∃ o, Described d k o ∧ Dict.get? o s%"sha" ≠ none ∧
    Dict.get? o s%"last_modified" ≠ none

/-- One use of `punx install`: what the network does, what can be removed, the time, the name, and
`--update`. -/
structure Use where
  net : Nat → Answer
  rm : Removal
  written : Str
  name : Str
  update : Bool

/-- The archives are like those of GitHub: one directory, not called like the requested set, and
nothing in them is called like the info file. -/
def Use.Usual (u : Use) : Prop :=
  ∀ z, u.net 0 = .archive z → ∃ top, OneDirectory z top ∧ top ≠ u.name ∧
    ∀ m ∈ z.members, infoName ∉ extractPath m.name

/-- The disk after a number of complete uses, whether they succeed or fail. -/
def afterUses (d : Disk) : List Use → Disk
  | [] => d
  | u :: us =>
    afterUses (applyAll d (downloadFileSet u.net u.rm u.written d u.name u.update).ops) us

/-- Every set is called like its description says. -/
def TrueNames (d : Disk) : Prop :=
  ∀ k o, d [k, infoName] = some (.file (.json o)) → Dict.get? o s%"ref" = some k

/-- Whatever was downloaded could be put on the disk: no use ended with an error of the file system
after a download. -/
def Untroubled (d : Disk) : List Use → Prop
  | [] => True
  | u :: us =>
    ((∃ z, u.net 0 = .archive z) →
      (downloadFileSet u.net u.rm u.written d u.name u.update).res ≠ .error .osError) ∧
    Untroubled (applyAll d (downloadFileSet u.net u.rm u.written d u.name u.update).ops) us

end Punx.Spec

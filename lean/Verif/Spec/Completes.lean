import Verif.Spec.AppDef
import Verif.Spec.DefaultPlot
import Verif.Spec.Contents

/-!
# Specification vocabulary: which files can be validated to the end

For each step of a validation the condition under which the code raises no exception, in terms of
the values found in the file and of the definitions.  The conditions of the last steps are written
over the items of the catalogue, like the specification of the default plot.
-/

namespace Punx.Spec

/-! ## names and attributes -/

/-- `signal` of a dataset: a decodable value; if it is printed in digits then a number, or text
that `int()` accepts. -/
def FieldSignalOk (env : Env) (v : Val) : Prop :=
  (∃ s, (TextOf env v s ∨ v = .num s) ∧ (env.isdigit s = true → ∃ n, env.int s = some n)) ∨
  (∃ n, v = .int n) ∨
  (∃ xs, v = .arrO xs ∧
    env.isdigit (env.str (if xs = [] then .none else .list xs)) = false) ∨
  (∃ bs ss, v = .arrS bs ∧ bs.map asciiDecode = ss.map some ∧
    env.isdigit (env.str (if bs = [] then .none else .list ss)) = false) ∨
  ((v = .none ∨ v = .empty ∨ (∃ xs, v = .arrNum xs) ∨ ∃ xs, v = .list xs) ∧
    env.isdigit (env.str v) = false)

/-- The attribute `k` with value `v` of the object `owner` can be checked. -/
structure AttrCheckable (env : Env) (owner : H5Obj) (k : Str) (v : Val) : Prop where
  text : k = s%"NX_class" ∨ k = s%"target" ∨ s%"@NX_class" <:+ k → ∃ s, TextOf env v s
  fieldSignal : k = s%"signal" → (∃ n a d, owner = .node (.dataset n a d)) → FieldSignalOk env v
  groupSignal : k = s%"signal" → (∃ n a ks, owner = .node (.group n a ks)) → ∃ s, TextOf env v s
  otherSignal : k = s%"signal" → classReadable env (some v)
  axes : k = s%"axes" → ∃ names, AxesOf env v names ∧
    (names = [] ∨ (∃ g, owner.asGroup = some g) ∧ [] ∉ names)

/-- Names and attributes can be checked: all attributes of NeXus objects are of the kinds
expected. -/
def NamesCheckable (env : Env) (items : List Item) : Prop :=
  ∀ it ∈ items, it.classpath ≠ s%"non-NeXus content" → ∀ attrs, it.obj.attrs? = some attrs →
    ∀ ka ∈ attrs, AttrCheckable env it.obj ka.1 ka.2

/-- Is the value of the attribute `k` checked as the name of a class? -/
def NamesClass (k : Str) : Prop := k = s%"NX_class" ∨ s%"@NX_class" <:+ k

/-- If a NeXus object has a class, the definitions have a pattern for names of classes. -/
def ClassesMatched (mgr : Manager) (items : List Item) : Prop :=
  ∀ it ∈ items, it.classpath ≠ s%"non-NeXus content" → ∀ attrs, it.obj.attrs? = some attrs →
    ∀ ka ∈ attrs, NamesClass ka.1 → HasClassPattern mgr

/-! ## groups -/

/-- A NeXus group with class path `cp` can be compared with the definition `d` of its class. -/
structure GroupCheckable (env : Env) (cp : Str) (attrs : List (Str × Val)) (d : ClassDef) :
    Prop where
  single : ¬ (d.category = .contributed ∧ d.fields = [] ∧ d.links = [] ∧ d.groups.length = 1)
  decode : ∀ ka ∈ attrs, classReadable env (some ka.2)
  text : ∀ ka ∈ attrs, ∀ spec, Dict.get? d.attrs ka.1 = some spec →
    spec.enums ≠ [] ∨ PointsInside cp ka.1 → ∃ s, TextOf env ka.2 s
  target : ∀ ka ∈ attrs, ka.1 = s%"target" → Dict.get? d.attrs ka.1 = none
  occurs : ∀ g ∈ d.groups, ∃ n, MinOccursIs env g.2 n

/-- All NeXus groups can be compared with their definitions; a group below one whose class ends
with a slash has no class. -/
def GroupsCheckable (env : Env) (classes : Dict Str ClassDef) (items : List Item) : Prop :=
  ∀ it ∈ items, ∀ g, it.obj.asGroup = some g → it.classpath ≠ s%"non-NeXus content" →
    (∀ p, it.parent = some p → ¬ s%"/" <:+ p.classpath) ∧
    ∀ c d, GroupClass env it.classpath g.attrs c → Dict.get? classes c = some d →
      GroupCheckable env it.classpath g.attrs d

/-! ## application definitions -/

/-- An item can be made for the object: link target and class can be read. -/
def ItemReadable (env : Env) (n : Node) : Prop :=
  (n.name = s%"/" ∨ NodeClassOk env n) ∧ NodeTargetOk env n

/-- A field of a definition can be looked up in the group `g`.  If its values are enumerated, the
schema must say how often fields occur, and an enumeration with a gap must have the value. -/
def FieldCheckable (env : Env) (mgr : Manager) (f : H5File) (g : Node) (fld : Str × FieldSpec) :
    Prop :=
  (∃ n, h5get f g fld.1 = .ok (some n) ∧ ItemReadable env n ∧
    (fld.2.enums ≠ [] →
      (∃ m a d, n = .dataset m a d ∧ ∃ s, HoldsText env d.value s ∨ HoldsOther env d.value s) ∧
      mgr.fieldMinOccursIsOne ≠ none ∧ (none ∈ fld.2.enums → HasOneOf env n fld.2.enums))) ∨
  (h5get f g fld.1 = .ok none ∧ fld.2.enums = [])

/-- The definition declared by the group `g` can be checked. -/
def DefinitionCheckable (env : Env) (mgr : Manager) (f : H5File) (g : Node) : Prop :=
  ∃ name, Declares env f g name ∧ ∀ ad, Dict.get? mgr.classes name = some ad →
    ∃ gname entry more, ad.groups = (gname, entry) :: more ∧
      ∀ fld ∈ entry.fields, FieldCheckable env mgr f g fld

/-- The objects called `definition` in NXentry and NXsubentry groups. -/
def IsDefinition (it : Item) : Prop :=
  it.classpath = s%"/NXentry/definition" ∨ it.classpath = s%"/NXentry/NXsubentry/definition"

/-- All declared definitions can be checked. -/
def DefinitionsCheckable (env : Env) (mgr : Manager) (f : H5File)
    (items : List Item) : Prop :=
  ∀ it ∈ items, IsDefinition it → ∃ p g, it.parent = some p ∧ p.obj.asGroup = some g ∧
    DefinitionCheckable env mgr f g

/-! ## default plot -/

/-- Attribute `k` of the group of the item, if there is one, is text. -/
def Pointer (env : Env) (i : Item) (k : Str) : Prop :=
  ∃ attrs, i.obj.attrs? = some attrs ∧ (∀ v, attrs.lookup k = some v →
    (∃ s, TextOf env v s) ∧ ∃ g, i.obj.asGroup = some g)

/-- The attribute `signal` of an NXdata group can be followed: the group is a member of a member
of the root, the attributes `signal` and `default` on the way are text, and if there is an object
at the address that the signal is joined to, it was catalogued under this very address. -/
def SignalCheckable (env : Env) (f : H5File) (items : List Item) (it : Item) : Prop :=
  ∃ D E R t, InGroups items it D E R ∧ Pointer env R s%"default" ∧ Pointer env E s%"default" ∧
    Pointer env D s%"signal" ∧ Names env D s%"signal" t ∧
    (PointsAt env f D s%"signal" t → ∃ T, itemAt items t = some T)

/-- The default plot can be looked for: all signals of NXdata groups up to the first missing one
can be followed, and if there is no plot, the definitions say whether one is required. -/
def PlotCheckable (env : Env) (f : H5File) (classes : Dict Str ClassDef) (items : List Item) :
    Prop :=
  (∀ before it after, dataSignals items = before ++ it :: after →
    (∀ i ∈ before, ¬ SignalMissing env f items i) → SignalCheckable env f items it) ∧
  ((¬ ∃ a, AttributePlot env f items a) → (¬ ∃ a, SignalPlot env items a) →
    ∃ d spec, Dict.get? classes s%"NXentry" = some d ∧ Dict.get? d.groups s%"data" = some spec)

/-! ## the catalogue -/

/-- Where the members of a group are: in NeXus content, below a class that ends with a slash, or
outside NeXus content. -/
inductive Place
  | nexus
  | slash
  | outside
  deriving DecidableEq

/-- The place of the members of a group with the attributes `attrs`. -/
def Place.below (env : Env) (attrs : List (Str × Val)) : Place → Place
  | .nexus => match nxClassOf env attrs with
    | some c => if s%"/" <:+ c then .slash else .nexus
    | none => .outside
  | p => p

mutual
/-- The class of each group in NeXus content can be read. -/
def ClassesReadable (env : Env) (p : Place) : Node → Prop
  | .group _ a kids =>
    (p = .nexus → classReadable env (a.lookup s%"NX_class")) ∧
      ClassesReadableKids env (p.below env a) kids
  | _ => True
def ClassesReadableKids (env : Env) (p : Place) : Kids → Prop
  | .nil => True
  | .cons _ _ n rest => ClassesReadable env p n ∧ ClassesReadableKids env p rest
  | .broken _ _ rest => ClassesReadableKids env p rest
end

/-- The file can be catalogued: no link is broken, all link targets and the classes of all groups
in NeXus content can be read. -/
structure FileReadable (env : Env) (f : H5File) : Prop where
  intact : IntactKids f.kids
  rootTarget : targetReadable env (f.attrs.lookup s%"target")
  targets : AllKids (NodeTargetOk env) f.kids
  classes : ClassesReadableKids env .nexus f.kids

/-! ## the whole validation -/

/-- The file can be validated to the end. -/
structure Validatable (env : Env) (mgr : Manager) (f : H5File) : Prop where
  readable : FileReadable env f
  names : NamesCheckable env (contents env f)
  classes : ClassesMatched mgr (contents env f)
  groups : GroupsCheckable env mgr.classes (contents env f)
  definitions : DefinitionsCheckable env mgr f (contents env f)
  plot : PlotCheckable env f mgr.classes (contents env f)

end Punx.Spec

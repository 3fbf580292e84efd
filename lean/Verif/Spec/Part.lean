import Verif.Spec.Expected
import Verif.Spec.Command

/-!
# Specification of the lines that a group has by itself
-/

namespace Punx.Spec

/-- The object `n` is in the file, in a group (or the root) with class path `cp`. -/
inductive Stands (env : Env) (f : H5File) : Str → Node → Prop
  | top {l : Str} {n : Node} : (l, some n) ∈ f.kids.toList → Stands env f [] n
  | inner {cp m l : Str} {a : List (Str × Val)} {ks : Kids} {n : Node} :
      Stands env f cp (.group m a ks) → (l, some n) ∈ ks.toList →
      Stands env f (classpathIn env cp (.group m a ks)) n

/-- The tests that are made of a group for its own sake.  Others are made of it as a member of the
group that it is in. -/
def ownTests : List Str :=
  [s%"validItemName", s%"NeXus_group", s%"known NXDL", s%"NeXus base class",
   s%"NXDL field in data file", s%"NXDL group in data file", s%"NeXus application definition"]

/-- The line is on the object `n` itself, or on something in it, but not on the default plot of the
file, and not on what a link leads to. -/
def OwnLine (n : Node) (l : Line) : Prop :=
  ∃ a, l.1 = some a ∧ ((a = n.name ∧ l.2.1 ∈ ownTests) ∨
    ((∃ r, a = n.name ++ '/' :: r) ∨ ∃ k, a = n.name ++ '@' :: k) ∧
    ¬ s%"NeXus default plot" <+: l.2.1 ∧ ¬ (s%"@target" <:+ a ∧ l.2.1 = s%"attribute value"))

/-- The attributes of the object that name members (`signal`, `axes`, `default`) are no paths from
the root of the file. -/
def NoAbsolute (env : Env) (n : Node) : Prop :=
  ∀ k v s, (k, v) ∈ n.attrs → k ∈ [s%"signal", s%"axes", s%"default"] →
    (TextOf env v s ∨ ∃ names, AxesOf env v names ∧ s ∈ names) → ¬ s%"/" <+: s

/-- The names of fields and groups in the definitions are names, not paths. -/
def SimpleNames (classes : Dict Str ClassDef) : Prop :=
  ∀ c d, Dict.get? classes c = some d →
    (∀ x ∈ d.fields, '/' ∉ x.1) ∧
    ∀ x ∈ d.groups, '/' ∉ x.1 ∧ ∀ y ∈ x.2.fields, '/' ∉ y.1

/-- The names and types of these elements have no `/`. -/
def PlainElements (kids : List Xml) : Prop :=
  ∀ e ∈ kids, ∀ k ∈ [s%"name", s%"type"], ∀ s, Dict.get? e.attrib k = some s → '/' ∉ s

/-- In the definitions of the directory, elements and elements within groups have names and types
without `/`. -/
def PlainDocs (d : SetDir) : Prop :=
  ∀ c fs f x, d.listing c = some fs → f ∈ fs → f.content = some x →
    PlainElements x.kids ∧ ∀ g ∈ x.kids, PlainElements g.kids

end Punx.Spec

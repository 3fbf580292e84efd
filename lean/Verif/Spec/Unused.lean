import Verif.Spec.AppDef
import Verif.Spec.Names
import Verif.Spec.Process

/-!
# Specification vocabulary: the definitions a file uses
-/

namespace Punx.Spec

/-- `n` is `m` or an object somewhere below `m`. -/
inductive InTree : Node → Node → Prop
  | self {n} : InTree n n
  | member {m a ks l k n} : (l, some k) ∈ ks.toList → InTree k n → InTree (.group m a ks) n

/-- The file mentions the definition `c`: it is one of those needed for every file, the `NX_class`
of an object of the file, or declared in the field `definition` of a group of the file. -/
def Mentions (env : Env) (f : H5File) (c : Str) : Prop :=
  c = s%"NXroot" ∨ c = s%"NXentry" ∨
  ∃ n, InTree f.root n ∧
    ((∃ v, (s%"NX_class", v) ∈ n.attrs ∧ TextOf env v c) ∨ Declares env f n c)

/-- Two sets of definitions with the same schema facts that agree on the definitions in `P`. -/
structure AgreeOn (P : Str → Prop) (m m' : Manager) : Prop where
  items : m.itemPats = m'.itemPats
  names : m.classPats = m'.classPats
  minOccurs : m.fieldMinOccursIsOne = m'.fieldMinOccursIsOne
  classes : ∀ c, P c → Dict.get? m.classes c = Dict.get? m'.classes c

/-- The directory of a set has the file `f` in the category `c`. -/
def HasFile (d : SetDir) (c : Category) (f : NxdlFile) : Prop := ∃ fs, d.listing c = some fs ∧ f ∈ fs

/-- Two directories with the same schema files and the same definition files for the names in `P`. -/
structure SameFilesFor (P : Str → Prop) (d d' : SetDir) : Prop where
  xsd : d.xsd = d'.xsd
  types : d.types = d'.types
  files : ∀ t, P t → ∀ c f, IsNxdl f → Titled f t → (HasFile d c f ↔ HasFile d' c f)

/-- No two files of a category have the same name. -/
def DistinctFiles (d : SetDir) : Prop :=
  ∀ c f g, HasFile d c f → HasFile d c g → f.name = g.name → f = g

end Punx.Spec

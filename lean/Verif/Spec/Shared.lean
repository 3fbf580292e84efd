import Verif.Spec.NxdlParse

/-!
# Where a definition declares attributes and groups
-/

namespace Punx.Spec
open Punx

/-- There is an attribute somewhere in the element: of the element itself, of one of its fields, or in
one of its groups. -/
inductive HasAttribute : Xml → Prop
  | here {x a} : a ∈ elements s%"attribute" x.kids → HasAttribute x
  | ofField {x f a} : f ∈ elements s%"field" x.kids → a ∈ elements s%"attribute" f.kids →
      HasAttribute x
  | deeper {x g} : g ∈ elements s%"group" x.kids → HasAttribute g → HasAttribute x

/-- There is a group in the element. -/
def HasGroup (x : Xml) : Prop := elements s%"group" x.kids ≠ []

/-- The defaults of the schema after a reading that met attributes if `A`, fields if `F`, groups if `G`:
attributes are not optional, fields and groups occur at least once; everything else stays. -/
structure After (A F G : Prop) (d d' : Defaults) : Prop where
  attributes : A → d'.attrOptional = some (.bool false)
  noAttributes : ¬ A → d'.attrOptional = d.attrOptional
  fields : F → d'.fieldMinOccurs = some (.int 1)
  noFields : ¬ F → d'.fieldMinOccurs = d.fieldMinOccurs
  groups : G → d'.groupMinOccurs = some (.int 1)
  noGroups : ¬ G → d'.groupMinOccurs = d.groupMinOccurs
  dimensions : d'.dimensions = d.dimensions
  dim : d'.dim = d.dim

/-- Some application definition of the directory is like this. -/
def InApplications (dir : DefDir) (P : Xml → Prop) : Prop :=
  ∃ fs f x, dir.listing .applications = some fs ∧ f ∈ fs ∧ IsNxdl f ∧ f.content = some x ∧ P x

end Punx.Spec

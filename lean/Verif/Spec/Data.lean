import Verif.Spec.Unused

/-!
# Files that differ in their data only

The objects, their names and attributes and the names of links are the same; what the datasets hold
(values, types, shapes) and the kinds of links (hard, soft, external) are not.
-/

namespace Punx.Spec

mutual
/-- The objects, reached by links called `l`, differ in what datasets hold only; a dataset reached
by a link whose name is in `K` has the same value. -/
inductive LikeNode (K : Str → Prop) : Str → Node → Node → Prop
  | dataset {l n : Str} {a : List (Str × Val)} {d d' : DataInfo} : (K l → d.value = d'.value) →
      LikeNode K l (.dataset n a d) (.dataset n a d')
  | datatype {l n : Str} {a : List (Str × Val)} : LikeNode K l (.datatype n a) (.datatype n a)
  | group {l n : Str} {a : List (Str × Val)} {ks ks' : Kids} : LikeKids K ks ks' →
      LikeNode K l (.group n a ks) (.group n a ks')
/-- The same for the members of a group; the links may be of other kinds. -/
inductive LikeKids (K : Str → Prop) : Kids → Kids → Prop
  | nil : LikeKids K .nil .nil
  | cons {l : Str} {k k' : LinkKind} {n n' : Node} {r r' : Kids} : LikeNode K l n n' →
      LikeKids K r r' → LikeKids K (.cons l k n r) (.cons l k' n' r')
  | broken {l : Str} {k k' : LinkKind} {r r' : Kids} : LikeKids K r r' →
      LikeKids K (.broken l k r) (.broken l k' r')
end

/-- The files differ in what datasets hold and in the kinds of links only, and not in the values of the datasets reached by
links whose names are in `K`. -/
structure OtherData (K : Str → Prop) (f f' : H5File) : Prop where
  attrs : f.attrs = f'.attrs
  kids : LikeKids K f.kids f'.kids

/-- The names of the datasets whose values are looked at: `definition`, and those that an application
definition declared in the file describes with a list of values. -/
def Looked (env : Env) (mgr : Manager) (f : H5File) (l : Str) : Prop :=
  l = s%"definition" ∨
  ∃ g c ad gname entry more fld, InTree f.root g ∧ Declares env f g c ∧
    Dict.get? mgr.classes c = some ad ∧ ad.groups = (gname, entry) :: more ∧
    fld ∈ entry.fields ∧ fld.2.enums ≠ [] ∧ (pathParts fld.1).getLast? = some l

end Punx.Spec

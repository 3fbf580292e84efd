import Verif.Model.H5

/-!
# Files that differ in the kinds of links only
-/

namespace Punx.Spec

mutual
/-- The objects differ in the kinds of links only. -/
inductive Relinked : Node → Node → Prop
  | dataset (n : Str) (a : List (Str × Val)) (d : DataInfo) : Relinked (.dataset n a d) (.dataset n a d)
  | datatype (n : Str) (a : List (Str × Val)) : Relinked (.datatype n a) (.datatype n a)
  | group (n : Str) (a : List (Str × Val)) {ks ks' : Kids} : RelinkedKids ks ks' →
      Relinked (.group n a ks) (.group n a ks')
/-- The same for the members of a group. -/
inductive RelinkedKids : Kids → Kids → Prop
  | nil : RelinkedKids .nil .nil
  | cons (l : Str) (k k' : LinkKind) {n n' : Node} {r r' : Kids} : Relinked n n' → RelinkedKids r r' →
      RelinkedKids (.cons l k n r) (.cons l k' n' r')
  | broken (l : Str) (k k' : LinkKind) {r r' : Kids} : RelinkedKids r r' →
      RelinkedKids (.broken l k r) (.broken l k' r')
end

/-- The files differ in the kinds of links only. -/
structure OtherLinks (f f' : H5File) : Prop where
  attrs : f.attrs = f'.attrs
  kids : RelinkedKids f.kids f'.kids

end Punx.Spec

import Mathlib.Data.List.Forall2
import Verif.Spec.Expected

/-!
# Files that differ in the order of members and attributes only

HDF5 keeps the members of a group and the attributes of an object in an order (by name, or by time
of creation), which says nothing about the content.
-/

namespace Punx.Spec

/-- A link of a group; without an object it is broken. -/
def linkTo (l : Str) (k : LinkKind) : Option Node → Kids → Kids
  | some n, rest => .cons l k n rest
  | none, rest => .broken l k rest

mutual
/-- The objects differ in the order of members and attributes only, also further below. -/
inductive SameNode : Node → Node → Prop
  | dataset {n : Str} {a a' : List (Str × Val)} {d : DataInfo} : a.Perm a' →
      SameNode (.dataset n a d) (.dataset n a' d)
  | datatype {n : Str} {a a' : List (Str × Val)} : a.Perm a' →
      SameNode (.datatype n a) (.datatype n a')
  | group {n : Str} {a a' : List (Str × Val)} {ks ks' : Kids} : a.Perm a' → SameKids ks ks' →
      SameNode (.group n a ks) (.group n a' ks')
/-- The members of a group differ in their order only. -/
inductive SameKids : Kids → Kids → Prop
  | nil : SameKids .nil .nil
  | cons {l : Str} {k : LinkKind} {n n' : Node} {r r' : Kids} : SameNode n n' → SameKids r r' →
      SameKids (.cons l k n r) (.cons l k n' r')
  | broken {l : Str} {k : LinkKind} {r r' : Kids} : SameKids r r' →
      SameKids (.broken l k r) (.broken l k r')
  | swap {l l' : Str} {k k' : LinkKind} {o o' : Option Node} {r : Kids} :
      SameKids (linkTo l k o (linkTo l' k' o' r)) (linkTo l' k' o' (linkTo l k o r))
  | trans {a b c : Kids} : SameKids a b → SameKids b c → SameKids a c
end

/-- The files differ in the order of members and attributes only. -/
structure SameFile (f f' : H5File) : Prop where
  attrs : f.attrs.Perm f'.attrs
  kids : SameKids f.kids f'.kids

end Punx.Spec

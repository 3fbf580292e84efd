import Verif.Spec.LinkGraph
import Verif.Spec.Catalog

/-!
# The tree of links of a file
-/

namespace Punx.Spec

mutual
/-- The tree `t` is what one sees when following the links from the object `v`: every link
leads to a copy of what it points at. -/
def Unfolds (g : Store) (v : Nat) : Node → Prop
  | .group _ _ kids => ∃ ms, g.at v = .group ms ∧ UnfoldsKids g ms kids
  | _ => g.at v = .other
/-- The same for the members of a group. -/
def UnfoldsKids (g : Store) : List (Option Nat) → Kids → Prop
  | [], .nil => True
  | some j :: ms, .cons _ _ n rest => Unfolds g j n ∧ UnfoldsKids g ms rest
  | none :: ms, .broken _ _ rest => UnfoldsKids g ms rest
  | _, _ => False
end

/-- The position in the catalogue of the object at the end of these links. -/
def position (p : List Nat) : List Nat := (p.map fun i => 2 * i + 2).reverse

/-- The visit is one of an object, not of an attribute. -/
def Visit.isObject (v : Visit) : Bool :=
  match v.2.1 with
  | .val _ => false
  | _ => true

end Punx.Spec

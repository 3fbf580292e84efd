import Verif.Model.TreeGraph
import Mathlib.Logic.Relation

/-!
# Groups shown in a tree report
-/

namespace Punx.Spec

/-- `Shows g s s'`: below the group `s.2` that is shown as `s.1`, the group `s'.2` is shown
as `s'.1`: there is a hard link to it, and if it says where it belongs, it is here. -/
def Shows (g : TStore) (s s' : Str × Nat) : Prop :=
  ∃ t links n t' links', g.at s.2 = .group t links ∧ (n, some s'.2) ∈ links ∧
    s'.1 = memberName s.1 n ∧ g.at s'.2 = .group t' links' ∧ (t' = [] ∨ t' = s'.1)

/-- a group without a `target` -/
def Free (g : TStore) (v : Nat) : Prop := ∃ links, g.at v = .group [] links

/-- a hard link between two groups without `target` -/
def FreeLink (g : TStore) (v w : Nat) : Prop :=
  ∃ links n, g.at v = .group [] links ∧ (n, some w) ∈ links ∧ Free g w

/-- A group contains itself, and no group on the way has a `target`. -/
def FreeCycle (g : TStore) (v : Nat) : Prop := Relation.TransGen (FreeLink g) v v

/-- Link names are not empty. -/
def NamedLinks (g : TStore) : Prop :=
  ∀ v t links, g.at v = .group t links → ∀ l ∈ links, l.1 ≠ []

end Punx.Spec

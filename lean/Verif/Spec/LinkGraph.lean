import Verif.Model.LinkGraph

/-!
# Paths in a file
-/

namespace Punx.Spec

/-- `Follows g v p w`: following the links numbered `p` from `v` leads to `w`. -/
inductive Follows (g : Store) : Nat → List Nat → Nat → Prop
  | nil {v} : Follows g v [] v
  | cons {v ms i u p w} : g.at v = .group ms → ms[i]? = some (some u) → Follows g u p w →
      Follows g v (i :: p) w

/-- A group that can be reached from `v` contains itself. -/
def CycleBelow (g : Store) (v : Nat) : Prop :=
  ∃ p u q, Follows g v p u ∧ q ≠ [] ∧ Follows g u q u

/-- A group that can be reached from `v` has a broken link. -/
def BrokenBelow (g : Store) (v : Nat) : Prop :=
  ∃ p u ms, Follows g v p u ∧ g.at u = .group ms ∧ none ∈ ms

end Punx.Spec

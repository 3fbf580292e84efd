import Verif.Props.TreeName
import Verif.Cases.Agree

/-!
# C155 applied to a file
-/

namespace Punx

/-- The three cases of `tree_name_only` occur. -/
theorem tree_name_cases :
    (∀ fname, treeReport sampleEnv 5 true fname (.hdf5 ⟨[(s%"creator", .str s%"me")],
        .broken s%"x" (.soft s%"/y") .nil⟩) =
      .ok (some [fname, s%"  @creator = \"me\"", s%"  x: --> /y"])) ∧
    (∀ fname, treeReport sampleEnv 5 true fname .missing = .ok none) ∧
    ∀ fname, treeReport sampleEnv 5 true fname .notHdf5 = .error .osError := by
  refine ⟨fun fname => ?_, fun _ => rfl, fun _ => rfl⟩
  have := tree_name_only sampleEnv 5 true (.hdf5 ⟨[(s%"creator", .str s%"me")],
        .broken s%"x" (.soft s%"/y") .nil⟩)
  have e : treeReport sampleEnv 5 true [] (.hdf5 ⟨[(s%"creator", .str s%"me")],
        .broken s%"x" (.soft s%"/y") .nil⟩) = .ok (some [[], s%"  @creator = \"me\"", s%"  x: --> /y"]) := by rfl
  rcases this with ⟨a, ls, h⟩ | h | ⟨_, h⟩
  · have h0 := h []
    rw [e] at h0
    simp only [List.nil_append, Except.ok.injEq, Option.some.injEq, List.cons.injEq] at h0
    rw [h fname, ← h0.1, ← h0.2, List.append_nil]
  · have h0 := h []
    rw [e] at h0
    cases h0
  · have h0 := h []
    rw [e] at h0
    cases h0

end Punx

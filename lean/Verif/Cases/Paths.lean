import Verif.Props.Paths

/-!
# C148 applied to a file
-/

namespace Punx
open Spec

/-- The path `//e/./d/x` leads to the field `x`. -/
example : ∃ m, LeadsTo attrFile attrFile.root s%"//e/./d/x" m ∧ m.name = s%"/e/d/x" :=
  ⟨_, (path_object.2 (by decide)).1.2 rfl, rfl⟩

/-- The path `e/q` leads to nothing, and the empty path is refused. -/
example : (∀ m, ¬ LeadsTo attrFile attrFile.root s%"e/q" m) ∧
    h5get attrFile attrFile.root [] = .error .valueError :=
  ⟨(path_object (m := attrFile.root).2 (by decide)).2.2 rfl, (path_object (m := attrFile.root)).1 rfl⟩

/-- There are links `e/d/x`, `/` and `e/d/.`, but not `e/q` and `e/d/x/.`. -/
example : LinkAt attrFile attrFile.root s%"e/d/x" ∧ LinkAt attrFile attrFile.root s%"/" ∧
    LinkAt attrFile attrFile.root s%"e/d/." ∧ ¬ LinkAt attrFile attrFile.root s%"e/q" ∧
    ¬ LinkAt attrFile attrFile.root s%"e/d/x/." := by
  refine ⟨(path_contained.1 (by decide)).2, (path_contained.1 (by decide)).2,
    (path_contained.1 (by decide)).2, fun h => ?_, fun h => ?_⟩
  · exact absurd (path_contained.2 ⟨by decide, h⟩) (by decide)
  · exact absurd (path_contained.2 ⟨by decide, h⟩) (by decide)

/-- A broken link is there, but leads to nothing. -/
def danglingFile : H5File := ⟨[], .broken s%"x" (.soft s%"y") .nil⟩

example : LinkAt danglingFile danglingFile.root s%"x" ∧
    ∀ m, ¬ LeadsTo danglingFile danglingFile.root s%"x" m :=
  ⟨(path_contained.1 (by decide)).2, (path_object (m := danglingFile.root).2 (by decide)).2.2 rfl⟩

/-- `signal_path`: the attribute `/e/d@signal`. -/
example : ∃ it ∈ (catalog sampleEnv attrFile).log, ∃ s st c st' c', TextOf sampleEnv (.str s%"x") s ∧
    attrFindings (validateOpen sampleEnv sampleMgr [] attrFile).log it.oid =
      [⟨some s%"/e/d@signal", s%"valid name @signal=" ++ s, st, c⟩,
       ⟨some s%"/e/d@signal", s%"attribute value", st', c'⟩] ∧
    ∃ g, (st' = .ok ↔ s ≠ [] ∧ LinkAt attrFile g s) := by
  obtain ⟨s, st, c, st', c', h1, h2, h3, _⟩ := signal_path attrFile_ok
    (it := (catalog sampleEnv attrFile).log[6]) (List.getElem_mem _) rfl rfl rfl rfl rfl
  exact ⟨_, List.getElem_mem _, s, st, c, st', c', h1, h2, _, h3⟩

end Punx

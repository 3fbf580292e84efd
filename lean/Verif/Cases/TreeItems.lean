import Verif.Props.TreeItems
import Verif.Cases.Agree

/-!
# C152 applied to files
-/

namespace Punx
open Spec

/-- A file with a list of four numbers and an array with four dimensions, the last of which is
large. -/
def fourFile : H5File where
  attrs := []
  kids := .cons s%"a" .hard (.dataset s%"/a" [] ⟨.arrNum [], .other, s%"int64", some [4], [], [],
      fun i => natStr i.sum, s%"0"⟩)
    (.cons s%"b" .hard (.dataset s%"/b" [] ⟨.arrNum [], .other, s%"int64", some [3, 1, 1, 900], [], [],
      fun _ => s%"0", s%"0"⟩) .nil)

theorem fourFile_fits {m : Int} (h : 4 ≤ m) : AllFitKids m fourFile.kids := by
  simp only [fourFile, AllFitKids, AllFit, FitsIn, and_true]
  refine ⟨?_, ?_⟩ <;> rintro - _ ⟨⟩ n hn <;> simp [extents] at hn <;> omega

/-- `tree_items_enough` -/
example : treeReport sampleEnv 4 true s%"f" (.hdf5 fourFile) =
    treeReport sampleEnv 1000 true s%"f" (.hdf5 fourFile) :=
  tree_items_enough (by omega) (by omega) (fourFile_fits (by omega)) (fourFile_fits (by omega))

/-- `tree_items_few` -/
example : treeReport sampleEnv 2 true s%"f" (.hdf5 fourFile) =
    treeReport sampleEnv (-7) true s%"f" (.hdf5 fourFile) := tree_items_few _ (by omega) (by omega)

/-- **C152**: for an array that is longer the number matters, and from two to three it matters
for every array. -/
theorem tree_items_matter :
    treeReport sampleEnv 3 true s%"f" (.hdf5 fourFile) ≠
      treeReport sampleEnv 4 true s%"f" (.hdf5 fourFile) ∧
    treeReport sampleEnv 2 true s%"f" (.hdf5 fourFile) ≠
      treeReport sampleEnv 4 true s%"f" (.hdf5 fourFile) := by
  have t {m m'} (h : (treeReport sampleEnv m true s%"f" (.hdf5 fourFile)).toOption.join.map (·.map List.length) ≠
      (treeReport sampleEnv m' true s%"f" (.hdf5 fourFile)).toOption.join.map (·.map List.length)) :
      treeReport sampleEnv m true s%"f" (.hdf5 fourFile) ≠
        treeReport sampleEnv m' true s%"f" (.hdf5 fourFile) := fun e => h (by rw [e])
  exact ⟨t (by decide +kernel), t (by decide +kernel)⟩

end Punx

import Verif.Props.Whole3
import Verif.Cases.Expected

/-!
# C130 applied to files
-/

namespace Punx
open Spec

/-- An NXentry group whose plot is given by attributes. -/
def entryA : Node :=
  .group s%"/a" [(s%"NX_class", .str s%"NXentry"), (s%"default", .str s%"d")]
    (.cons s%"d" .hard (.group s%"/a/d" [(s%"NX_class", .str s%"NXdata"), (s%"signal", .str s%"x")]
      (.cons s%"x" .hard (.dataset s%"/a/d/x" [] (.ofVal (.int 1))) .nil)) .nil)

/-- An NXentry group with a field that is marked as the signal. -/
def entryB : Node :=
  .group s%"/b" [(s%"NX_class", .str s%"NXentry")]
    (.cons s%"d" .hard (.group s%"/b/d" [(s%"NX_class", .str s%"NXdata")]
      (.cons s%"x" .hard (.dataset s%"/b/d/x" [(s%"signal", .int 1)] (.ofVal (.int 1))) .nil)) .nil)

/-- A field. -/
def fieldC : Node := .dataset s%"/c" [] (.ofVal (.int 3))

/-- The parts, and the file. -/
def partA : H5File where
  attrs := [(s%"default", .str s%"a")]
  kids := .cons s%"c" .hard fieldC (.cons s%"a" .hard entryA .nil)

def partB : H5File where
  attrs := [(s%"creator", .str s%"me")]
  kids := .cons s%"b" (.soft s%"/b") entryB (.cons s%"c" .hard fieldC .nil)

def wholeFile : H5File where
  attrs := [(s%"creator", .str s%"me"), (s%"default", .str s%"a")]
  kids := .cons s%"a" .hard entryA (.cons s%"b" .hard entryB (.cons s%"c" .hard fieldC .nil))

theorem wholeFile_wellNamed : WellNamedFile wholeFile := by
  simp [WellNamedFile, wholeFile, entryA, entryB, fieldC, WellNamedKids, WellNamed, Kids.toList]

theorem partA_wellNamed : WellNamedFile partA := by
  simp [WellNamedFile, partA, entryA, fieldC, WellNamedKids, WellNamed, Kids.toList]

theorem partB_wellNamed : WellNamedFile partB := by
  simp [WellNamedFile, partB, entryB, fieldC, WellNamedKids, WellNamed, Kids.toList]

theorem wholeFile_made : MadeOf wholeFile [partA, partB] := by
  refine ⟨by simp, ?_, ?_, ?_⟩
  · simp only [List.forall_mem_cons, List.not_mem_nil, false_implies, implies_true, and_true]
    constructor <;> constructor <;> simp [partA, partB, wholeFile, Kids.toList]
  · simp [partA, partB, wholeFile]
  · simp [partA, partB, wholeFile, Kids.toList]

theorem wholeFile_noMarks : NoRootMarks sampleEnv wholeFile := by
  intro l n a d k v h hk _
  simp only [wholeFile, Kids.toList, entryA, entryB, fieldC] at h
  simp at h
  obtain ⟨_, _, rfl, _⟩ := h
  cases hk

theorem wholeFile_default : DefaultIsText sampleEnv wholeFile := by
  intro v h
  simp only [wholeFile] at h
  simp at h
  exact ⟨_, .inl h⟩

/-- The hypotheses of C130 hold for the file and its two parts. -/
theorem whole_case : (validateOpen sampleEnv sampleMgr [] wholeFile).res = .ok () ∧
    ∀ x ∈ findings (validateOpen sampleEnv sampleMgr [] wholeFile).log, x.status ≠ .error := by
  refine parts_accepted (parts := [partA, partB]) (by rfl) wholeFile_wellNamed ?_ sampleMgr_entry
    wholeFile_made wholeFile_noMarks wholeFile_default ?_
  · simp [partA_wellNamed, partB_wellNamed]
  · simp only [List.forall_mem_cons, List.not_mem_nil, false_implies, implies_true, and_true]
    exact ⟨⟨by rfl, by decide +kernel⟩, ⟨by rfl, by decide +kernel⟩⟩

/-- A field of the root that is marked as the signal. -/
def rootMarkFile (l : Str) (rest : Kids) : H5File where
  attrs := []
  kids := .cons l .hard (.dataset ('/' :: l) [(s%"signal", .int 1)] (.ofVal (.int 1))) rest

/-- Two such fields are each accepted alone, but not together. -/
theorem root_marks_reject :
    (validateOpen sampleEnv sampleMgr [] (rootMarkFile s%"x" .nil)).res = .ok () ∧
    errorsOf (rootMarkFile s%"x" .nil) = [] ∧
    (validateOpen sampleEnv sampleMgr [] (rootMarkFile s%"y" .nil)).res = .ok () ∧
    errorsOf (rootMarkFile s%"y" .nil) = [] ∧
    MadeOf (rootMarkFile s%"x" (rootMarkFile s%"y" .nil).kids)
      [rootMarkFile s%"x" .nil, rootMarkFile s%"y" .nil] ∧
    errorsOf (rootMarkFile s%"x" (rootMarkFile s%"y" .nil).kids) ≠ [] := by
  refine ⟨by rfl, by decide +kernel, by rfl, by decide +kernel, ⟨by simp, ?_, ?_, ?_⟩,
    by decide +kernel⟩
  · simp only [List.forall_mem_cons, List.not_mem_nil, false_implies, implies_true, and_true]
    constructor <;> constructor <;> simp [rootMarkFile, Kids.toList]
  · simp [rootMarkFile]
  · simp [rootMarkFile, Kids.toList]

/-- The other direction does not hold: parts of an accepted file need not be accepted. -/
theorem part_rejected :
    errorsOf wholeFile = [] ∧
    Excerpt { attrs := partA.attrs, kids := partB.kids } wholeFile ∧
    errorsOf { attrs := partA.attrs, kids := partB.kids } ≠ [] := by
  refine ⟨by decide +kernel, ?_, by decide +kernel⟩
  constructor <;> simp [partA, partB, wholeFile, Kids.toList]

end Punx

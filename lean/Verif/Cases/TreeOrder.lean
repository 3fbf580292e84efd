import Verif.Props.TreeOrder
import Verif.Cases.Agree

/-!
# C150 applied to files
-/

namespace Punx
open Spec

/-- An entry, and a NeXus link whose class is an empty array. -/
def linkLastFile : H5File where
  attrs := []
  kids := .cons s%"e" .hard (.group s%"/e" [(s%"NX_class", .str s%"NXentry")] .nil)
    (.cons s%"a" .hard (.group s%"/a" [(s%"NX_class", .arrO []), (s%"target", .str s%"/e")] .nil) .nil)

/-- The same with the link in front. -/
def linkFirstFile : H5File where
  attrs := []
  kids := .cons s%"a" .hard (.group s%"/a" [(s%"NX_class", .arrO []), (s%"target", .str s%"/e")] .nil)
    (.cons s%"e" .hard (.group s%"/e" [(s%"NX_class", .str s%"NXentry")] .nil) .nil)

theorem linkLast_same : SameFile linkLastFile linkFirstFile :=
  ⟨.refl _, .swap (o := some _) (o' := some _)⟩

theorem linkLast_wellNamed : WellNamedFile linkLastFile := by
  simp [WellNamedFile, linkLastFile, WellNamedKids, WellNamed, Kids.toList]

/-- **C150** (violated): whether the report can be made depends on the order of the members. -/
theorem tree_order_fails : ¬ ∀ (env : Env) (shown : Int) (sa : Bool) (fname : Str)
    (f f' : H5File) (ts : List Str), SameFile f f' → WellNamedFile f →
    treeReport env shown sa fname (.hdf5 f) = .ok (some ts) →
    ∃ ts', treeReport env shown sa fname (.hdf5 f') = .ok (some ts') := by
  intro h
  obtain ⟨ts', h⟩ := h sampleEnv 5 true s%"f" linkLastFile linkFirstFile _ linkLast_same
    linkLast_wellNamed (by rfl)
  have e : treeReport sampleEnv 5 true s%"f" (.hdf5 linkFirstFile) = .error .indexError := by rfl
  rw [e] at h
  cases h

/-- An entry with two attributes and two members. -/
def orderFile : H5File where
  attrs := []
  kids := .cons s%"e" .hard (.group s%"/e" [(s%"NX_class", .str s%"NXentry"), (s%"b", .str s%"1")]
    (.broken s%"x" (.soft s%"/q") (.cons s%"d" .hard (.group s%"/e/d" [] .nil) .nil))) .nil

/-- The same in another order. -/
def orderFile' : H5File where
  attrs := []
  kids := .cons s%"e" .hard (.group s%"/e" [(s%"b", .str s%"1"), (s%"NX_class", .str s%"NXentry")]
    (.cons s%"d" .hard (.group s%"/e/d" [] .nil) (.broken s%"x" (.soft s%"/q") .nil))) .nil

theorem orderFile_same : SameFile orderFile orderFile' :=
  ⟨.refl _, .cons (.group (.swap _ _ _) (.swap (o := none) (o' := some _))) .nil⟩

theorem orderFile_wellNamed : WellNamedFile orderFile := by
  simp [WellNamedFile, orderFile, WellNamedKids, WellNamed, Kids.toList]

/-- **C150** (violated): attributes are shown in the order of the file. -/
theorem tree_attribute_order : ¬ ∀ (env : Env) (shown : Int) (fname : Str) (f f' : H5File)
    (ts ts' : List Str), SameFile f f' → WellNamedFile f →
    treeReport env shown true fname (.hdf5 f) = .ok (some ts) →
    treeReport env shown true fname (.hdf5 f') = .ok (some ts') → ts = ts' := by
  intro h
  have := h sampleEnv 5 s%"f" orderFile orderFile' _ _ orderFile_same orderFile_wellNamed
    (by rfl) (by rfl)
  revert this
  decide

/-- `tree_order_partial`: without attributes the reports are the same. -/
example {ts : List Str} (hr : treeReport sampleEnv 5 false s%"f" (.hdf5 orderFile) = .ok (some ts)) :
    treeReport sampleEnv 5 false s%"f" (.hdf5 orderFile') = .ok (some ts) := by
  obtain ⟨ts', h1, -, h2⟩ := tree_order_partial orderFile_same orderFile_wellNamed
    ⟨true, (isNeXusFile_spec sampleEnv).2.2.1 orderFile' |>.1 (by rfl)⟩ hr
  rw [h2 rfl]
  exact h1

example : (treeReport sampleEnv 5 false s%"f" (.hdf5 orderFile)).toOption.join.isSome = true := by rfl

end Punx

import Verif.Props.Reorder4
import Verif.Cases.Expected

/-!
# C107 applied to files
-/

namespace Punx
open Spec

/-- An NXdata group in `/e` with a signal and the field `x`. -/
def dataGroup (n signal : Str) : Node :=
  .group (s%"/e/" ++ n) [(s%"NX_class", .str s%"NXdata"), (s%"signal", .str signal)]
    (.cons s%"x" .hard (.dataset (s%"/e/" ++ n ++ s%"/x") [] (.ofVal (.int 1))) .nil)

/-- A file with two NXdata groups in `/e`. -/
def twoData (n m : Str) (a b : Str) : H5File where
  attrs := []
  kids := .cons s%"e" .hard (.group s%"/e" [(s%"NX_class", .str s%"NXentry")]
    (.cons n .hard (dataGroup n a) (.cons m .hard (dataGroup m b) .nil))) .nil

theorem twoData_same (n m a b : Str) : SameFile (twoData n m a b) (twoData m n b a) where
  attrs := .refl _
  kids := .cons (.group (.refl _)
    (.swap (o := some (dataGroup n a)) (o' := some (dataGroup m b)))) .nil

theorem twoData_wellNamed (a b : Str) : WellNamedFile (twoData s%"c" s%"d" a b) := by
  simp [WellNamedFile, twoData, dataGroup, WellNamedKids, WellNamed, Kids.toList]

/-- Two signals that exist: the hypotheses of C107 hold. -/
theorem order_irrelevant_case :
    (validateOpen sampleEnv sampleMgr [] (twoData s%"d" s%"c" s%"x" s%"x")).res = .ok () ∧
    ∀ l, l ∈ report (validateOpen sampleEnv sampleMgr [] (twoData s%"c" s%"d" s%"x" s%"x")).log ↔
      l ∈ report (validateOpen sampleEnv sampleMgr [] (twoData s%"d" s%"c" s%"x" s%"x")).log :=
  order_irrelevant_partial (by rfl) (twoData_same _ _ _ _) (twoData_wellNamed _ _) sampleMgr_entry
    (by rfl) (by
      intro a h
      have : ∀ l ∈ report (validateOpen sampleEnv sampleMgr []
        (twoData s%"c" s%"d" s%"x" s%"x")).log, l.2.2 ≠ .error := by decide +kernel
      exact this _ h rfl)

/-- The lines are the same, but the plot that was found is that of the last group. -/
theorem order_chooses_plot :
    lastVerdict (validateOpen sampleEnv sampleMgr [] (twoData s%"c" s%"d" s%"x" s%"x")).log =
      some (s%"NeXus default plot", .ok, s%"found by v3: /e/d/x") ∧
    lastVerdict (validateOpen sampleEnv sampleMgr [] (twoData s%"d" s%"c" s%"x" s%"x")).log =
      some (s%"NeXus default plot", .ok, s%"found by v3: /e/c/x") := ⟨by rfl, by rfl⟩

/-- C107 fails for a file with a missing signal: the signal of `/e/c` exists, that of `/e/d` is
missing.  Both validations complete, but if `/e/d` comes first the search stops there, and the good
signal is not reported. -/
theorem order_matters : ∃ f f' : H5File, SameFile f f' ∧ WellNamedFile f ∧
    (validateOpen sampleEnv sampleMgr [] f).res = .ok () ∧
    (validateOpen sampleEnv sampleMgr [] f').res = .ok () ∧
    ∃ l, l ∈ report (validateOpen sampleEnv sampleMgr [] f).log ∧
      l ∉ report (validateOpen sampleEnv sampleMgr [] f').log :=
  ⟨twoData s%"c" s%"d" s%"x" s%"q", twoData s%"d" s%"c" s%"q" s%"x", twoData_same _ _ _ _,
    twoData_wellNamed _ _, by rfl, by rfl,
    (some s%"/e/c@signal", s%"NeXus default plot v3, NXdata@signal", .ok), by decide +kernel,
    by decide +kernel⟩

/-- C107: of two missing signals the first one is reported. -/
theorem order_chooses_missing : ∃ f f' : H5File, SameFile f f' ∧ WellNamedFile f ∧
    (validateOpen sampleEnv sampleMgr [] f).res = .ok () ∧
    (validateOpen sampleEnv sampleMgr [] f').res = .ok () ∧
    ∃ l, l.2.2 = .error ∧ l ∈ report (validateOpen sampleEnv sampleMgr [] f).log ∧
      l ∉ report (validateOpen sampleEnv sampleMgr [] f').log :=
  ⟨twoData s%"c" s%"d" s%"q" s%"q", twoData s%"d" s%"c" s%"q" s%"q", twoData_same _ _ _ _,
    twoData_wellNamed _ _, by rfl, by rfl,
    (some s%"/e/c@signal", s%"NeXus default plot v3, NXdata@signal", .error), rfl,
    by decide +kernel, by decide +kernel⟩

/-- C107: whether the validation completes depends on the order too: the signal of `/e/c` is
missing, that of `/e/d` cannot be followed.  If `/e/c` comes first the search stops there, otherwise
the validation stops with an exception. -/
theorem order_decides_completion : ∃ f f' : H5File, SameFile f f' ∧ WellNamedFile f ∧
    (validateOpen sampleEnv sampleMgr [] f).res = .ok () ∧
    (validateOpen sampleEnv sampleMgr [] f').res = .error .keyError :=
  ⟨twoData s%"c" s%"d" s%"q" s%"./x", twoData s%"d" s%"c" s%"./x" s%"q", twoData_same _ _ _ _,
    twoData_wellNamed _ _, by rfl, by rfl⟩

/-- With a missing signal, all other lines are the same. -/
example := fun l hl => order_irrelevant_lines (env := sampleEnv) (mgr := sampleMgr) (mins := [])
  (l := l) (by rfl) (twoData_same s%"c" s%"d" s%"x" s%"q") (twoData_wellNamed _ _) sampleMgr_entry
  (by rfl) (by rfl) hl

example := order_irrelevant_missing (env := sampleEnv) (mgr := sampleMgr) (mins := [])
  (by rfl) (twoData_same s%"c" s%"d" s%"x" s%"q") (twoData_wellNamed _ _) sampleMgr_entry
  (by rfl) (by rfl)

end Punx

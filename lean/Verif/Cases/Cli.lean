import Verif.Props.Cli
import Verif.Props.Cli2
import Verif.Props.Singleton
import Verif.Props.Report
import Verif.Props.Completes5

/-!
# Cases for C53–C59, C71–C74, C77
-/

namespace Punx
open Spec

/-! ## the command line -/

example := expand_iff (names := commands) (by decide) (by decide) s%"va" s%"validate"
example := expand_rejects commands s%"v" _ rfl
example := report_option_names (fun c => [c]) s%"error,Ok"

/-- `punx validate --file_set_name main --report error n.h5` -/
abbrev caseArgs : ValidateArgs := ⟨s%"n.h5", some s%"main", s%"error"⟩

theorem caseArgs_plain : PlainAscii caseArgs.report := by unfold PlainAscii; decide

example : Act.openFile s%"n.h5" ∈ (funcValidate sampleWorld caseArgs).log :=
  (validate_opens_iff caseArgs_plain s%"n.h5").2
    ⟨rfl, (report_option_refused (other := fun c => [c]) caseArgs_plain).1 rfl, s%"main", sampleMgr,
      ⟨by decide, rfl, _, rfl, _, List.mem_of_getElem? (i := 2) rfl⟩, rfl⟩

example : ∃ fs rows : List Finding, (∀ x ∈ rows, Asked s%"error" x.status) ∧
    (∃ rest, (rows ++ rest).Perm fs) ∧ rows ≠ [] := by
  obtain ⟨_, fname, rows, sm, sc, h, x, hx, _⟩ := exit_zero_with_errors
  obtain ⟨_, _, _, _, fs, _, _, _, _, h1, ⟨rest, h2, _⟩, _⟩ := validate_report caseArgs_plain h
  exact ⟨fs, rows, h1, ⟨rest, h2⟩, fun e => by rw [e] at hx; simp at hx⟩

example := (validate_succeeds_iff (w := sampleWorld) caseArgs_plain).1 exit_zero_with_errors.1
example := (validate_nxdl_fails sampleWorld (a := ⟨s%"NXdata.nxdl.xml", none, s%"error"⟩)
  ⟨s%"NXdata", rfl⟩).1 _ rfl

/-- no NXDL files -/
def caseXml : NxdlWorld := ⟨fun _ => .missing, s%"/lib/punx/cache/v3.3", fun _ => false, fun _ _ => .ok none⟩

example := tree_prints_partial (w := sampleWorld) (x := caseXml)
  (infile := s%"n.h5") (showAttrs := true) (shown := 5) (by decide)
example := tree_nxdl_missing sampleWorld caseXml
  (infile := s%"NXdata.nxdl.xml") true 5 ⟨s%"NXdata", rfl⟩ rfl

/-! ## installing -/

theorem case_install : Stops emptyDisk (installAll (fun _ => goodNet) (fun _ _ => []) (fun _ => s%"today")
    false 0 emptyDisk [s%"main", s%"other"]).ops
    (applyAll emptyDisk (installAll (fun _ => goodNet) (fun _ _ => []) (fun _ => s%"today") false 0
      emptyDisk [s%"main", s%"other"]).ops) := stops_end _ _

example := install_many (z := fun _ => someArchive) (top := fun _ => s%"definitions-main")
  (fun _ => rfl) (fun _ => someArchive_tidy) (fun _ => by decide) (by decide)
  (fun _ _ _ => rfl) case_install

/-- the sets before the installation -/
theorem case_sets : ∃ sets, allFileSets packageCache ⟨s%"/home/me/.config/punx", [], emptyDisk⟩ =
      .ok sets ∧ (Dict.keys sets).Nodup ∧ ∀ kv ∈ sets, WellDescribed kv.2 := by
  refine ⟨_, rfl, by decide, ?_⟩
  intro kv h
  obtain rfl := List.mem_singleton.1 h
  exact ⟨nofun, nofun⟩

example : ∃ rows r sets k s, funcInstall packageCache ⟨s%"/home/me/.config/punx", [], emptyDisk⟩
      [s%"main"] (fun _ => goodNet) (fun _ _ => []) (fun _ => s%"today") false [s%"main"] =
      .ok (rows, r) ∧ Latest sets k s ∧ s.ref = r := by
  obtain ⟨sets, h1, h2, h3⟩ := case_sets
  have hr := install_reports_old
  cases hf : funcInstall packageCache ⟨s%"/home/me/.config/punx", [], emptyDisk⟩ [s%"main"]
      (fun _ => goodNet) (fun _ _ => []) (fun _ => s%"today") false [s%"main"] with
  | error e => rw [hf] at hr; cases hr
  | ok x =>
    obtain ⟨rows, r⟩ := x
    obtain ⟨⟨k, s, h⟩, _⟩ := install_report_partial hf h1 h2 h3
    exact ⟨rows, r, sets, k, s, rfl, h⟩

/-! ## one object per class -/

/-- a class whose first construction fails -/
abbrev caseMake : Nat → Nat → Nat → Except PyErr (Nat × Nat × Nat) :=
  fun c a n => if c = 1 ∧ n = 0 then .error .indexError else .ok (c, a, n)

example := singleton_same (make := caseMake) ⟨[], 0⟩ [(1, 7), (1, 8), (2, 9), (1, 5)]
example := singleton_made (make := caseMake) ⟨[], 0⟩ [(1, 7), (1, 8), (2, 9), (1, 5)]

/-! ## rows of the report -/

theorem case_rows : ∃ rows, reportRows [] [⟨some s%"/e@t", s%"a", .ok, s%""⟩, ⟨some s%"/e", s%"b", .error, s%""⟩,
    ⟨some s%"/e", s%"a", .ok, s%""⟩] = .ok rows ∧ rows.length = 3 := ⟨_, rfl, rfl⟩

example : ∃ rows : List Finding, rows.length = 3 ∧ rows.Pairwise (fun f g => f.addr = g.addr →
      Spec.printedRank f.status ≤ Spec.printedRank g.status) := by
  obtain ⟨rows, h, hl⟩ := case_rows
  exact ⟨rows, hl, rows_same_address_partial h⟩

example : ∃ rows : List Finding, rows.length = 3 ∧ rows.Pairwise (fun f g =>
    ¬ ∃ a n, f.addr = some (a ++ '@' :: n) ∧ g.addr = some a) := by
  obtain ⟨rows, h, hl⟩ := case_rows
  exact ⟨rows, hl, rows_object_before_attribute h⟩

/-! ## which files can be validated -/

theorem niac_catalog : (catalog sampleEnv niacFile).res = .ok () := by
  exact (validateOpen_ok_iff.1 niacFile_ok).1

example := names_completes_iff (mgr := sampleMgr) (mins := []) niac_catalog niacFile_wellNamed
example := groups_completes_iff (mgr := sampleMgr) (mins := []) niac_catalog niacFile_wellNamed
example := definitions_completes_iff (mgr := sampleMgr) (mins := []) niac_catalog
example := plot_completes_iff (mgr := sampleMgr) (mins := []) (mins' := []) niac_catalog
  niacFile_wellNamed

end Punx

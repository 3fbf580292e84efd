import Verif.Props.Entry
import Verif.Cases.Accepts
import Verif.Cases.History
import Verif.Cases.Cli

/-!
# C144 applied to files
-/

namespace Punx
open Spec

/-- **C144** (violated): a file with nothing but a field that is marked as the signal is accepted. -/
theorem accepted_without_entry : ¬ ∀ (env : Env) (mgr : Manager) (f : H5File),
    (validateOpen env mgr [] f).res = .ok () →
    (∀ x ∈ findings (validateOpen env mgr [] f).log, x.status ≠ .error) → TopEntry env f := by
  intro h
  obtain ⟨l, n, a, ks, hm, _⟩ :=
    h sampleEnv sampleMgr (rootMarkFile s%"x" .nil) (by rfl) (by decide +kernel)
  simp [rootMarkFile, Kids.toList] at hm

/-- An NXentry group inside of another group. -/
def nestedFile : H5File where
  attrs := []
  kids := .cons s%"c" .hard (.group s%"/c" [(s%"NX_class", .str s%"NXdata")]
    (.cons s%"e" .hard (.group s%"/c/e" [(s%"NX_class", .str s%"NXentry")] .nil) .nil)) .nil

/-- **C144** (violated): a file with nothing but groups is accepted, though its only NXentry group is not
in the root. -/
theorem accepted_nested_entry : ¬ ∀ (env : Env) (mgr : Manager) (f : H5File),
    AllKids (fun n => ∃ m a ks, n = .group m a ks) f.kids →
    (validateOpen env mgr [] f).res = .ok () →
    (∀ x ∈ findings (validateOpen env mgr [] f).log, x.status ≠ .error) → TopEntry env f := by
  intro h
  obtain ⟨l, n, a, ks, hm, hc⟩ := h sampleEnv sampleMgr nestedFile
    (by simp [nestedFile, AllKids, AllNodes]) (by rfl) (by decide +kernel)
  simp only [nestedFile, Kids.toList, List.mem_singleton, Prod.mk.injEq, Option.some.injEq,
    Node.group.injEq] at hm
  obtain ⟨_, _, rfl, _⟩ := hm
  revert hc
  decide

/-- A file with a group that is not an entry, and a field without mark. -/
def noEntryFile : H5File where
  attrs := []
  kids := .cons s%"d" .hard (.group s%"/d" [(s%"NX_class", .str s%"NXdata")]
    (.cons s%"x" .hard (.dataset s%"/d/x" [(s%"units", .str s%"mm")] (.ofVal (.int 1))) .nil)) .nil

theorem noEntryFile_wellNamed : WellNamedFile noEntryFile := by
  simp [WellNamedFile, noEntryFile, WellNamedKids, WellNamed, Kids.toList]

/-- The class of the groups of the file. -/
def plainItem (it : Item) : Bool :=
  (match it.obj.asGroup with
  | some g => decide (it.classpath = []) || decide (nxClassOf sampleEnv g.attrs = some s%"NXdata")
  | none => true) && !decide (s%"@signal" <:+ it.classpath)

/-- Every object of the file is the root, a group of class NXdata, or not a group; no attribute is
named `signal`. -/
theorem noEntryFile_items : ∀ it ∈ contents sampleEnv noEntryFile,
    (∀ g, it.obj.asGroup = some g → it.classpath ≠ [] →
      nxClassOf sampleEnv g.attrs = some s%"NXdata") ∧ ¬ s%"@signal" <:+ it.classpath := by
  have h : (contents sampleEnv noEntryFile).all plainItem = true := by decide +kernel
  intro it hit
  have h := List.all_eq_true.1 h it hit
  simp only [plainItem, Bool.and_eq_true, Bool.not_eq_true', decide_eq_false_iff_not] at h
  refine ⟨fun g hg hne => ?_, h.2⟩
  rw [hg] at h
  simpa [hne] using h.1

theorem noEntryFile_plain : PlainClasses sampleEnv (contents sampleEnv noEntryFile) := by
  intro it hit g hg _ hne c hc
  rw [(noEntryFile_items it hit).1 g hg hne] at hc
  cases hc
  decide

theorem noEntryFile_noEntry : ¬ HasClass sampleEnv (contents sampleEnv noEntryFile) s%"NXentry" := by
  rintro ⟨it, hit, g, hg, _, ⟨_, h⟩ | ⟨hne, h⟩⟩
  · revert h; decide
  · rw [(noEntryFile_items it hit).1 g hg hne] at h
    revert h; decide

theorem noEntryFile_noMark :
    ¬ ∃ a, SignalPlot sampleEnv (contents sampleEnv noEntryFile) a := by
  rintro ⟨a, _, g, _, it, _, _, hin, _⟩
  have h : it ∈ marksIn sampleEnv (contents sampleEnv noEntryFile) g := by rw [hin]; simp
  simp only [marksIn, marks, byClasspath, List.mem_filter, List.mem_flatMap, withClasspath,
    decide_eq_true_eq] at h
  obtain ⟨⟨⟨_, _, hit, _⟩, hm⟩, _⟩ := h
  exact (noEntryFile_items it hit).2 hm.1.1

/-- `no_entry_reported`: the missing entry is reported for this file. -/
example : ∃ x ∈ findings (validateOpen sampleEnv sampleMgr [] noEntryFile).log,
    x.addr = some s%"/" ∧ x.test = s%"NeXus default plot" ∧ x.status = .error :=
  no_entry_reported (by rfl) noEntryFile_wellNamed sampleMgr_entry (by rfl) noEntryFile_plain
    noEntryFile_noEntry noEntryFile_noMark

theorem accSets_names (p : Str) : FileNames (accSets.dir p) := by
  have key : ∀ d ∈ [cmdDir, moreDir], FileNames d := by
    intro d hd c fs f hl hm
    have h5 : ([cmdDir, moreDir].all fun d => allCategories.all fun c =>
        ((d.listing c).getD []).all fun f => !f.name.contains '/') = true := by decide +kernel
    have h6 := List.all_eq_true.1 (List.all_eq_true.1 h5 d hd) c (by cases c <;> simp [allCategories])
    rw [hl] at h6
    simpa using List.all_eq_true.1 h6 f hm
  unfold accSets twoDirs
  dsimp only
  split
  · exact key _ (by simp)
  · split
    · exact key _ (by simp)
    · intro c fs f h
      cases h

/-- `passed_entry_partial`: the file with one entry, which passes. -/
example : HasClass sampleEnv (contents sampleEnv partA) s%"NXentry" ∨
    ∃ b, SignalPlot sampleEnv (contents sampleEnv partA) b := by
  obtain ⟨sets, f, _, hs, hw, hf, hdir, _, _⟩ := acc_listed
  have hd := acc_sound hf (hdir ▸ ⟨cmd_has, cmd_lawful⟩)
  exact passed_entry_partial (f := partA) (files := accDisk partA) hs hw hd (acc_plain _) rfl (acc_disk _ _) partA_wellNamed
    accSets_names partA_passes

theorem niacFile_plain : PlainClasses sampleEnv (contents sampleEnv niacFile) :=
  Accepted.plain (mgr := sampleMgr) (mins := [])
    ((accepted_iff (by rfl) niacFile_wellNamed sampleMgr_entry).2 ⟨niacFile_ok, by decide +kernel⟩)
    (by
      intro c d h
      have h5 : (Dict.keys sampleMgr.classes).all fun e => !e.contains '/' := by decide +kernel
      have := List.all_eq_true.1 h5 c (Dict.has_iff.1 (by simp [Dict.has, h]))
      simpa using this)

/-- `attribute_plot_entry`: the entry of a file with a default plot. -/
example : TopEntry sampleEnv niacFile := by
  have h := niac_plot
  rw [catalog_contents niacFile_wellNamed niac_catalog] at h
  exact attribute_plot_entry niacFile_plain h

end Punx

import Verif.Props.Agree
import Verif.Cases.Entry

/-!
# C146 applied to files
-/

namespace Punx
open Spec

/-- An entry whose class is an array with one text, as some programs write it. -/
def arrayFile : H5File where
  attrs := []
  kids := .cons s%"e" .hard (.group s%"/e" [(s%"NX_class", .arrO [s%"NXentry"])] .nil) .nil

/-- An entry behind a group whose class is an empty array. -/
def emptyClassFile : H5File where
  attrs := []
  kids := .cons s%"a" .hard (.group s%"/a" [(s%"NX_class", .arrO [])] .nil)
    (.cons s%"e" .hard (.group s%"/e" [(s%"NX_class", .str s%"NXentry")] .nil) .nil)

theorem arrayFile_wellNamed : WellNamedFile arrayFile := by
  simp [WellNamedFile, arrayFile, WellNamedKids, WellNamed, Kids.toList]

theorem arrayFile_readable : FileReadable sampleEnv arrayFile :=
  (catalog_completes_iff arrayFile_wellNamed).1 (by rfl)

theorem emptyClassFile_wellNamed : WellNamedFile emptyClassFile := by
  simp [WellNamedFile, emptyClassFile, WellNamedKids, WellNamed, Kids.toList]

theorem emptyClassFile_readable : FileReadable sampleEnv emptyClassFile :=
  (catalog_completes_iff emptyClassFile_wellNamed).1 (by rfl)

/-- **C146** (violated): for `punx tree` a file is a NeXus file if the class of its entry is an array, but
the validation finds no entry. -/
theorem array_class_disagrees : ¬ ∀ (env : Env) (f : H5File), FileReadable env f →
    isNeXusFile env (.hdf5 f) = .ok (some true) → TopEntry env f := by
  intro h
  obtain ⟨l, n, a, ks, hm, hc⟩ := h sampleEnv arrayFile arrayFile_readable (by rfl)
  simp only [arrayFile, Kids.toList, List.mem_singleton, Prod.mk.injEq, Option.some.injEq,
    Node.group.injEq] at hm
  obtain ⟨_, _, rfl, _⟩ := hm
  revert hc
  decide

/-- **C146** (violated): `punx tree` ends with an IndexError at a class that is an empty array; the
validation goes on and finds the entry. -/
theorem empty_class_disagrees : ¬ ∀ (env : Env) (f : H5File), FileReadable env f → TopEntry env f →
    isNeXusFile env (.hdf5 f) = .ok (some true) := by
  intro h
  have := h sampleEnv emptyClassFile emptyClassFile_readable
    ⟨s%"e", s%"/e", [(s%"NX_class", .str s%"NXentry")], .nil, by simp [emptyClassFile, Kids.toList], by rfl⟩
  have e : isNeXusFile sampleEnv (.hdf5 emptyClassFile) = .error .indexError := by rfl
  rw [e] at this
  cases this

/-- **C146** (violated): a file that passes need not be a NeXus file for `punx tree`. -/
theorem accepted_not_nexus : ¬ ∀ (env : Env) (mgr : Manager) (f : H5File),
    (validateOpen env mgr [] f).res = .ok () →
    (∀ x ∈ findings (validateOpen env mgr [] f).log, x.status ≠ .error) →
    isNeXusFile env (.hdf5 f) = .ok (some true) := by
  intro h
  have := h sampleEnv sampleMgr (rootMarkFile s%"x" .nil) (by rfl) (by decide +kernel)
  have e : isNeXusFile sampleEnv (.hdf5 (rootMarkFile s%"x" .nil)) = .ok (some false) := by rfl
  rw [e] at this
  cases this

theorem niacFile_single : SingleClasses niacFile := by
  intro l n a ks v hm hv
  simp only [niacFile, dataFile, Kids.toList, List.mem_singleton, Prod.mk.injEq, Option.some.injEq,
    Node.group.injEq] at hm
  obtain ⟨_, _, rfl, _⟩ := hm
  cases hv
  trivial

theorem niacFile_readable : FileReadable sampleEnv niacFile :=
  (catalog_completes_iff niacFile_wellNamed).1 niac_catalog

/-- `nexus_agree_partial`, `tree_title_partial`: a file with an entry. -/
example : ∃ b, isNeXusFile sampleEnv (.hdf5 niacFile) = .ok (some b) ∧
    (b = true ↔ TopEntry sampleEnv niacFile) := nexus_agree_partial niacFile_readable niacFile_single

example {ts : List Str} (h : treeReport sampleEnv 5 true s%"f" (.hdf5 niacFile) = .ok (some ts)) :
    ∃ cls rest, (cls = [] ∨ ∃ c, cls = ':' :: c) ∧ ts = (s%"f : NeXus data file" ++ cls) :: rest := by
  obtain ⟨cls, rest, h1, h2⟩ := tree_title_partial niacFile_readable niacFile_single h
  have ht : TopEntry sampleEnv niacFile := by
    obtain ⟨b, hb, hiff⟩ := nexus_agree_partial niacFile_readable niacFile_single
    exact hiff.1 (by
      have e : isNeXusFile sampleEnv (.hdf5 niacFile) = .ok (some true) := by rfl
      rw [e] at hb; cases hb; rfl)
  rw [if_pos ht] at h2
  exact ⟨cls, rest, h1, h2⟩

example : (treeReport sampleEnv 5 true s%"f" (.hdf5 niacFile)).toOption.join.isSome = true := by rfl

/-- `plotted_is_nexus_partial`: the same file is accepted, and its plot is described by attributes. -/
example : isNeXusFile sampleEnv (.hdf5 niacFile) = .ok (some true) := by
  have h := niac_plot
  rw [catalog_contents niacFile_wellNamed niac_catalog] at h
  refine plotted_is_nexus_partial (mgr := sampleMgr) (mins := []) niacFile_single ?_
    ((accepted_iff (by rfl) niacFile_wellNamed sampleMgr_entry).2 ⟨niacFile_ok, by decide +kernel⟩) h
  intro c d h
  have h5 : (Dict.keys sampleMgr.classes).all fun e => !e.contains '/' := by decide +kernel
  have := List.all_eq_true.1 h5 c (Dict.has_iff.1 (by simp [Dict.has, h]))
  simpa using this

end Punx

import Verif.Props.Guarantee
import Verif.Cases.Comply
import Verif.Cases.Entry

/-!
# C147 applied to files
-/

namespace Punx
open Spec

theorem sampleMgr_plainNames : PlainNames sampleMgr := by
  intro c d h
  have h5 : (Dict.keys sampleMgr.classes).all fun e => !e.contains '/' := by decide +kernel
  have := List.all_eq_true.1 h5 c (Dict.has_iff.1 (by simp [Dict.has, h]))
  simpa using this

/-- The data group of `partA`. -/
def dataA : Node :=
  .group s%"/a/d" [(s%"NX_class", .str s%"NXdata"), (s%"signal", .str s%"x")]
    (.cons s%"x" .hard (.dataset s%"/a/d/x" [] (.ofVal (.int 1))) .nil)

theorem dataA_in : InNexus sampleEnv partA s%"/NXentry" dataA :=
  .inside (c := s%"NXentry") (cp := []) (l := s%"d")
    (.root (l := s%"a") (n := entryA) (by simp [partA, Kids.toList, entryA])) (by rfl)
    (by simp [Kids.toList, dataA])

theorem partA_accepted : Accepted sampleEnv sampleMgr [] partA :=
  (accepted_iff (by rfl) partA_wellNamed sampleMgr_entry).2 ⟨by rfl, by decide +kernel⟩

/-- `accepted_guarantees`: the signal of the group exists. -/
example : ∃ s, TextOf sampleEnv (.str s%"x") s ∧ NameOk sampleEnv sampleMgr s ∧
    s ≠ [] ∧ LinkAt partA dataA s :=
  (accepted_guarantees sampleMgr_plainNames partA_accepted dataA_in).signal _ _ _ _ rfl
    ⟨s%"NXdata", by rfl⟩ (by simp)

/-- `clean_report_guarantees`: the class of the entry is usable. -/
example : UsableName sampleMgr.classes s%"NXentry" :=
  (clean_report_guarantees (env := sampleEnv) (f := partA) (mins := []) sampleMgr_plainNames (by rfl)
    partA_wellNamed sampleMgr_entry
    (by rfl) (by decide +kernel)
    (.root (l := s%"a") (n := entryA) (by simp [partA, Kids.toList, entryA]))).cls _ _ _ _ rfl (by rfl)

/-- `passed_guarantees`: the same for the command. -/
example : ∃ sets mgr, CommandReaches easyLib cmdPattern accSets (accDisk partA) sets (accCall s%"v1") mgr
    partA ∧ Guaranteed sampleEnv mgr partA s%"/NXentry" dataA := by
  obtain ⟨sets, f, _, hs, hw, hf, hdir, _, _⟩ := acc_listed
  have hd := acc_sound hf (hdir ▸ ⟨cmd_has, cmd_lawful⟩)
  obtain ⟨mgr, hR, h⟩ := passed_guarantees (f := partA) (files := accDisk partA) hs hw hd (acc_plain _)
    rfl (acc_disk _ _) partA_wellNamed accSets_names partA_passes
  exact ⟨sets, mgr, hR, h _ _ dataA_in⟩

/-- A group without class whose signal does not exist. -/
def strayGroup : Node :=
  .group s%"/z" [(s%"signal", .str s%"none")] .nil

def strayFile : H5File where
  attrs := []
  kids := .cons s%"a" .hard entryA (.cons s%"z" .hard strayGroup .nil)

theorem strayFile_wellNamed : WellNamedFile strayFile := by
  simp [WellNamedFile, strayFile, strayGroup, entryA, WellNamedKids, WellNamed, Kids.toList]

/-- The class is needed: the signal of a group without one need not exist. -/
theorem classless_unchecked : ¬ ∀ (env : Env) (mgr : Manager) (f : H5File) (cp m s : Str)
    (a : List (Str × Val)) (ks : Kids), Accepted env mgr [] f → InNexus env f cp (.group m a ks) →
    (s%"signal", .str s) ∈ a → LinkAt f (.group m a ks) s := by
  intro h
  have := h sampleEnv sampleMgr strayFile [] s%"/z" s%"none" _ _
    ((accepted_iff (by rfl) strayFile_wellNamed sampleMgr_entry).2 ⟨by rfl, by decide +kernel⟩)
    (.root (l := s%"z") (n := strayGroup) (by simp [strayFile, Kids.toList])) (by simp)
  exact absurd (path_contained.2 ⟨by decide, this⟩) (by decide)

end Punx

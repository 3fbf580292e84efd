import Verif.Props.Showable
import Verif.Cases.Agree

/-!
# C149 applied to files
-/

namespace Punx
open Spec

/-- `tree_shown_options`: the file with an entry and data is shown. -/
example (shown : Int) (fname : Str) :
    ∃ ts, treeReport sampleEnv shown false fname (.hdf5 niacFile) = .ok (some ts) :=
  (tree_shown_options (shown := 5) (sa := true) (fname := s%"f") ⟨_, by rfl⟩ shown fname).2

/-- `usual_file_shown` -/
example (shown : Int) (fname : Str) :
    ∃ ts, treeReport sampleEnv shown true fname (.hdf5 niacFile) = .ok (some ts) := by
  refine usual_file_shown (fun s h => ?_) niacFile_readable ?_ fun _ => ?_
  · cases h
    rfl
  · simp [H5File.root, niacFile, dataFile, AllNodes, AllKids, Usual, TextOf, ShownData, DataInfo.ofVal]
    exact nofun
  · simp [H5File.root, niacFile, dataFile, AllNodes, AllKids, AttrsReadable, Node.attrs, classReadable]

/-- The file with a named datatype next to its entry. -/
def datatypeFile : H5File where
  attrs := niacFile.attrs
  kids := .cons s%"t" .hard (.datatype s%"/t" []) niacFile.kids

/-- `tree_shown_iff`: a named datatype stops the report, with every option. -/
example (shown : Int) (sa : Bool) (fname : Str) :
    ¬ ∃ ts, treeReport sampleEnv shown sa fname (.hdf5 datatypeFile) = .ok (some ts) := by
  rw [tree_shown_iff]
  rintro ⟨f, b, h1, -, -, -, h5⟩
  cases h1
  rw [datatypeFile, ShowableKids] at h5
  obtain ⟨-, v, hv, -⟩ := (by simpa [Showable] using h5.1 (.inl rfl) :
    targetReadable sampleEnv none ∧ NexusLink sampleEnv [] s%"/t")
  cases hv

/-- A file that the validation accepts need not be shown: the validation knows named datatypes,
the report ends with an exception. -/
theorem accepted_not_shown : ¬ ∀ (env : Env) (mgr : Manager) (f : H5File) (shown : Int)
    (sa : Bool) (fname : Str), (validateOpen env mgr [] f).res = .ok () →
    (∀ x ∈ findings (validateOpen env mgr [] f).log, x.status ≠ .error) →
    ∃ ts, treeReport env shown sa fname (.hdf5 f) = .ok (some ts) := by
  intro h
  obtain ⟨ts, h⟩ := h sampleEnv sampleMgr datatypeFile 5 false s%"f" (by rfl) (by decide +kernel)
  have e : treeReport sampleEnv 5 false s%"f" (.hdf5 datatypeFile) = .error .exception := by rfl
  rw [e] at h
  cases h

end Punx

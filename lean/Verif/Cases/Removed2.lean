import Verif.Props.Removed4
import Verif.Cases.Removed

/-!
# C135 applied to a file with errors
-/

namespace Punx
open Spec

/-- Definitions among which NXdata is missing. -/
def poorMgr : Manager := { sampleMgr with
  classes := sampleMgr.classes.filter fun c => !(c.1 == s%"NXdata") }

theorem spareFile_classes : ∀ it ∈ contents sampleEnv spareFile, ∀ g, it.obj.asGroup = some g →
    ∀ c, nxClassOf sampleEnv g.attrs = some c → ¬ s%"/" <:+ c := by
  have h : ∀ it ∈ contents sampleEnv spareFile, (match it.obj.asGroup with
      | none => true
      | some g => match nxClassOf sampleEnv g.attrs with
        | none => true
        | some c => !(c.getLast? == some '/')) = true := by decide +kernel
  rintro it hm g hg c hc ⟨w, rfl⟩
  have := h it hm
  rw [hg] at this
  simp only [hc] at this
  simp at this

/-- The ERROR findings of a validation with these definitions. -/
def poorErrors (f : H5File) : List (Option Str × Str) :=
  ((findings (validateOpen sampleEnv poorMgr [] f).log).filter (·.status == .error)).map
    fun x => (x.addr, x.test)

/-- The file has errors. -/
theorem spareFile_errors : (validateOpen sampleEnv poorMgr [] spareFile).res = .ok () ∧
    poorErrors spareFile = [(some s%"/e/d@NX_class", s%"attribute value"),
      (some s%"/e/d", s%"known NXDL"), (some s%"/e/d", s%"NeXus base class")] := by
  decide +kernel

/-- `extras_completion` and `extras_errors`: without the additional content the file is validated to
the end too, and has an error at the same place. -/
theorem removed_errors_case :
    (validateOpen sampleEnv poorMgr [] (extended .nil .nil .nil)).res = .ok () ∧
    ∃ x ∈ findings (validateOpen sampleEnv poorMgr [] (extended .nil .nil .nil)).log,
      x.addr = some s%"/e/d" ∧ x.test = s%"known NXDL" ∧ x.status = .error := by
  have hnd : ∀ d, Dict.get? poorMgr.classes s%"NXentry" = some d → (Dict.keys d.groups).Nodup := by
    intro d h
    exact sampleMgr_entry d (h ▸ rfl)
  rw [← spareFile_trim]
  refine ⟨(extras_completion spareFile_wellNamed spareFile_classes (spareFile_extras poorMgr)
    (spareFile_kept poorMgr)).2 spareFile_errors.1, ?_⟩
  refine (extras_errors (by rfl) spareFile_wellNamed hnd spareFile_classes (spareFile_extras poorMgr)
    (spareFile_kept poorMgr) spareFile_errors.1 _ _).2 ?_
  have h : (some s%"/e/d", s%"known NXDL") ∈ poorErrors spareFile := by
    rw [spareFile_errors.2]
    exact .tail _ (.head _)
  simp only [poorErrors, List.mem_map, List.mem_filter, Prod.mk.injEq, beq_iff_eq] at h
  obtain ⟨x, ⟨h1, h2⟩, h3, h4⟩ := h
  exact ⟨x, h1, h3, h4, h2⟩

end Punx

import Verif.Props.Expected3
import Verif.Props.Completes5

/-!
# C99, C100 applied to files

For each file the faults are exactly the listed ones: the right side is computed, the left side is
the specification.
-/

namespace Punx
open Spec

theorem sampleMgr_entry :
    ∀ d, Dict.get? sampleMgr.classes s%"NXentry" = some d → (Dict.keys d.groups).Nodup :=
  fun d hd => by cases hd; decide

/-- Addresses and tests of the ERROR findings. -/
def errorsOf (f : H5File) : List (Option Str × Str) :=
  (findings (validateOpen sampleEnv sampleMgr [] f).log).filterMap
    (fun x => if x.status = .error then some (x.addr, x.test) else none)

theorem mem_errorsOf {f : H5File} {a : Option Str} {t : Str} :
    (a, t) ∈ errorsOf f ↔ ∃ x ∈ findings (validateOpen sampleEnv sampleMgr [] f).log,
      x.addr = a ∧ x.test = t ∧ x.status = .error := by
  rw [errorsOf, List.mem_filterMap]
  constructor
  · rintro ⟨x, hx, h⟩
    split at h
    · rename_i he
      injection h with h
      injection h with h1 h2
      exact ⟨x, hx, h1, h2, he⟩
    · cases h
  · rintro ⟨x, hx, rfl, rfl, he⟩
    exact ⟨x, hx, by rw [if_pos he]⟩

theorem faults_of {f : H5File} (hw : WellNamedFile f)
    (h : (validateOpen sampleEnv sampleMgr [] f).res = .ok ()) {l : List (Option Str × Str)}
    (he : errorsOf f = l) (a : Option Str) (t : Str) :
    Fault sampleEnv sampleMgr [] f (contents sampleEnv f) a t ↔ (a, t) ∈ l := by
  rw [← error_iff (by rfl) hw sampleMgr_entry h, ← he, mem_errorsOf]

theorem attrFile_wellNamed : WellNamedFile attrFile := by
  simp [WellNamedFile, attrFile, entryFile, WellNamedKids, WellNamed, Kids.toList]

theorem sasFile_wellNamed : WellNamedFile sasFile := by
  simp [WellNamedFile, sasFile, textIn, entryFile, WellNamedKids, WellNamed, Kids.toList]

theorem markedFile_wellNamed : WellNamedFile markedFile := by
  simp [WellNamedFile, markedFile, dataFile, WellNamedKids, WellNamed, Kids.toList]

theorem nameFile_wellNamed : WellNamedFile nameFile := by
  simp [WellNamedFile, nameFile, fieldIn, entryFile, WellNamedKids, WellNamed, Kids.toList]

/-- An axis that is missing, an axis that is no name, a target that leads nowhere. -/
example := faults_of attrFile_wellNamed attrFile_ok
  (l := [(some s%"/e/d@axes", s%"axes['q'] exists"), (some s%"/e/d@axes", s%"valid name @axes['.']"),
    (some s%"/e/d/y@target", s%"attribute value")]) (by rfl)

/-- A file without fault. -/
example : ∀ a t, ¬ Fault sampleEnv sampleMgr [] niacFile (contents sampleEnv niacFile) a t :=
  fun a t h => by
    have := (faults_of niacFile_wellNamed niacFile_ok (l := []) (by rfl) a t).1 h
    simp at this

/-- A field of the declared definition is missing. -/
example := faults_of sasFile_wellNamed sasFile_ok
  (l := [(some s%"/e@None", s%"NXDL field")]) (by rfl)

example := faults_of markedFile_wellNamed markedFile_ok (l := []) (by rfl)

example := faults_of nameFile_wellNamed nameFile_ok
  (l := [(some s%"/e/1x", s%"validItemName")]) (by rfl)

/-- Unknown class, application definition as class, default that leads nowhere. -/
example := faults_of groupFile_named groupFile_ok
  (l := [(some s%"/e/u@NX_class", s%"attribute value"),
    (some s%"/e/a@NX_class", s%"attribute value"), (some s%"/e@default", s%"value of @default"),
    (some s%"/e/u", s%"known NXDL"), (some s%"/e/u", s%"NeXus base class"),
    (some s%"/e/a", s%"NeXus base class")]) (by rfl)

/-- The specification itself, used directly: the missing axis is a fault. -/
example : Fault sampleEnv sampleMgr [] attrFile (contents sampleEnv attrFile)
    (some s%"/e/d@axes") s%"axes['q'] exists" :=
  (faults_of attrFile_wellNamed attrFile_ok rfl _ _).2 (by
    rw [show errorsOf attrFile = [(some s%"/e/d@axes", s%"axes['q'] exists"),
      (some s%"/e/d@axes", s%"valid name @axes['.']"),
      (some s%"/e/d/y@target", s%"attribute value")] from by rfl]
    simp)

example := no_error_iff (env := sampleEnv) (by rfl) niacFile_wellNamed sampleMgr_entry niacFile_ok

example := fun l => report_iff (env := sampleEnv) (by rfl) attrFile_wellNamed sampleMgr_entry
  attrFile_ok l

example : Expected sampleEnv sampleMgr [] attrFile (contents sampleEnv attrFile)
    (some s%"/e/d/y@signal", s%"attribute value", .note) :=
  (report_iff (env := sampleEnv) (by rfl) attrFile_wellNamed sampleMgr_entry attrFile_ok _).1
    (by decide +kernel)

end Punx

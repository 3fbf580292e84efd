import Verif.Props.Accepts
import Verif.Cases.Command
import Verif.Cases.Extras
import Verif.Cases.Stored
import Verif.Cases.Whole

/-!
# C133 applied to commands
-/

namespace Punx
open Spec

/-! Equality of definitions, by computation. -/

mutual
def decGroup : (a b : GroupSpec) → Decidable (a = b)
  | .mk a g f l, .mk a' g' f' l' =>
    match decGroups g g' with
    | .isTrue h => decidable_of_iff (a = a' ∧ f = f' ∧ l = l') (by simp [h])
    | .isFalse h => .isFalse (by simp [h])
def decGroups : (a b : List (Str × GroupSpec)) → Decidable (a = b)
  | [], [] => .isTrue rfl
  | [], _ :: _ => .isFalse (by simp)
  | _ :: _, [] => .isFalse (by simp)
  | x :: r, y :: s =>
    match decEntry x y, decGroups r s with
    | .isTrue h, .isTrue h' => .isTrue (by rw [h, h'])
    | .isFalse h, _ => .isFalse (by simp [h])
    | _, .isFalse h => .isFalse (by simp [h])
def decEntry : (a b : Str × GroupSpec) → Decidable (a = b)
  | (k, x), (k', x') =>
    match decGroup x x' with
    | .isTrue h => decidable_of_iff (k = k') (by simp [h])
    | .isFalse h => .isFalse (by simp [h])
end
instance : DecidableEq GroupSpec := decGroup
deriving instance DecidableEq for ClassDef
deriving instance DecidableEq for Manager

/-- The definitions of `cmdDefs` and one more. -/
def moreDefs : List NxdlFile := cmdDefs ++
  [⟨s%"NXlog.nxdl.xml", some (.elem true s%"definition" [] [fieldX s%"y"])⟩]

def moreDir : SetDir :=
  ⟨true, some cmdXsd, some nxTypesXsd, fun c => some (match c with
    | .baseClasses => moreDefs
    | _ => [])⟩

/-- The set `v1` has the three definitions, the set `v2` four. -/
def accSets : Disks := twoDirs cmdDir moreDir

/-- The file `a.h5`. -/
def accDisk (g : H5File) (f : Str) : FileState := if f = s%"a.h5" then .hdf5 g else .missing

/-- `punx validate --file_set_name … --report error a.h5` -/
def accCall (ref : Str) : ValidateArgs := ⟨s%"a.h5", some ref, s%"error"⟩

/-- The run of the command on the file `g`. -/
def accRun (ref : Str) (g : H5File) : W Act Unit :=
  funcValidate (commandWorld easyLib cmdPattern accSets sampleEnv (accDisk g) (fun c => [c]) id)
    (accCall ref)

def isReport : Act → Bool
  | .report _ _ _ _ => true
  | _ => false

def noErrors : Act → Bool
  | .report _ _ sm _ => sm.all fun e => e.1 ≠ .error || e.2 = 0
  | _ => true

def passesB (r : W Act Unit) : Bool := r.res.toBool && r.log.any isReport && r.log.all noErrors

theorem passes_of {r : W Act Unit} (h : passesB r = true) : Passes r := by
  simp only [passesB, Bool.and_eq_true, List.any_eq_true, List.all_eq_true] at h
  obtain ⟨⟨h1, x, h2, h3⟩, h4⟩ := h
  refine ⟨?_, ?_, fun fname rows sm sc hm n hn => ?_⟩
  · cases e : r.res with
    | ok u => rfl
    | error e' => rw [e] at h1; cases h1
  · cases x with
    | report f rows sm sc => exact ⟨f, rows, sm, sc, h2⟩
    | _ => cases h3
  · have := h4 _ hm
    simp only [noErrors, List.all_eq_true] at this
    simpa using this _ hn

theorem not_passes_of {r : W Act Unit} (h : r.log.all noErrors = false) : ¬ Passes r := by
  rintro ⟨_, _, h'⟩
  rw [← Bool.not_eq_true, List.all_eq_true] at h
  apply h
  intro x hx
  cases x with
  | report f rows sm sc =>
    simp only [noErrors, List.all_eq_true]
    intro e he
    by_cases k : e.1 = .error
    · have := h' _ _ _ _ hx e.2 (by rw [← k]; exact he)
      simp [this]
    · simp [k]
  | _ => rfl

theorem acc_listed : ∃ sets f f', allFileSets accSets.source accSets.user = .ok sets ∧
    (∀ kv ∈ sets, WellDescribed kv.2) ∧ Dict.get? sets s%"v1" = some f ∧
    accSets.dir f.path = cmdDir ∧ Dict.get? sets s%"v2" = some f' ∧ accSets.dir f'.path = moreDir := by
  refine ⟨_, _, _, rfl, ?_, rfl, rfl, rfl, rfl⟩
  have h : ((allFileSets accSets.source accSets.user).toOption.getD []).all
      (fun kv => kv.2.lastModified.isSome && kv.2.sha.isSome) = true := by decide +kernel
  intro kv hkv
  have := List.all_eq_true.1 h kv hkv
  simp only [Bool.and_eq_true, Option.isSome_iff_ne_none] at this
  exact this

theorem more_has : HasDefinitions moreDir :=
  ⟨.baseClasses, moreDefs, ⟨s%"NXroot.nxdl.xml", _⟩, rfl, List.mem_cons_self .., ⟨s%"NXroot", rfl⟩⟩

theorem more_lawful : LawfulDocs moreDir := by
  intro c fs f x h1 h2 h3
  injection h1 with h1
  cases c with
  | baseClasses =>
    subst h1
    rcases List.mem_append.1 h2 with h2 | h2
    · exact cmd_lawful .baseClasses _ f x rfl h2 h3
    · rw [List.mem_singleton] at h2
      subst h2
      injection h3 with h3
      subst h3
      refine .elem (by simp [Dict.keys]) fun y hy => ?_
      rw [List.mem_singleton] at hy
      subst hy
      exact .elem (by simp [Dict.keys]) (by simp)
  | applications => subst h1; simp at h2
  | contributed => subst h1; simp at h2

theorem acc_sound {sets : Dict Str FileSet} {f : FileSet} {ref : Str}
    (hf : Dict.get? sets ref = some f)
    (hdir : HasDefinitions (accSets.dir f.path) ∧ LawfulDocs (accSets.dir f.path)) :
    SoundSet accSets sets (accCall ref) := by
  intro ref' f' e h
  have e' : ref = ref' := by injection e
  rw [← e', hf] at h
  injection h with h
  rw [← h]
  exact hdir

theorem acc_plain (ref : Str) : PlainAscii (accCall ref).report := by
  have h : PlainAscii s%"error" := by
    unfold PlainAscii
    decide
  exact h

theorem acc_data (ref : Str) : ¬ s%".nxdl.xml" <:+ (accCall ref).infile := by
  have h : ¬ s%".nxdl.xml" <:+ s%"a.h5" := by decide
  exact h

theorem acc_disk (ref : Str) (g : H5File) : accDisk g (accCall ref).infile = .hdf5 g := rfl

/-- Both definitions, as they are loaded. -/
def accMgr (ref : Str) : Except PyErr Manager :=
  match commandLoad easyLib accSets ref {} with
  | (.ok m, p) => .ok (m.view cmdPattern p)
  | (.error e, _) => .error e

theorem accMgr_of {ref : Str} {sets : Dict Str FileSet} {g : H5File} {mgr : Manager}
    (hs : allFileSets accSets.source accSets.user = .ok sets) (hw : ∀ kv ∈ sets, WellDescribed kv.2)
    (hd : SoundSet accSets sets (accCall ref))
    (hR : CommandReaches easyLib cmdPattern accSets (accDisk g) sets (accCall ref) mgr g) :
    accMgr ref = .ok mgr := by
  obtain ⟨ref', f', h1, h2, h3⟩ := hR.own
  have e : ref = ref' := Option.some.inj h1
  subst e
  exact (command_manager hs hw h2 (hd _ _ h1 h2).1).2 h3

theorem accMgr_own {ref : Str} {sets : Dict Str FileSet} {f : FileSet} {mgr : Manager}
    (hs : allFileSets accSets.source accSets.user = .ok sets) (hw : ∀ kv ∈ sets, WellDescribed kv.2)
    (hf : Dict.get? sets ref = some f) (hd : SoundSet accSets sets (accCall ref))
    (h : accMgr ref = .ok mgr) : OwnDefinitions easyLib cmdPattern (accSets.dir f.path) mgr :=
  (command_manager hs hw hf (hd _ _ rfl hf).1).1 h

theorem accMgr_slash {mgr : Manager} (h : accMgr s%"v1" = .ok mgr) (c : Str) (d : ClassDef)
    (hc : Dict.get? mgr.classes c = some d) : ¬ s%"/" <:+ c := by
  have h5 : (match accMgr s%"v1" with
    | .ok m => (Dict.keys m.classes).all fun e => !endsWith e s%"/"
    | .error _ => false) = true := by decide +kernel
  rw [h] at h5
  have hk : c ∈ Dict.keys mgr.classes := by
    rw [← Dict.has_iff]
    simp [Dict.has, hc]
  have := List.all_eq_true.1 h5 c hk
  intro hs
  rw [endsWith_iff.2 hs] at this
  cases this

theorem spare_passes : Passes (accRun s%"v1" (trim spare spareFile)) := passes_of (by decide +kernel)

/-- `command_extras`: the file with the additional content passes, since it passes without. -/
example : Passes (accRun s%"v1" spareFile) := by
  obtain ⟨sets, f, _, hs, hw, hf, hdir, _, _⟩ := acc_listed
  have hd := acc_sound hf (hdir ▸ ⟨cmd_has, cmd_lawful⟩)
  unfold accRun
  exact command_extras (X := spare) (f := spareFile) (files := accDisk (trim spare spareFile)) hs hw hd
    (acc_plain _) rfl (acc_disk _ _) (acc_disk _ _) spareFile_wellNamed
    (fun mgr hR => ⟨spareFile_extras mgr, accMgr_slash (accMgr_of hs hw hd hR)⟩) spare_passes

theorem partA_passes : Passes (accRun s%"v1" partA) := passes_of (by decide +kernel)

theorem partB_passes : Passes (accRun s%"v1" partB) := passes_of (by decide +kernel)

/-- `command_parts`: a file with two entries passes, since its parts do. -/
example : Passes (accRun s%"v1" wholeFile) := by
  obtain ⟨sets, f, _, hs, hw, hf, hdir, _, _⟩ := acc_listed
  have hd := acc_sound hf (hdir ▸ ⟨cmd_has, cmd_lawful⟩)
  unfold accRun
  refine command_parts (disk := accDisk) (parts := [partA, partB]) hs hw hd (acc_plain _) rfl
    (acc_disk _) wholeFile_wellNamed ?_ (by simp) wholeFile_made wholeFile_noMarks wholeFile_default ?_
  · simp [partA_wellNamed, partB_wellNamed]
  · simp only [List.forall_mem_cons, List.not_mem_nil, false_implies, implies_true, and_true]
    exact ⟨partA_passes, partB_passes⟩

/-- `command_stored_partial`: the lines are the same whether the texts are of fixed length or not. -/
example : Passes (accRun s%"v1" (variableFile (.int 1))) ↔ Passes (accRun s%"v1" (fixedFile (.int 1))) := by
  obtain ⟨sets, f, _, hs, hw, hf, hdir, _, _⟩ := acc_listed
  have hd := acc_sound hf (hdir ▸ ⟨cmd_has, cmd_lawful⟩)
  unfold accRun
  exact (command_stored_partial hs hw hd (acc_plain _) rfl (variableFile_wellNamed _)
    (acc_disk _ _) (acc_disk _ _) (variable_fixed _)).2

/-- The second set has the same definitions as the first, and more. -/
def hasMore : Except PyErr Manager → Except PyErr Manager → Bool
  | .ok m, .ok m' => m.itemPats = m'.itemPats && m.classPats = m'.classPats &&
      m.fieldMinOccursIsOne = m'.fieldMinOccursIsOne && m.classes.length < m'.classes.length &&
      (Dict.keys m.classes).all fun c => Dict.get? m.classes c = Dict.get? m'.classes c
  | _, _ => false

theorem hasMore_wider {x y : Except PyErr Manager} (h : hasMore x y = true) :
    ∃ m m', x = .ok m ∧ y = .ok m' ∧ WiderSet sampleEnv m m' := by
  cases x with
  | error e => cases h
  | ok m =>
    cases y with
    | error e => cases h
    | ok m' =>
      simp only [hasMore, Bool.and_eq_true, decide_eq_true_eq, List.all_eq_true] at h
      obtain ⟨⟨⟨⟨h1, h2⟩, h3⟩, _⟩, h4⟩ := h
      refine ⟨m, m', rfl, rfl, more_definitions_set h1 h2 h3 fun c d hc => ?_⟩
      rw [← h4 c (by rw [← Dict.has_iff]; simp [Dict.has, hc])]
      exact hc

theorem accMgr_more : ∃ m m', accMgr s%"v1" = .ok m ∧ accMgr s%"v2" = .ok m' ∧
    WiderSet sampleEnv m m' := hasMore_wider (by decide +kernel)

/-- `command_wider`: a file that passes with the set `v1` passes with the set `v2`. -/
example (g : H5File) (hg : WellNamedFile g) (h : Passes (accRun s%"v1" g)) : Passes (accRun s%"v2" g) := by
  obtain ⟨sets, f, f', hs, hw, hf, hdir, hf', hdir'⟩ := acc_listed
  have hd := acc_sound hf (hdir ▸ ⟨cmd_has, cmd_lawful⟩)
  have hd' := acc_sound hf' (hdir' ▸ ⟨more_has, more_lawful⟩)
  obtain ⟨m, m', e, e', hm⟩ := accMgr_more
  have ho : AllKnown s%"error" :=
    (report_option_refused (other := fun c => [c]) (acc_plain s%"v1")).1 (by decide +kernel)
  have hown := accMgr_own hs hw hf' hd' e'
  have hR' : CommandReaches easyLib cmdPattern accSets (accDisk g) sets (accCall s%"v2") m' g :=
    ⟨ho, acc_data _, ⟨_, f', rfl, hf', hown⟩, acc_disk _ _⟩
  unfold accRun
  refine command_wider hs hs hw hw hd hd' (acc_plain _) (acc_plain _) rfl hg (acc_disk _ _) hR'
    (fun n hR => ?_) h
  have e2 := accMgr_of hs hw hd hR
  rw [e] at e2
  injection e2 with e2
  rw [← e2]
  exact hm

/-- Not every file passes. -/
example : ¬ Passes (accRun s%"v1" attrFile) := not_passes_of (by decide +kernel)

end Punx

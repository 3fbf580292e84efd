import Verif.Props.Command2
import Verif.Cases.Expected
import Verif.Cases.Schema

/-!
# C101: one command, from the files to the lines
-/

namespace Punx
open Spec

/-- `smallXsd` with names of classes. -/
def cmdXsd : XsNode :=
  match smallXsd with
  | .elem a b c d kids => .elem a b c d (kids ++ [
      .elem true s%"simpleType" 40 [(s%"name", s%"validNXClassName")] [
        .elem true s%"restriction" 41 [(s%"base", s%"xs:token")] [
          .elem true s%"pattern" 42 [(s%"value", s%"NX.+")] []]]])
  | x => x

/-- `re.compile` for the two patterns of this schema. -/
def cmdPattern (s : Str) : Pat := if s = s%"NX.+" then nxClassPat else relaxedPat

/-- Definitions of NXroot, NXentry with a group NXdata, NXdata. -/
def cmdDefs : List NxdlFile := [
  ⟨s%"NXroot.nxdl.xml", some (.elem true s%"definition" [] [groupX s%"NXentry" []])⟩,
  ⟨s%"NXentry.nxdl.xml", some (.elem true s%"definition" [] [groupX s%"NXdata" []])⟩,
  ⟨s%"NXdata.nxdl.xml", some (.elem true s%"definition" [] [fieldX s%"x"])⟩]

def cmdDir : SetDir :=
  ⟨true, some cmdXsd, some nxTypesXsd, fun c => some (match c with
    | .baseClasses => cmdDefs
    | _ => [])⟩

/-- The set `v1` has these definitions. -/
def cmdSets : Disks := twoDirs cmdDir (smallDir [])

def cmdFiles (f : Str) : FileState := if f = s%"a.h5" then .hdf5 attrFile else .missing

/-- `punx validate --file_set_name v1 --report error a.h5` -/
def cmdCall : ValidateArgs := ⟨s%"a.h5", some s%"v1", s%"error"⟩

def cmdWorld : World :=
  commandWorld easyLib cmdPattern cmdSets sampleEnv cmdFiles (fun c => [c]) id

theorem cmd_listed : ∃ sets f, allFileSets cmdSets.source cmdSets.user = .ok sets ∧
    (∀ kv ∈ sets, WellDescribed kv.2) ∧ Dict.get? sets s%"v1" = some f ∧
    cmdSets.dir f.path = cmdDir := by
  refine ⟨_, _, rfl, ?_, rfl, rfl⟩
  have h : ((allFileSets cmdSets.source cmdSets.user).toOption.getD []).all
      (fun kv => kv.2.lastModified.isSome && kv.2.sha.isSome) = true := by decide +kernel
  intro kv hkv
  have := List.all_eq_true.1 h kv hkv
  simp only [Bool.and_eq_true, Option.isSome_iff_ne_none] at this
  exact this

theorem cmd_has : HasDefinitions cmdDir :=
  ⟨.baseClasses, cmdDefs, ⟨s%"NXroot.nxdl.xml", _⟩, rfl, List.mem_cons_self .., ⟨s%"NXroot", rfl⟩⟩

theorem cmd_lawful : LawfulDocs cmdDir := by
  have hg : ∀ t, Lawful (groupX t []) := fun t => .elem (by simp [Dict.keys]) (by simp)
  have hf : Lawful (fieldX s%"x") := .elem (by simp [Dict.keys]) (by simp)
  have hd : ∀ x, Lawful x → Lawful (.elem true s%"definition" [] [x]) := by
    intro x hx
    refine .elem (by simp [Dict.keys]) ?_
    intro y hy
    rw [List.mem_singleton] at hy
    rw [hy]
    exact hx
  intro c fs f x h1 h2 h3
  injection h1 with h1
  cases c with
  | baseClasses =>
    subst h1
    simp only [cmdDefs, List.mem_cons, List.not_mem_nil, or_false] at h2
    rcases h2 with rfl | rfl | rfl <;> (injection h3 with h3; subst h3)
    · exact hd _ (hg _)
    · exact hd _ (hg _)
    · exact hd _ hf
  | applications => subst h1; simp at h2
  | contributed => subst h1; simp at h2

/-- The address, test and status of the rows that are printed. -/
def printed (l : List Act) : List Line :=
  l.flatMap fun
    | .report _ rows _ _ => rows.map lineOf
    | _ => []

theorem mem_printed {l : List Act} {x : Line} :
    x ∈ printed l ↔ ∃ f rows sm sc, Act.report f rows sm sc ∈ l ∧ x ∈ rows.map lineOf := by
  unfold printed
  rw [List.mem_flatMap]
  constructor
  · rintro ⟨a, ha, hx⟩
    cases a with
    | report f rows sm sc => exact ⟨f, rows, sm, sc, ha, hx⟩
    | _ => simp at hx
  · rintro ⟨f, rows, sm, sc, ha, hx⟩
    exact ⟨_, ha, hx⟩

/-- The run of the command, computed. -/
theorem cmd_printed : (funcValidate cmdWorld cmdCall).res.toBool = true ∧
    printed (funcValidate cmdWorld cmdCall).log =
      [(some s%"/e/d@axes", s%"axes['q'] exists", .error),
       (some s%"/e/d@axes", s%"valid name @axes['.']", .error),
       (some s%"/e/d/y@target", s%"attribute value", .error)] := by
  decide +kernel

theorem cmd_plain : PlainAscii cmdCall.report := by
  unfold PlainAscii
  decide

theorem cmd_definitions {sets : Dict Str FileSet} {f : FileSet} (hf : Dict.get? sets s%"v1" = some f)
    (hdir : cmdSets.dir f.path = cmdDir) (ref : Str) (f' : FileSet) (e : cmdCall.fileSet = some ref)
    (h : Dict.get? sets ref = some f') :
    HasDefinitions (cmdSets.dir f'.path) ∧ LawfulDocs (cmdSets.dir f'.path) := by
  have e' : s%"v1" = ref := by injection e
  rw [← e', hf] at h
  injection h with h
  rw [← h, hdir]
  exact ⟨cmd_has, cmd_lawful⟩

theorem cmd_named (file : H5File) (h : cmdFiles cmdCall.infile = .hdf5 file) : WellNamedFile file := by
  have : FileState.hdf5 attrFile = .hdf5 file := h
  injection this with this
  rw [← this]
  exact attrFile_wellNamed

/-- `command_errors_iff` for this command: the file has three faults, no more. -/
example : ∃ sets, allFileSets cmdSets.source cmdSets.user = .ok sets ∧ ∀ ad t,
    (∃ mgr, CommandReaches easyLib cmdPattern cmdSets cmdFiles sets cmdCall mgr attrFile ∧
      Validatable sampleEnv mgr attrFile ∧
      Fault sampleEnv mgr [] attrFile (contents sampleEnv attrFile) ad t) ↔
    (ad, t) ∈ [(some s%"/e/d@axes", s%"axes['q'] exists"),
       (some s%"/e/d@axes", s%"valid name @axes['.']"),
       (some s%"/e/d/y@target", s%"attribute value")] := by
  obtain ⟨sets, f, hs, hw, hf, hdir⟩ := cmd_listed
  refine ⟨sets, hs, fun ad t => ?_⟩
  have hn : ∀ file, cmdFiles cmdCall.infile = .hdf5 file → file = attrFile := by
    intro file h
    have : FileState.hdf5 attrFile = .hdf5 file := h
    injection this with this
    exact this.symm
  have h := command_prints_iff (lib := easyLib) (pattern := cmdPattern) (env := sampleEnv)
    (files := cmdFiles) (upper := fun c => [c]) (abspath := id) hs hw (a := cmdCall)
    (cmd_definitions hf hdir) cmd_plain rfl
    (fun file h => by rw [hn file h]; exact attrFile_wellNamed)
  have hp : (ad, t, Status.error) ∈ printed (funcValidate cmdWorld cmdCall).log ↔
      (ad, t) ∈ [(some s%"/e/d@axes", s%"axes['q'] exists"),
       (some s%"/e/d@axes", s%"valid name @axes['.']"),
       (some s%"/e/d/y@target", s%"attribute value")] := by
    rw [cmd_printed.2]
    simp only [List.mem_cons, List.not_mem_nil, or_false, Prod.mk.injEq, and_true]
  rw [← hp, mem_printed]
  constructor
  · rintro ⟨mgr, h1, h2, h3⟩
    obtain ⟨rows, sm, sc, h4⟩ := (h _ (ad, t, .error)).2
      ⟨rfl, mgr, attrFile, h1, h2, 
        (report_option_selection (other := fun c => [c]) cmd_plain .error).1 (by decide +kernel),
        expected_error_iff.2 h3⟩
    exact ⟨_, rows, sm, sc, h4⟩
  · rintro ⟨fn, rows, sm, sc, h4⟩
    obtain ⟨_, mgr, file, h1, h2, _, h3⟩ := (h fn (ad, t, .error)).1 ⟨rows, sm, sc, h4⟩
    have := hn file h1.hdf5
    subst this
    exact ⟨mgr, h1, h2, expected_error_iff.1 h3⟩

/-- `command_succeeds_iff`: the file can be validated with these definitions. -/
example : ∃ sets mgr file, CommandReaches easyLib cmdPattern cmdSets cmdFiles sets cmdCall mgr file ∧
    Validatable sampleEnv mgr file := by
  obtain ⟨sets, f, hs, hw, hf, hdir⟩ := cmd_listed
  obtain ⟨mgr, file, h⟩ := (command_succeeds_iff (lib := easyLib) (pattern := cmdPattern)
    (env := sampleEnv) (files := cmdFiles) (upper := fun c => [c]) (abspath := id) hs hw (a := cmdCall)
    (fun r f' e1 e2 => (cmd_definitions hf hdir r f' e1 e2).1) cmd_plain cmd_named).1 (by
      have := cmd_printed.1
      change (funcValidate cmdWorld cmdCall).res = .ok ()
      cases h : (funcValidate cmdWorld cmdCall).res with
      | ok u => rfl
      | error e => rw [h] at this; cases this)
  exact ⟨sets, mgr, file, h⟩

/-- The summary of the report. -/
theorem cmd_summary : ((funcValidate cmdWorld cmdCall).log.any fun
    | .report _ _ sm sc => sm.contains (Status.error, 3) && (sm.map (·.2)).sum ≤ 100 &&
        decide (sc.avgNum < 0)
    | _ => false) = true := by
  decide +kernel

/-- `command_summary_iff`: there are three errors in the summary, so the file has a fault. -/
example : ∃ sets mgr file ad t,
    CommandReaches easyLib cmdPattern cmdSets cmdFiles sets cmdCall mgr file ∧
    Fault sampleEnv mgr [] file (contents sampleEnv file) ad t := by
  obtain ⟨sets, f, hs, hw, hf, hdir⟩ := cmd_listed
  obtain ⟨act, hact, h⟩ := List.any_eq_true.1 cmd_summary
  cases act with
  | report fn rows sm sc =>
    simp only [Bool.and_eq_true, decide_eq_true_eq, List.contains_iff_mem] at h
    obtain ⟨mgr, file, h1, _, h2, _⟩ := command_summary_iff (lib := easyLib) (pattern := cmdPattern)
      (env := sampleEnv) (files := cmdFiles) (upper := fun c => [c]) (abspath := id) hs hw
      (a := cmdCall) (cmd_definitions hf hdir) cmd_plain rfl cmd_named hact
    obtain ⟨ad, t, h3⟩ := h2.1 ⟨3, h.1.1, by decide⟩
    exact ⟨sets, mgr, file, ad, t, h1, h3⟩
  | _ => cases h

end Punx

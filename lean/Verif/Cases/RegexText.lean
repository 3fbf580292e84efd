import Verif.Cases.Unused
import Verif.Props.RegexText2

/-!
# Cases for C111
-/

namespace Punx
open Spec

/-- `readPattern_iff`: the pattern of `validTargetName` in the shipped schemas
(`punx/cache/*/nxdl.xsd:134`). -/
example : ∃ p, PatternText s%"(/[a-zA-Z_][\\w_]*(:[a-zA-Z_][\\w_]*)?)+" p ∧
    patMatch Char.isAlphanum p s%"/entry/x:y/z" = true ∧
    patMatch Char.isAlphanum p s%"/entry//z" = false := by
  obtain ⟨p, hp⟩ : ∃ p, readPattern s%"(/[a-zA-Z_][\\w_]*(:[a-zA-Z_][\\w_]*)?)+" = some p :=
    ⟨_, rfl⟩
  refine ⟨p, readPattern_iff.1 hp, ?_⟩
  have : (match readPattern s%"(/[a-zA-Z_][\\w_]*(:[a-zA-Z_][\\w_]*)?)+" with
    | some p => patMatch Char.isAlphanum p s%"/entry/x:y/z" &&
        !patMatch Char.isAlphanum p s%"/entry//z"
    | none => false) = true := by decide +kernel
  rw [hp] at this
  simpa using this

/-- Two alternatives at the top, as `"^" + text + "$"`: only the second one is bound to the end. -/
example : ∃ p, PatternText s%"a.|b\\.+" p ∧ patMatch Char.isAlphanum p s%"axy" = true ∧
    patMatch Char.isAlphanum p s%"b..y" = false ∧ patMatch Char.isAlphanum p s%"b.." = true :=
  ⟨_, readPattern_iff.1 rfl, by decide +kernel, by decide +kernel, by decide +kernel⟩

/-- Texts with other syntax are left to the library. -/
example : readPattern s%"a{2}" = none ∧ readPattern s%"[^a]" = none ∧ readPattern s%"a**" = none ∧
    readPattern s%"(?:a)" = none ∧ readPattern s%"[z-a]" = none ∧ readPattern s%"\\d" = none := by
  decide +kernel

/-- A library that reads these texts as they are written. -/
def plainPattern (t : Str) : Pat := (readPattern t).getD relaxedPat

theorem plain_compiles : Compiles plainPattern := by
  intro t p h
  rw [plainPattern, readPattern_iff.2 h]
  rfl

/-- The schema of `v1` with the types of item names and class names as in the shipped schemas. -/
def namesXsd : XsNode :=
  match smallXsd with
  | .elem a b c d kids => .elem a b c d (kids ++ [
      .elem true s%"simpleType" 40 [(s%"name", s%"validNXClassName")] [
        .elem true s%"restriction" 41 [(s%"base", s%"nx:validItemName")] [
          .elem true s%"pattern" 42 [(s%"value", s%"NX.+")] []]]])
  | x => x

def namesSets : Disks := twoDirs ⟨true, some namesXsd, some nxTypesXsd, fun c => some (match c with
    | .baseClasses => cmdDefs
    | _ => [])⟩ (smallDir [])

/-- Fields with good and bad names. -/
def namesFile : H5File :=
  entryFile (.cons s%"d" .hard (.group s%"/e/d" [(s%"NX_class", .str s%"NXdata")]
    (.cons s%"x" .hard (.dataset s%"/e/d/x" [] (.ofVal (.int 1)))
    (.cons s%"X1" .hard (.dataset s%"/e/d/X1" [] (.ofVal (.int 1)))
    (.cons s%"1x" .hard (.dataset s%"/e/d/1x" [] (.ofVal (.int 1))) .nil)))) .nil)

def namesFiles (f : Str) : FileState := if f = s%"a.h5" then .hdf5 namesFile else .missing

/-- `punx validate --file_set_name v1 --report error,note,ok a.h5` -/
def namesCall : ValidateArgs := ⟨s%"a.h5", some s%"v1", s%"error,note,ok"⟩

def namesWorld : World :=
  commandWorld easyLib plainPattern namesSets sampleEnv namesFiles (fun c => [c]) id

/-- The name rows of the run, computed. -/
theorem names_printed : (funcValidate namesWorld namesCall).res.toBool = true ∧
    (printed (funcValidate namesWorld namesCall).log).filter (fun l => l.2.1 = s%"validItemName") =
      [(some s%"/e", s%"validItemName", .ok), (some s%"/e@NX_class", s%"validItemName", .ok),
       (some s%"/e/d", s%"validItemName", .ok), (some s%"/e/d@NX_class", s%"validItemName", .ok),
       (some s%"/e/d/1x", s%"validItemName", .error), (some s%"/e/d/X1", s%"validItemName", .note),
       (some s%"/e/d/x", s%"validItemName", .ok)] := by
  decide +kernel

theorem names_reach : ∃ sets f, allFileSets namesSets.source namesSets.user = .ok sets ∧
    (∀ kv ∈ sets, WellDescribed kv.2) ∧ Dict.get? sets s%"v1" = some f ∧
    HasDefinitions (namesSets.dir f.path) ∧ (namesSets.dir f.path).xsd = some namesXsd := by
  refine ⟨_, _, rfl, ?_, rfl, ?_, rfl⟩
  · have h : ((allFileSets namesSets.source namesSets.user).toOption.getD []).all
        (fun kv => kv.2.lastModified.isSome && kv.2.sha.isSome) = true := by decide +kernel
    intro kv hkv
    have := List.all_eq_true.1 h kv hkv
    simp only [Bool.and_eq_true, Option.isSome_iff_ne_none] at this
    exact this
  · exact ⟨.baseClasses, cmdDefs, ⟨s%"NXroot.nxdl.xml", _⟩, rfl, List.mem_cons_self ..,
      ⟨s%"NXroot", rfl⟩⟩

theorem names_plain : PlainAscii namesCall.report := by
  unfold PlainAscii
  decide

theorem names_declared :
    DeclaresNames namesXsd s%"validItemName" s%"token" [s%"[A-Za-z_][\\w_]*"] none ∧
    ¬ NameType namesXsd s%"token" ∧
    DeclaresNames namesXsd s%"validNXClassName" s%"validItemName" [s%"NX.+"] none := by
  refine ⟨⟨[], _, _, _, s%"xs:token", rfl, rfl, ?_, rfl, rfl, ⟨by decide, .inr ⟨s%"xs", rfl⟩⟩,
    rfl, rfl⟩, ?_, ⟨[_], _, _, _, s%"nx:validItemName", rfl, rfl, ?_, rfl, rfl,
    ⟨by decide, .inr ⟨s%"nx", rfl⟩⟩, rfl, rfl⟩⟩
  · decide +kernel
  · rintro ⟨h, _⟩
    revert h
    decide
  · decide +kernel

theorem names_items :
    (∃ it ∈ (catalog sampleEnv namesFile).log, (∃ n, it.obj = .node n) ∧ it.name = s%"1x" ∧
      it.addr = some s%"/e/d/1x" ∧ '@' ∉ it.classpath ∧ ¬ s%"NXcollection" <:+: it.classpath) ∧
    ∃ it ∈ (catalog sampleEnv namesFile).log, it.obj = .val (.str s%"NXdata") ∧
      it.addr = some s%"/e/d@NX_class" := by
  refine ⟨⟨(catalog sampleEnv namesFile).log[7], List.getElem_mem _, ⟨_, rfl⟩, rfl, rfl, ?_, ?_⟩,
    ⟨(catalog sampleEnv namesFile).log[4], List.getElem_mem _, rfl, rfl⟩⟩ <;> decide +kernel

theorem names_file {file : H5File} (h : namesFiles namesCall.infile = .hdf5 file) :
    file = namesFile := by
  have : FileState.hdf5 namesFile = .hdf5 file := h
  injection this with this
  exact this.symm

/-- The hypotheses of `command_name_row` and `command_class_row` for this command. -/
theorem names_setting : ∃ sets mgr, allFileSets namesSets.source namesSets.user = .ok sets ∧
    (∀ kv ∈ sets, WellDescribed kv.2) ∧
    (∀ ref f, namesCall.fileSet = some ref → Dict.get? sets ref = some f →
      HasDefinitions (namesSets.dir f.path) ∧ (namesSets.dir f.path).xsd = some namesXsd) ∧
    CommandReaches easyLib plainPattern namesSets namesFiles sets namesCall mgr namesFile ∧
    (validateOpen sampleEnv mgr [] namesFile).res = .ok () := by
  obtain ⟨sets, f, hs, hw, hf, hdef, hxsd⟩ := names_reach
  have hd : ∀ ref f', namesCall.fileSet = some ref → Dict.get? sets ref = some f' →
      HasDefinitions (namesSets.dir f'.path) ∧ (namesSets.dir f'.path).xsd = some namesXsd := by
    intro ref f' e h
    injection e with e
    rw [← e, hf] at h
    rw [← Option.some.inj h]
    exact ⟨hdef, hxsd⟩
  have hok : (funcValidate namesWorld namesCall).res = .ok () := by
    have := names_printed.1
    cases h : (funcValidate namesWorld namesCall).res with
    | ok u => rfl
    | error e => rw [h] at this; cases this
  obtain ⟨g1, g2, ref, f', mgr, file, g3, g4, g5, g6, hv⟩ :=
    (command_validates_iff (lib := easyLib) (pattern := plainPattern) (env := sampleEnv)
      (files := namesFiles) (upper := fun c => [c]) (abspath := id) hs hw
      (fun r f' e1 e2 => (hd r f' e1 e2).1) names_plain).1 hok
  obtain rfl := names_file g6
  exact ⟨sets, mgr, hs, hw, hd, ⟨g1, g2, ⟨ref, f', g3, g4, g5⟩, g6⟩, hv⟩

theorem names_written : AllWritten [s%"[A-Za-z_][\\w_]*"] ∧ AllWritten [s%"NX.+"] := by
  constructor <;> (intro t h; rw [List.mem_singleton.1 h])
  · exact ⟨_, shipped_texts.2.1⟩
  · exact ⟨_, shipped_texts.2.2⟩

theorem names_asked {st : Status} (h : st = .error ∨ st = .ok) : Asked namesCall.report st := by
  rcases h with rfl | rfl
  · exact (report_option_selection (other := fun c => [c]) names_plain .error).1 (by decide +kernel)
  · exact (report_option_selection (other := fun c => [c]) names_plain .ok).1 (by decide +kernel)

/-- `command_name_row`: `1x` is reported as an error, since no pattern of the schema accepts it. -/
example : ∃ c rows sm sc, Act.report s%"a.h5" rows sm sc ∈ (funcValidate namesWorld namesCall).log ∧
    ⟨some s%"/e/d/1x", s%"validItemName", .error, c⟩ ∈ rows := by
  have hno : ¬ WrittenAccepts sampleEnv.word [s%"[A-Za-z_][\\w_]*"] s%"1x" := by
    rw [written_single shipped_texts.2.1, ← patMatch_iff]
    decide +kernel
  have hstrict : ¬ OrNewline StrictName s%"1x" := by
    rw [← patMatch_strict (word := fun _ => false)]
    decide +kernel
  obtain ⟨sets, mgr, hs, hw, hd, hr, hv⟩ := names_setting
  obtain ⟨it, t1, ⟨n, t2⟩, t3, t4, t5, t6⟩ := names_items.1
  obtain ⟨st, c, k1, k2, k3⟩ := command_name_row (upper := fun c => [c]) (abspath := id) hs hw
    (fun r f e1 e2 => (hd r f e1 e2).1) names_plain plain_compiles names_written.1
    (fun r f e1 e2 => ⟨_, _, _, (hd r f e1 e2).2, names_declared.1, names_declared.2.1⟩)
    hr hv t1 t2 t5
  rw [t3] at k2
  rw [t4] at k3
  obtain rfl : st = .error := (k2.2 t6).2.2 hstrict hno
  exact ⟨c, k3 (names_asked (.inl rfl))⟩

/-- `command_class_row`: the class of `/e/d` is accepted. -/
example : ∃ c rows sm sc, Act.report s%"a.h5" rows sm sc ∈ (funcValidate namesWorld namesCall).log ∧
    ⟨some s%"/e/d@NX_class", s%"validItemName", .ok, c⟩ ∈ rows := by
  have hcl : WrittenAccepts sampleEnv.word [s%"NX.+", s%"[A-Za-z_][\\w_]*"] s%"NXdata" := by
    rw [shipped_class_names]
    exact .inl (.inl ⟨s%"data", rfl, by decide, by decide⟩)
  obtain ⟨sets, mgr, hs, hw, hd, hr, hv⟩ := names_setting
  obtain ⟨it, u1, u2, u3⟩ := names_items.2
  obtain ⟨s, st, c, k1, k2, k3, k4, k5⟩ := command_class_row (upper := fun c => [c]) (abspath := id)
    hs hw (fun r f e1 e2 => (hd r f e1 e2).1) names_plain plain_compiles names_written.1
    names_written.2 (fun r f e1 e2 => ⟨_, _, _, _, (hd r f e1 e2).2, names_declared.1,
      names_declared.2.1, names_declared.2.2⟩)
    hr hv u1 u2 u3 ⟨s%"/e/d", rfl⟩
  rw [u3] at k5
  have e : s = s%"NXdata" := by
    rcases k1 with k1 | ⟨b, k1, _⟩
    · injection k1 with k1; exact k1.symm
    · cases k1
  rw [e] at k3
  obtain rfl : st = .ok := k3 hcl
  exact ⟨c, k5 (names_asked (.inr rfl))⟩

end Punx

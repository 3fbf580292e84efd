import Verif.Props.Argparse4
import Verif.Props.Usage
import Verif.Cases.Command
import Verif.Cases.Configuration

/-!
# Command lines that meet the hypotheses of the theorems about reading arguments
-/

namespace Punx
open Spec

/-- Texts for the examples: `3` and `-7` are numbers. -/
def exTexts : Texts where
  int := fun s => if s = s%"3" then some 3 else if s = s%"-7" then some (-7) else none
  negative := fun s => s == s%"-7"

/-! ## outcomes -/

example : parseCommandLine exTexts (some s%"v3.3") [s%"va", s%"x.h5", s%"-f", s%"main"] =
    .ok (.validate ⟨s%"x.h5", some s%"main", allStatuses⟩) := rfl
example : parseCommandLine exTexts (some s%"v3.3") [s%"validate", s%"--report=error", s%"--fi", s%"a", s%"-fb", s%"x"] =
    .ok (.validate ⟨s%"x", some s%"b", s%"error"⟩) := rfl
example : parseCommandLine exTexts (some s%"v3.3") [s%"tr", s%"-am=3", s%"x"] =
    .ok (.tree s%"x" false 3) := rfl
example : parseCommandLine exTexts (some s%"v3.3") [s%"tr", s%"-m", s%"-7", s%"--", s%"-x"] =
    .ok (.tree s%"-x" true (-7)) := rfl
example : parseCommandLine exTexts none [s%"in", s%"a", s%"b", s%"-u"] = .ok (.install [s%"a", s%"b"] true) := rfl
example : parseCommandLine exTexts none [s%"in"] = .ok (.install [s%"main"] false) := rfl
example : parseCommandLine exTexts none [s%"conf"] = .ok .configuration := rfl
example : parseCommandLine exTexts none [s%"conf", s%"x"] = .error (.systemExit 2) := rfl
example : parseCommandLine exTexts none [s%"tree", s%"-h"] = .error (.systemExit 0) := rfl
example : parseCommandLine exTexts none [s%"tree", s%"-m", s%"x", s%"-h"] = .error (.systemExit 2) := rfl
example : parseCommandLine exTexts none [s%"-v"] = .error (.systemExit 0) := rfl
example : parseCommandLine exTexts none [s%"-a", s%"tree", s%"x"] = .error (.systemExit 2) := rfl
example : parseCommandLine exTexts none [s%"validate", s%"--=x", s%"y"] = .error (.systemExit 2) := rfl

/-- The pieces of a command line, found by the theorem. -/
example : ∃ ps, Consists exTexts validateParser [s%"-f", s%"main", s%"x.h5"] ps ∧ OneWord ps s%"x.h5" ∧
    Given ps fileSetOpt none (some s%"main") := by
  obtain ⟨c, rest, ps, h1, -, h2, -, h3, h4, -⟩ := (validate_read_iff (t := exTexts) (ref := none)
    (args := [s%"validate", s%"-f", s%"main", s%"x.h5"]) (a := ⟨s%"x.h5", some s%"main", allStatuses⟩)).1 rfl
  simp only [List.cons.injEq] at h1
  obtain ⟨-, rfl⟩ := h1
  exact ⟨ps, h2, h3, h4⟩

theorem ex_word {p : CliParser} {c : Char} {s : Str} (h : c ≠ '-') : IsWord exTexts p (c :: s) :=
  Or.inl (by simpa using h)

theorem ex_f : Consists exTexts validateParser [s%"-f", s%"main"] [.option fileSetOpt (some s%"main")] :=
  .optionsText (qs := []) (.letters (.awaits ⟨by decide, by decide⟩ rfl)) (ex_word (by decide)) .nil

theorem ex_report : Consists exTexts validateParser [s%"--rep=error"] [.option reportOpt (some s%"error")] := by
  refine .options (qs := [_]) (.longText (n := s%"rep") (v := s%"error") (by decide) ?_ rfl) .nil
  refine Or.inr ⟨?_, s%"--report", ⟨by decide, by decide⟩, by decide, ?_⟩
  · rintro o ⟨h1, h2⟩
    simp only [validateParser, helpOpt, fileSetOpt, reportOpt, List.mem_cons, List.not_mem_nil, or_false] at h1
    rcases h1 with rfl | rfl | rfl <;> revert h2 <;> decide
  · rintro m o ⟨h1, h2⟩ h3
    simp only [validateParser, helpOpt, fileSetOpt, reportOpt, List.mem_cons, List.not_mem_nil, or_false] at h1
    rcases h1 with rfl | rfl | rfl <;> simp only [List.mem_cons, List.not_mem_nil, or_false] at h2
    · rcases h2 with rfl | rfl <;> revert h3 <;> decide
    · rcases h2 with rfl | rfl <;> revert h3 <;> decide
    · exact h2

theorem ex_only {o : CliOpt} {v : Option Str} : OnlyOptions [.option o v] := by
  intro x hx
  simp only [List.mem_singleton] at hx
  exact ⟨o, v, hx⟩

/-- C116: the file between the options, or before them. -/
example : parseCommandLine exTexts none [s%"va", s%"-f", s%"main", s%"x", s%"--rep=error"] =
    parseCommandLine exTexts none [s%"va", s%"x", s%"-f", s%"main", s%"--rep=error"] :=
  word_anywhere_partial (name := s%"validate") rfl rfl ⟨by decide, by decide⟩ ex_f ex_only.noWords ex_report
    ex_only.noWords (ex_word (by decide))

/-- C116: the options in the other order, after the file. -/
example : parseCommandLine exTexts none [s%"va", s%"x", s%"-f", s%"main", s%"--rep=error"] =
      .ok (.validate ⟨s%"x", some s%"main", s%"error"⟩) ↔
    parseCommandLine exTexts none [s%"va", s%"x", s%"--rep=error", s%"-f", s%"main"] =
      .ok (.validate ⟨s%"x", some s%"main", s%"error"⟩) :=
  options_swap (name := s%"validate") rfl (by decide) ⟨by decide, by decide⟩
    (.word (ex_word (by decide)) .nil) (by simp) ex_f ex_only ex_report ex_only .nil
    (by
      intro o v v' h h'
      simp only [List.mem_singleton, Piece.option.injEq] at h h'
      rw [h.1] at h'
      exact absurd h'.1 (by decide)) _

/-- The same option twice: the order matters, the last one counts. -/
example : parseCommandLine exTexts none [s%"va", s%"x", s%"-fa", s%"-fb"] ≠
    parseCommandLine exTexts none [s%"va", s%"x", s%"-fb", s%"-fa"] := by
  intro h
  have h' : (Except.ok (Command.validate ⟨s%"x", some s%"b", allStatuses⟩) : Except PyErr Command) =
    .ok (.validate ⟨s%"x", some s%"a", allStatuses⟩) := h
  simp at h'

/-- C116: an option between the names of sets. -/
example : parseCommandLine exTexts none [s%"in", s%"a", s%"-u", s%"b"] = .error (.systemExit 2) ∧
    ∃ update, parseCommandLine exTexts none [s%"in", s%"-u", s%"a", s%"b"] = .ok (.install [s%"a", s%"b"] update) ∧
      parseCommandLine exTexts none [s%"in", s%"a", s%"b", s%"-u"] = .ok (.install [s%"a", s%"b"] update) :=
  install_order_matters (opts := [s%"-u"]) (ps := [.option updateOpt none]) ⟨by decide, by decide⟩
    (.options (qs := [_]) (.letters (.flag ⟨by decide, by decide⟩ rfl)) .nil) ex_only (by simp)
    (by
      intro x hx
      simp only [List.mem_singleton] at hx
      subst hx
      exact ⟨by decide, fun h => absurd h (by decide)⟩)
    (ex_word (by decide)) (ex_word (by decide))

theorem ex_u : Consists exTexts installParser [s%"-u"] [.option updateOpt none] :=
  .options (qs := [_]) (.letters (.flag ⟨by decide, by decide⟩ rfl)) .nil

/-- C116: names after the option, or before it. -/
example : parseCommandLine exTexts none [s%"in", s%"-u", s%"a", s%"b"] =
    parseCommandLine exTexts none [s%"in", s%"a", s%"b", s%"-u"] :=
  names_anywhere_partial (pre := [s%"-u"]) (post := []) (ws := [s%"a", s%"b"]) (qs := [])
    ⟨by decide, by decide⟩ ex_u ex_only.noWords .nil (by simp [NoWords])
    (by
      intro w hw
      simp only [List.mem_cons, List.not_mem_nil, or_false] at hw
      rcases hw with rfl | rfl
      · exact ex_word (by decide)
      · exact ex_word (by decide))

/-- C115: help of a sub-command. -/
example : (∀ a ∈ beforeDashes [s%"-ah", s%"--", s%"x"], ¬ Ambiguous topParser a ∧ ¬ Ambiguous treeParser a) ∧
    ∃ pre post ps, [s%"-ah", s%"--", s%"x"] = pre ++ post ∧ Consists exTexts treeParser pre ps ∧
      AsksHelp exTexts ps :=
  (command_help_iff (t := exTexts) (ref := none) (c := s%"tree") (name := s%"tree") rfl
    ⟨by decide, by decide⟩).1 rfl

/-! ## C118 -/

/-- `punx val --report ERROR x.h5 -f main --report=NOTE` -/
example : parseCommandLine exTexts none
      [s%"val", s%"--report", s%"ERROR", s%"x.h5", s%"-f", s%"main", s%"--report=NOTE"] =
    .ok (.validate ⟨s%"x.h5", some s%"main", s%"NOTE"⟩) :=
  validate_usage (xs := [.report s%"ERROR"]) (ys := [.f s%"main", .reportIs s%"NOTE"]) ⟨by decide, by decide⟩
    (by unfold PlainWord; decide)
    (by
      intro x hx
      simp only [List.cons_append, List.nil_append, List.mem_cons, List.not_mem_nil, or_false] at hx
      rcases hx with rfl | rfl | rfl
      · show PlainWord _
        unfold PlainWord
        decide
      · show PlainWord _
        unfold PlainWord
        decide
      · trivial)

/-- `punx tree -a -m 3 x.h5` -/
example : parseCommandLine exTexts none [s%"tree", s%"-a", s%"-m", s%"3", s%"x.h5"] =
    .ok (.tree s%"x.h5" false 3) :=
  tree_usage (xs := [.a, .m s%"3"]) (ys := []) ⟨by decide, by decide⟩ (by unfold PlainWord; decide)
    (by
      intro x hx
      simp only [List.append_nil, List.mem_cons, List.not_mem_nil, or_false] at hx
      rcases hx with rfl | rfl
      · trivial
      · exact ⟨by unfold PlainWord; decide, 3, rfl⟩)

/-- `punx install a --update` -/
example : parseCommandLine exTexts none [s%"inst", s%"a", s%"--update"] = .ok (.install [s%"a"] true) :=
  install_usage (xs := []) (names := [s%"a"]) (ys := [.update]) ⟨by decide, by decide⟩
    (by
      intro n hn
      simp only [List.mem_singleton] at hn
      subst hn
      unfold PlainWord
      decide)

example : parseCommandLine exTexts none [s%"--version"] = .error (.systemExit 0) :=
  first_usage (by decide) (by simp)
example : parseCommandLine exTexts none [s%"in", s%"-h", s%"x"] = .error (.systemExit 0) :=
  help_usage (name := s%"install") (by decide) ⟨by decide, by decide⟩ (by decide)
    (by
      intro x hx
      simp only [List.mem_singleton] at hx
      subst hx
      unfold PlainWord
      decide)

/-! ## C117 -/

/-- The newer one of two sets has the definitions of the example. -/
def argSets : Disks := twoDirs (smallDir []) cmdDir

theorem arg_listed : ∃ sets s, allFileSets argSets.source argSets.user = .ok sets ∧
    (∀ kv ∈ sets, WellDescribed kv.2) ∧ Latest sets s%"v2" s ∧ s.ref = some s%"v2" ∧
    argSets.dir s.path = cmdDir := by
  refine ⟨_, _, rfl, ?_, ⟨[_], [], rfl, ?_, by simp⟩, rfl, rfl⟩
  · have h : ((allFileSets argSets.source argSets.user).toOption.getD []).all
        (fun kv => kv.2.lastModified.isSome && kv.2.sha.isSome) = true := by decide +kernel
    intro kv hkv
    have := List.all_eq_true.1 h kv hkv
    simp only [Bool.and_eq_true, Option.isSome_iff_ne_none] at this
    exact this
  · unfold Earlier
    decide

/-- `punx va a.h5` prints this line, so it is an expected one with the definitions of the newer set. -/
example : ∃ mgr, OwnDefinitions easyLib cmdPattern cmdDir mgr ∧ Validatable sampleEnv mgr attrFile ∧
    Expected sampleEnv mgr [] attrFile (contents sampleEnv attrFile)
      (some s%"/e/d/y@target", s%"attribute value", .error) := by
  obtain ⟨sets, s, hs, hw, hk, hr, hdir⟩ := arg_listed
  have hn : ∀ file, cmdFiles s%"a.h5" = .hdf5 file → file = attrFile := by
    intro file h
    have : FileState.hdf5 attrFile = .hdf5 file := h
    injection this with this
    exact this.symm
  obtain ⟨a, ha, h⟩ := plain_validate_prints_partial (t := exTexts) (lib := easyLib) (pattern := cmdPattern)
    (env := sampleEnv) (files := cmdFiles) (upper := fun c => [c]) (abspath := id) (c := s%"va") (f := s%"a.h5")
    hs hw hk hr (by rw [hdir]; exact cmd_has) (by rw [hdir]; exact cmd_lawful) rfl
    (fun file h => by rw [hn file h]; exact attrFile_wellNamed) ⟨by decide, by decide⟩ (ex_word (by decide))
  have hm : mainCommand exTexts argSets.source argSets.user [s%"va", s%"a.h5"] =
      .ok (.validate ⟨s%"a.h5", some s%"v2", allStatuses⟩) := by rfl
  rw [hm] at ha
  simp only [Except.ok.injEq, Command.validate.injEq] at ha
  subst ha
  have hp : (printed (funcValidate (commandWorld easyLib cmdPattern argSets sampleEnv cmdFiles (fun c => [c]) id)
      ⟨s%"a.h5", some s%"v2", allStatuses⟩).log).contains
      (some s%"/e/d/y@target", s%"attribute value", .error) = true := by decide +kernel
  rw [List.contains_iff_mem, mem_printed] at hp
  obtain ⟨fn, rows, sm, sc, h1, h2⟩ := hp
  obtain ⟨-, -, mgr, file, h3, h4, h5, h6⟩ := (h fn _).1 ⟨rows, sm, sc, h1, h2⟩
  rw [hdir] at h3
  have := hn file h4
  subst this
  exact ⟨mgr, h3, h5, h6⟩

/-- A set without a date next to that of the package: there is not even help. -/
example : mainCommand exTexts packageCache
    (cacheWith s%"/home/me/.config/punx" s%"mine" [(s%"ref", s%"mine"), (s%"sha", s%"0a1b2c3")])
    [s%"--help"] = .error .typeError :=
  undated_set_stops_all (kv := (s%"mine", _)) rfl (by decide) (List.mem_cons_of_mem _ (List.mem_cons_self ..))
    rfl _

/-- A copy of the set `main` that is the latest set: it is known as `copy`, asked for as `main`. -/
example : ∃ a, mainCommand exTexts packageCache copiedSet [s%"va", s%"x.h5"] = .ok (.validate a) ∧
    funcValidate (commandWorld easyLib cmdPattern ⟨packageCache, copiedSet, argSets.dir⟩ sampleEnv cmdFiles
      (fun c => [c]) id) a = ⟨[], .error (.systemExit 1)⟩ := by
  refine misnamed_default_refused (w := ⟨packageCache, copiedSet, argSets.dir⟩) (sets := _) (k := s%"copy")
    (r := s%"main") (s := _) rfl ?_ ⟨[_], [], rfl, ?_, by simp⟩ rfl (by decide) (by decide)
    ⟨by decide, by decide⟩ (ex_word (by decide))
  · have h : ((allFileSets packageCache copiedSet).toOption.getD []).all
        (fun kv => kv.2.lastModified.isSome && kv.2.sha.isSome) = true := by decide +kernel
    intro kv hkv
    have := List.all_eq_true.1 h kv hkv
    simp only [Bool.and_eq_true, Option.isSome_iff_ne_none] at this
    exact this
  · unfold Earlier
    decide

end Punx

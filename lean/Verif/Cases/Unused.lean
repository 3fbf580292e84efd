import Verif.Cases.Schema
import Verif.Cases.Installed
import Verif.Props.Unused2

/-!
# Cases for C110: two installations that differ in a file which the data file does not mention
-/

namespace Punx
open Spec

/-- `attrFile` mentions three definitions. -/
theorem attrFile_mentions {c : Str} (h : Mentions sampleEnv attrFile c) :
    c = s%"NXroot" ∨ c = s%"NXentry" ∨ c = s%"NXdata" := by
  rcases h with h | h | ⟨n, hn, h⟩
  · exact .inl h
  · exact .inr (.inl h)
  · have hall : AllNodes (fun n =>
        (∀ ka ∈ n.attrs, ka.2 = .str s%"NXentry" ∨ ka.2 = .str s%"NXdata" ∨ ka.1 ≠ s%"NX_class") ∧
        h5get attrFile n s%"definition" = .ok none) attrFile.root := by
      simp only [H5File.root, attrFile, entryFile, AllNodes, AllKids, Node.attrs]
      refine ⟨⟨by decide, rfl⟩, ⟨⟨by decide, rfl⟩, ⟨⟨by decide, rfl⟩, ⟨by decide, rfl⟩, ⟨by decide, rfl⟩,
        trivial⟩, trivial⟩, trivial⟩
    have hp := AllNodes_inTree _ hall hn
    rcases h with ⟨v, hv, ht⟩ | ⟨m, a, d, hd, _⟩
    · rcases hp.1 _ hv with e | e | e
      · rcases ht with ht | ⟨b, ht, _⟩
        · rw [ht] at e; injection e with e; exact .inr (.inl e)
        · rw [ht] at e; cases e
      · rcases ht with ht | ⟨b, ht, _⟩
        · rw [ht] at e; injection e with e; exact .inr (.inr e)
        · rw [ht] at e; cases e
      · exact absurd rfl e
    · rw [hp.2] at hd
      cases hd

/-- A definition it does not mention. -/
def noteNxdl : NxdlFile := ⟨s%"NXnote.nxdl.xml", some (.elem true s%"definition" [] [fieldX s%"x"])⟩

/-- The directory of `v1`. -/
def threeDir (extra : List NxdlFile) : SetDir :=
  ⟨true, some cmdXsd, some nxTypesXsd, fun c => some (match c with
    | .baseClasses => cmdDefs ++ extra
    | _ => [])⟩

/-- `v1` has these, and `extra`. -/
def threeSets (extra : List NxdlFile) : Disks := twoDirs (threeDir extra) (smallDir [])

/-- without and with one further definition -/
def Further (extra : List NxdlFile) : Prop := extra = [] ∨ extra = [noteNxdl]

theorem three_listed (extra : List NxdlFile) : ∃ sets f,
    allFileSets (threeSets extra).source (threeSets extra).user = .ok sets ∧
    (∀ kv ∈ sets, WellDescribed kv.2) ∧ Dict.get? sets s%"v1" = some f ∧
    (threeSets extra).dir f.path = threeDir extra := by
  refine ⟨_, _, rfl, ?_, rfl, rfl⟩
  have h : ((allFileSets smallSets.source smallSets.user).toOption.getD []).all
      (fun kv => kv.2.lastModified.isSome && kv.2.sha.isSome) = true := by decide +kernel
  intro kv hkv
  have := List.all_eq_true.1 h kv hkv
  simp only [Bool.and_eq_true, Option.isSome_iff_ne_none] at this
  exact this

theorem three_has {extra : List NxdlFile} {d : SetDir} (h : d = threeDir extra) :
    HasDefinitions d := by
  subst h
  exact ⟨.baseClasses, _, cmdDefs[0], rfl, List.mem_cons_self .., ⟨s%"NXroot", rfl⟩⟩

theorem three_own {extra : List NxdlFile} (he : Further extra) :
    ∃ mgr, OwnDefinitions easyLib cmdPattern (threeDir extra) mgr := by
  obtain ⟨sets, f, h1, h2, h3, h4⟩ := three_listed extra
  have h5 : (commandLoad easyLib (threeSets extra) s%"v1" {}).1.toBool = true := by
    rcases he with rfl | rfl <;> decide +kernel
  obtain ⟨m, p, h5⟩ := pairOf h5
  have := (command_manager (lib := easyLib) (pattern := cmdPattern)
    (mgr := m.view _ p) h1 h2 h3 (three_has h4)).1 (by rw [h5])
  rw [h4] at this
  exact ⟨_, this⟩

theorem three_distinct {extra : List NxdlFile} (he : Further extra) :
    DistinctFiles (threeDir extra) := by
  have key : (threeDir extra).listing .baseClasses = some (cmdDefs ++ extra) := rfl
  have hn : ((cmdDefs ++ extra).map (·.name)).Nodup := by
    rcases he with rfl | rfl <;> decide
  rintro c f g ⟨fs, h1, h2⟩ ⟨gs, h3, h4⟩ hfg
  cases c
  · rw [key] at h1 h3
    injection h1 with h1
    injection h3 with h3
    subst h1
    rw [← h3] at h4
    exact List.inj_on_of_nodup_map hn h2 h4 hfg
  · injection h1 with h1; subst h1; cases h2
  · injection h1 with h1; subst h1; cases h2

/-- The further definition is not mentioned in `attrFile`. -/
theorem three_same : SameFilesFor (Mentions sampleEnv attrFile) (threeDir [])
    (threeDir [noteNxdl]) := by
  refine ⟨rfl, rfl, fun t ht c f _ hf => ?_⟩
  cases c
  · constructor
    · rintro ⟨fs, h1, h2⟩
      injection h1 with h1
      subst h1
      exact ⟨_, rfl, List.mem_append_left _ (by simpa using h2)⟩
    · rintro ⟨fs, h1, h2⟩
      injection h1 with h1
      subst h1
      refine ⟨_, rfl, ?_⟩
      rcases List.mem_append.1 h2 with h2 | h2
      · exact List.mem_append_left _ h2
      · exfalso
        rw [List.mem_singleton] at h2
        subst h2
        have : t = s%"NXnote" := (titled_iff.1 hf).symm
        subst this
        have := attrFile_mentions ht
        revert this
        decide
  · exact ⟨fun ⟨fs, h1, h2⟩ => ⟨fs, h1, h2⟩, fun ⟨fs, h1, h2⟩ => ⟨fs, h1, h2⟩⟩
  · exact ⟨fun ⟨fs, h1, h2⟩ => ⟨fs, h1, h2⟩, fun ⟨fs, h1, h2⟩ => ⟨fs, h1, h2⟩⟩

/-- `same_files_classes` and `unused_files` for these directories. -/
example : ∃ mgr mgr',
    OwnDefinitions easyLib cmdPattern (threeDir []) mgr ∧
    OwnDefinitions easyLib cmdPattern (threeDir [noteNxdl]) mgr' ∧
    Dict.get? mgr.classes s%"NXentry" = Dict.get? mgr'.classes s%"NXentry" ∧
    (validateOpen sampleEnv mgr [] attrFile).res = (validateOpen sampleEnv mgr' [] attrFile).res := by
  obtain ⟨mgr, h⟩ := three_own (.inl rfl)
  obtain ⟨mgr', h'⟩ := three_own (.inr rfl)
  exact ⟨mgr, mgr', h, h', (same_files_classes three_same (three_distinct (.inr rfl)) h h').2.2.2 _
    (.inr (.inl rfl)), (unused_files three_same (three_distinct (.inr rfl)) h h' []).2⟩

/-- `punx validate --file_set_name v1 --report error a.h5` on both installations. -/
example :
    ((funcValidate (commandWorld easyLib cmdPattern (threeSets []) sampleEnv
      cmdFiles (fun c => [c]) id) cmdCall).res = .ok () ↔
    (funcValidate (commandWorld easyLib cmdPattern (threeSets [noteNxdl]) sampleEnv
      cmdFiles (fun c => [c]) id) cmdCall).res = .ok ()) := by
  obtain ⟨sets, f, h1, h2, h3, h4⟩ := three_listed []
  obtain ⟨sets', f', g1, g2, g3, g4⟩ := three_listed [noteNxdl]
  obtain ⟨mgr, h⟩ := three_own (.inl rfl)
  obtain ⟨mgr', h'⟩ := three_own (.inr rfl)
  rw [← h4] at h
  rw [← g4] at h'
  refine (unused_files_command h1 h2 g1 g2 rfl h3 g3 (three_has h4) (three_has g4)
    (by rw [h4]; exact three_distinct (.inl rfl)) (by rw [g4]; exact three_distinct (.inr rfl)) h h' ?_
    (by unfold PlainAscii; decide)).2
  intro file hf
  have : FileState.hdf5 attrFile = .hdf5 file := hf
  injection this with this
  subst this
  rw [h4, g4]
  exact three_same



/-- What is printed on both. -/
example (extra : List NxdlFile) (h : Further extra) :
    printed (funcValidate (commandWorld easyLib cmdPattern (threeSets extra) sampleEnv
      cmdFiles (fun c => [c]) id) cmdCall).log =
      [(some s%"/e/d@axes", s%"axes['q'] exists", .error),
       (some s%"/e/d@axes", s%"valid name @axes['.']", .error),
       (some s%"/e/d/y@target", s%"attribute value", .error)] := by
  rcases h with rfl | rfl <;> decide +kernel

/-- A set of definitions with another default for `minOccurs`. -/
def withMin (m : Manager) : Manager := { m with fieldMinOccursIsOne := some false }

/-- `unused_definitions_lines` does not hold for the comments: the shared default of `minOccurs`, which
other definitions may change (C51), is in the comment on a field with enumerated values. -/
example : (validateOpen sampleEnv modeMgr [] (modeFile s%"b")).log ≠
    (validateOpen sampleEnv (withMin modeMgr) [] (modeFile s%"b")).log := by
  decide +kernel

example (m : Manager) (f : H5File) (h : m.fieldMinOccursIsOne = some true) :
    (findings (validateOpen sampleEnv m [] f).log).map lineOf =
      (findings (validateOpen sampleEnv (withMin m) [] f).log).map lineOf :=
  (unused_definitions_lines (mgr := m) (mgr' := withMin m) _ _ _ rfl rfl (by rw [h]; simp [withMin]) fun _ _ => rfl).1

end Punx

import Verif.Props.Command2
import Verif.Props.Wider
import Verif.Props.Extras3
import Verif.Props.Whole3
import Verif.Props.Stored3

/-!
# C133: which files `punx validate` accepts, and what it says about related files
-/

namespace Punx
open Spec

variable {lib : Lib} {pattern : Str → Pat} {w : Disks} {env : Env} {files files' : Str → FileState}
  {upper : Char → Str} {abspath : Str → Str} {sets : Dict Str FileSet} {a a' : ValidateArgs}

/-- The command ends normally with a report, and every summary that it prints counts no ERROR. -/
def Passes (r : W Act Unit) : Prop :=
  r.res = .ok () ∧ (∃ fname rows sm sc, Act.report fname rows sm sc ∈ r.log) ∧
  ∀ fname rows sm sc, Act.report fname rows sm sc ∈ r.log → ∀ n, (Status.error, n) ∈ sm → n = 0

/-- The set that is used has definitions, in XML documents. -/
def SoundSet (w : Disks) (sets : Dict Str FileSet) (a : ValidateArgs) : Prop :=
  ∀ ref f, a.fileSet = some ref → Dict.get? sets ref = some f →
    HasDefinitions (w.dir f.path) ∧ LawfulDocs (w.dir f.path)

/-- The definitions that a command uses are determined. -/
theorem reaches_unique {mgr mgr' : Manager} {file file' : H5File}
    (h : CommandReaches lib pattern w files sets a mgr file)
    (h' : CommandReaches lib pattern w files sets a mgr' file') (hs : allFileSets w.source w.user = .ok sets)
    (hw : ∀ kv ∈ sets, WellDescribed kv.2) (hd : SoundSet w sets a) : mgr = mgr' ∧ file = file' := by
  obtain ⟨ref, f, h1, h2, h3⟩ := h.own
  obtain ⟨ref', f', h1', h2', h3'⟩ := h'.own
  rw [h1] at h1'
  cases h1'
  rw [h2] at h2'
  cases h2'
  have e := (command_manager (lib := lib) (pattern := pattern) hs hw h2 (hd _ _ h1 h2).1).2 h3
  have e' := (command_manager (lib := lib) (pattern := pattern) hs hw h2 (hd _ _ h1 h2).1).2 h3'
  rw [e] at e'
  cases e'
  have := h.hdf5
  rw [h'.hdf5] at this
  cases this
  exact ⟨rfl, rfl⟩

/-- A command that ends normally prints a report. -/
theorem success_reports {v : World} (h : (funcValidate v a).res = .ok ()) :
    ∃ fname rows sm sc, Act.report fname rows sm sc ∈ (funcValidate v a).log := by
  rcases funcValidate_cases v a with ⟨_, _, e, he⟩ | ⟨r, _, _, _, e, he⟩ | ⟨r, mgr, _, _, _, hl, hr⟩
  · rw [h] at he; cases he
  · rw [h] at he; cases he
  · rcases validateAndReport_cases v mgr a.infile (reportChoices v.upper a.report).1 with
      ⟨file, rows, sm, sc, _, _, _, h4, _⟩ | ⟨_, _, ⟨_, h5⟩ | ⟨_, _, _, _, e', h5⟩⟩
    · exact ⟨a.infile, rows, sm, sc, by rw [hl, h4]; simp⟩
    · rw [h, h5] at hr; cases hr
    · rw [h, h5] at hr; cases hr

/-- **C133.** `punx validate` ends normally with a report whose summary counts no ERROR if and only if
it reaches the data file, the file can be validated to the end, and there is nothing wrong with it. -/
theorem command_passes_iff (hs : allFileSets w.source w.user = .ok sets)
    (hw : ∀ kv ∈ sets, WellDescribed kv.2) (hd : SoundSet w sets a) (ha : PlainAscii a.report)
    (hdig : env.isdigit s%"1" = true)
    (hn : ∀ file, files a.infile = .hdf5 file → WellNamedFile file) :
    Passes (funcValidate (commandWorld lib pattern w env files upper abspath) a) ↔
      ∃ mgr file, CommandReaches lib pattern w files sets a mgr file ∧ Accepted env mgr [] file := by
  have hd1 := fun r f e1 e2 => (hd r f e1 e2).1
  have hok := command_succeeds_iff (lib := lib) (pattern := pattern) (env := env) (upper := upper)
    (abspath := abspath) hs hw hd1 ha hn
  constructor
  · rintro ⟨h0, ⟨fname, rows, sm, sc, hm⟩, hno⟩
    obtain ⟨mgr, file, hR, hv⟩ := hok.1 h0
    obtain ⟨mgr', file', hR', _, h1, _⟩ := command_summary_iff hs hw hd ha hdig hn hm
    obtain ⟨rfl, rfl⟩ := reaches_unique hR hR' hs hw hd
    refine ⟨mgr, file, hR, hv, fun ad t hf => ?_⟩
    obtain ⟨n, hsm, hpos⟩ := h1.2 ⟨ad, t, hf⟩
    exact absurd (hno _ _ _ _ hm n hsm) hpos.ne'
  · rintro ⟨mgr, file, hR, hA⟩
    have h0 := hok.2 ⟨mgr, file, hR, hA.valid⟩
    refine ⟨h0, success_reports h0, fun fname rows sm sc hm n hsm => ?_⟩
    obtain ⟨mgr', file', hR', _, h1, _⟩ := command_summary_iff hs hw hd ha hdig hn hm
    obtain ⟨rfl, rfl⟩ := reaches_unique hR hR' hs hw hd
    by_contra h0
    obtain ⟨ad, t, hf⟩ := h1.1 ⟨n, hsm, Nat.pos_of_ne_zero h0⟩
    exact hA.clean ad t hf

/-! ## related files -/

/-- The same command reaches another file with the same definitions. -/
theorem reaches_other {mgr : Manager} {f f' : H5File}
    (h : CommandReaches lib pattern w files sets a mgr f) (hf' : files' a.infile = .hdf5 f') :
    CommandReaches lib pattern w files' sets a mgr f' :=
  ⟨h.options, h.data, h.own, hf'⟩

theorem reaches_file {mgr : Manager} {f f' : H5File}
    (h : CommandReaches lib pattern w files sets a mgr f') (hf : files a.infile = .hdf5 f) : f' = f := by
  have := h.hdf5
  rw [hf] at this
  cases this
  rfl

/-- Acceptance, as a statement on the validation. -/
theorem accepted_iff {mgr : Manager} {mins : Dict (Str × Str) Int} {f : H5File}
    (hdig : env.isdigit s%"1" = true) (hw : WellNamedFile f)
    (hnd : ∀ d, Dict.get? mgr.classes s%"NXentry" = some d → (Dict.keys d.groups).Nodup) :
    Accepted env mgr mins f ↔ (validateOpen env mgr mins f).res = .ok () ∧
      ∀ x ∈ findings (validateOpen env mgr mins f).log, x.status ≠ .error := by
  constructor
  · intro h
    have h' := (validation_completes_iff (mins := mins) hw).2 h.valid
    exact ⟨h', (no_error_iff hdig hw hnd h').2 h.clean⟩
  · rintro ⟨h, hno⟩
    exact ⟨(validation_completes_iff hw).1 h, (no_error_iff hdig hw hnd h).1 hno⟩

/-- **C133, C129.** If `punx validate` passes a file, it passes the file with additional content, with
the same options and definitions. -/
theorem command_extras (hs : allFileSets w.source w.user = .ok sets)
    (hw : ∀ kv ∈ sets, WellDescribed kv.2) (hd : SoundSet w sets a) (ha : PlainAscii a.report)
    (hdig : env.isdigit s%"1" = true) {f : H5File} {X : Node → Bool}
    (hf : files a.infile = .hdf5 (trim X f)) (hf' : files' a.infile = .hdf5 f) (hn : WellNamedFile f)
    (hx : ∀ mgr, CommandReaches lib pattern w files sets a mgr (trim X f) →
      OnlyExtras env mgr X f ∧ ∀ c d, Dict.get? mgr.classes c = some d → ¬ s%"/" <:+ c)
    (h : Passes (funcValidate (commandWorld lib pattern w env files upper abspath) a)) :
    Passes (funcValidate (commandWorld lib pattern w env files' upper abspath) a) := by
  have hn0 : ∀ file, files a.infile = .hdf5 file → WellNamedFile file := by
    intro file e
    rw [hf] at e
    cases e
    exact wellNamedFile_trim hn
  have hn1 : ∀ file, files' a.infile = .hdf5 file → WellNamedFile file := by
    intro file e
    rw [hf'] at e
    cases e
    exact hn
  rw [command_passes_iff hs hw hd ha hdig hn0] at h
  rw [command_passes_iff hs hw hd ha hdig hn1]
  obtain ⟨mgr, file, hR, hA⟩ := h
  obtain rfl := reaches_file hR hf
  have hnd : ∀ d, Dict.get? mgr.classes s%"NXentry" = some d → (Dict.keys d.groups).Nodup := by
    obtain ⟨ref, s, e1, e2, e3⟩ := hR.own
    exact fun d hk => own_groups_nodup (hd _ _ e1 e2).2 e3 hk
  obtain ⟨k1, k2⟩ := (accepted_iff hdig (wellNamedFile_trim hn) hnd).1 hA
  exact ⟨mgr, f, reaches_other hR hf', (accepted_iff hdig hn hnd).2
    (extras_accepted hdig hn hnd (hx mgr hR).2 (hx mgr hR).1 k1 k2)⟩

/-- The definitions that are used have groups with different names. -/
theorem reaches_nodup {mgr : Manager} {f : H5File} (hd : SoundSet w sets a)
    (hR : CommandReaches lib pattern w files sets a mgr f) :
    ∀ d, Dict.get? mgr.classes s%"NXentry" = some d → (Dict.keys d.groups).Nodup := by
  obtain ⟨ref, s, e1, e2, e3⟩ := hR.own
  exact fun d hk => own_groups_nodup (hd _ _ e1 e2).2 e3 hk

/-- **C133, C130.** If `punx validate` passes all parts of a file, it passes the file, with the same
options and definitions. -/
theorem command_parts (hs : allFileSets w.source w.user = .ok sets)
    (hw : ∀ kv ∈ sets, WellDescribed kv.2) (hd : SoundSet w sets a) (ha : PlainAscii a.report)
    (hdig : env.isdigit s%"1" = true) {f : H5File} {parts : List H5File}
    {disk : H5File → Str → FileState} (hdisk : ∀ g, disk g a.infile = .hdf5 g)
    (hn : WellNamedFile f) (hnp : ∀ g ∈ parts, WellNamedFile g) (hp : parts ≠ [])
    (hmade : MadeOf f parts) (hmarks : NoRootMarks env f) (hdef : DefaultIsText env f)
    (h : ∀ g ∈ parts, Passes (funcValidate (commandWorld lib pattern w env (disk g) upper abspath) a)) :
    Passes (funcValidate (commandWorld lib pattern w env (disk f) upper abspath) a) := by
  have hn1 : ∀ {g}, WellNamedFile g → ∀ file, disk g a.infile = .hdf5 file → WellNamedFile file := by
    intro g hg file e
    rw [hdisk] at e
    cases e
    exact hg
  rw [command_passes_iff hs hw hd ha hdig (hn1 hn)]
  have hA : ∀ g ∈ parts, ∃ mgr, CommandReaches lib pattern w (disk g) sets a mgr g ∧
      Accepted env mgr [] g := by
    intro g hg
    obtain ⟨mgr, file, hR, hA⟩ := (command_passes_iff hs hw hd ha hdig (hn1 (hnp g hg))).1 (h g hg)
    obtain rfl := reaches_file hR (hdisk g)
    exact ⟨mgr, hR, hA⟩
  obtain ⟨g0, hg0⟩ := List.exists_mem_of_ne_nil _ hp
  obtain ⟨mgr, hR, _⟩ := hA g0 hg0
  have hnd := reaches_nodup hd hR
  refine ⟨mgr, f, reaches_other hR (hdisk f), (accepted_iff hdig hn hnd).2
    (parts_accepted hdig hn hnp hnd hmade hmarks hdef fun g hg => ?_)⟩
  obtain ⟨mgr', hR', hA'⟩ := hA g hg
  obtain ⟨rfl, _⟩ := reaches_unique (reaches_other hR (hdisk g)) hR' hs hw hd
  exact (accepted_iff hdig (hnp g hg) hnd).1 hA'

/-- **C133, C127.** If `punx validate` passes a file with some definitions, it passes the file with
definitions that allow what these allow (another set of the same or of other directories). -/
theorem command_wider {w' : Disks} {sets' : Dict Str FileSet}
    (hs : allFileSets w.source w.user = .ok sets) (hs' : allFileSets w'.source w'.user = .ok sets')
    (hw : ∀ kv ∈ sets, WellDescribed kv.2) (hw' : ∀ kv ∈ sets', WellDescribed kv.2)
    (hd : SoundSet w sets a) (hd' : SoundSet w' sets' a')
    (ha : PlainAscii a.report) (ha' : PlainAscii a'.report)
    (hdig : env.isdigit s%"1" = true) {f : H5File} (hn : WellNamedFile f)
    (hf : files a.infile = .hdf5 f) {m' : Manager}
    (hR' : CommandReaches lib pattern w' files' sets' a' m' f)
    (hwide : ∀ m, CommandReaches lib pattern w files sets a m f → WiderSet env m m')
    (h : Passes (funcValidate (commandWorld lib pattern w env files upper abspath) a)) :
    Passes (funcValidate (commandWorld lib pattern w' env files' upper abspath) a') := by
  have hn0 : ∀ file, files a.infile = .hdf5 file → WellNamedFile file := by
    intro file e
    rw [hf] at e
    cases e
    exact hn
  have hn1 : ∀ file, files' a'.infile = .hdf5 file → WellNamedFile file := by
    intro file e
    rw [hR'.hdf5] at e
    cases e
    exact hn
  rw [command_passes_iff hs hw hd ha hdig hn0] at h
  rw [command_passes_iff hs' hw' hd' ha' hdig hn1]
  obtain ⟨m, file, hR, hA⟩ := h
  obtain rfl := reaches_file hR hf
  have := hwide m hR
  exact ⟨m', file, hR', hA.validatable this, hA.noFault this⟩

/-- C133, C126: if two files hold the same texts, stored in different ways (the attributes `signal` of
fields aside), `punx validate` prints the same lines about both, and passes both or none. -/
theorem command_stored_partial (hs : allFileSets w.source w.user = .ok sets)
    (hw : ∀ kv ∈ sets, WellDescribed kv.2) (hd : SoundSet w sets a) (ha : PlainAscii a.report)
    (hdig : env.isdigit s%"1" = true) {f f' : H5File} (hn : WellNamedFile f)
    (hf : files a.infile = .hdf5 f) (hf' : files' a.infile = .hdf5 f') (hal : StoredAlike env f f') :
    (∀ l, (∃ fname rows sm sc, Act.report fname rows sm sc ∈
        (funcValidate (commandWorld lib pattern w env files upper abspath) a).log ∧
        l ∈ rows.map lineOf) ↔
      (∃ fname rows sm sc, Act.report fname rows sm sc ∈
        (funcValidate (commandWorld lib pattern w env files' upper abspath) a).log ∧
        l ∈ rows.map lineOf)) ∧
    (Passes (funcValidate (commandWorld lib pattern w env files upper abspath) a) ↔
      Passes (funcValidate (commandWorld lib pattern w env files' upper abspath) a)) := by
  have hn' := wellNamedFile_alike hal hn
  have h0 : ∀ file, files a.infile = .hdf5 file → WellNamedFile file := by
    intro file e
    rw [hf] at e
    cases e
    exact hn
  have h1 : ∀ file, files' a.infile = .hdf5 file → WellNamedFile file := by
    intro file e
    rw [hf'] at e
    cases e
    exact hn'
  have hexp : ∀ mgr l, Validatable env mgr f → (Expected env mgr [] f (contents env f) l ↔
      Expected env mgr [] f' (contents env f') l) := fun mgr l _ =>
    ⟨expected_alike (StoredPair.of hal), expected_alike (StoredPair.of hal).symm⟩
  constructor
  · intro l
    have k0 := fun fname => command_prints_iff (lib := lib) (pattern := pattern) (upper := upper)
      (abspath := abspath) hs hw hd ha hdig h0 fname l
    have k1 := fun fname => command_prints_iff (lib := lib) (pattern := pattern) (upper := upper)
      (abspath := abspath) hs hw hd ha hdig h1 fname l
    rw [exists_congr k0, exists_congr k1]
    constructor
    · rintro ⟨fname, e, mgr, file, hR, hv, hq, hl⟩
      obtain rfl := reaches_file hR hf
      exact ⟨fname, e, mgr, f', reaches_other hR hf', validatable_alike hal hv, hq,
        (hexp mgr l hv).1 hl⟩
    · rintro ⟨fname, e, mgr, file, hR, hv, hq, hl⟩
      obtain rfl := reaches_file hR hf'
      have hv' := validatable_alike (storedAlike_symm hal) hv
      exact ⟨fname, e, mgr, f, reaches_other hR hf, hv', hq, (hexp mgr l hv').2 hl⟩
  · have hacc : ∀ mgr, Accepted env mgr [] f ↔ Accepted env mgr [] f' := by
      intro mgr
      constructor
      · rintro ⟨hv, hc⟩
        exact ⟨validatable_alike hal hv, fun ad t hF => hc ad t
          (expected_error_iff.1 ((hexp mgr _ hv).2 (expected_error_iff.2 hF)))⟩
      · rintro ⟨hv, hc⟩
        have hv' := validatable_alike (storedAlike_symm hal) hv
        exact ⟨hv', fun ad t hF => hc ad t
          (expected_error_iff.1 ((hexp mgr _ hv').1 (expected_error_iff.2 hF)))⟩
    rw [command_passes_iff hs hw hd ha hdig h0, command_passes_iff hs hw hd ha hdig h1]
    constructor
    · rintro ⟨mgr, file, hR, hA⟩
      obtain rfl := reaches_file hR hf
      exact ⟨mgr, f', reaches_other hR hf', (hacc mgr).1 hA⟩
    · rintro ⟨mgr, file, hR, hA⟩
      obtain rfl := reaches_file hR hf'
      exact ⟨mgr, f, reaches_other hR hf, (hacc mgr).2 hA⟩

end Punx

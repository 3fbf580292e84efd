import Verif.Spec.Command
import Verif.Props.Expected3
import Verif.Props.Completes5
import Verif.Props.Process7

/-!
# C101: what `punx validate` prints, from the files to the lines
-/

namespace Punx
open Spec

/-- The groups of a definition that was read have different names. -/
theorem own_groups_nodup {lib : Lib} {pattern : Str → Pat} {d : SetDir} {mgr : Manager}
    (hl : LawfulDocs d) (h : OwnDefinitions lib pattern d mgr) {k : Str} {cd : ClassDef}
    (hk : Dict.get? mgr.classes k = some cd) : (Dict.keys cd.groups).Nodup := by
  obtain ⟨⟨ds, ⟨_, _, s, h1, h2⟩, _⟩, _⟩ := h
  have key : ∀ {l acc r d1 d2}, readFiles (acceptedBy lib d) l acc d1 = .ok (r, d2) →
      Dict.get? acc k = none → Dict.get? r k = some cd → ∃ p ∈ l, ReadFrom (acceptedBy lib d) p cd := by
    intro l acc r d1 d2 hr ha hg
    rcases readFiles_get hr k with ⟨pre, p, post, cd', e, _, _, h4, h5⟩ | ⟨_, h4⟩
    · rw [hg] at h4
      injection h4 with h4
      subst h4
      exact ⟨p, by rw [e]; simp, h5⟩
    · rw [hg, ha] at h4
      cases h4
  cases s with
  | none =>
    unfold loadClasses at h2
    rw [if_pos rfl] at h2
    cases hf : nxdlFileList ⟨true, none, d.listing⟩ with
    | error e => rw [hf] at h2; cases h2
    | ok l =>
      rw [hf] at h2
      cases l with
      | nil =>
        have h2' : Except.ok (([] : Dict Str ClassDef), (none : Option Defaults)) =
          .ok (mgr.classes, some ds) := h2
        injection h2' with h2'
        injection h2' with _ h2'
        cases h2'
      | cons q l => cases h2
  | some s =>
    obtain ⟨l, d', h3, h4, _⟩ := loadClasses_ok (dir := ⟨true, some s, d.listing⟩) rfl h2
    obtain ⟨p, hp, hr⟩ := key h4 rfl hk
    obtain ⟨x, d1, d2, hx, _, hrd⟩ := hr
    obtain ⟨fs, hfs, hmem, _⟩ := ((nxdlFileList_ok h3).1 p.1 p.2).1 hp
    have := (definition_names_distinct (hl _ _ _ _ hfs hmem hx) hrd).1
    rw [List.append_assoc] at this
    exact (List.nodup_append.1 this).1

/-- The rows that are printed. -/
theorem command_rows {lib : Lib} {pattern : Str → Pat} {w : Disks} {env : Env}
    {files : Str → FileState} {upper : Char → Str} {abspath : Str → Str} {sets : Dict Str FileSet}
    (hs : allFileSets w.source w.user = .ok sets) (hw : ∀ kv ∈ sets, WellDescribed kv.2)
    {a : ValidateArgs} (hd : ∀ ref f, a.fileSet = some ref → Dict.get? sets ref = some f →
      HasDefinitions (w.dir f.path))
    (ha : PlainAscii a.report) (fname : Str) (x : Finding) :
    (∃ rows sm sc, Act.report fname rows sm sc ∈
        (funcValidate (commandWorld lib pattern w env files upper abspath) a).log ∧ x ∈ rows) ↔
      fname = a.infile ∧ ∃ mgr file, CommandReaches lib pattern w files sets a mgr file ∧
        (validateOpen env mgr [] file).res = .ok () ∧
        x ∈ findings (validateOpen env mgr [] file).log ∧ Asked a.report x.status := by
  have hreq : ∀ {ref mgr}, Requested (commandWorld lib pattern w env files upper abspath) a ref →
      (commandWorld lib pattern w env files upper abspath).load ref = .ok mgr →
      ¬ s%".nxdl.xml" <:+ a.infile ∧ ∃ f, a.fileSet = some ref ∧ Dict.get? sets ref = some f ∧
        OwnDefinitions lib pattern (w.dir f.path) mgr := by
    rintro ref mgr ⟨r1, r2, sets', r3, s, r4⟩ hm
    rw [show (commandWorld lib pattern w env files upper abspath).sets =
      allFileSets w.source w.user from rfl, hs] at r3
    injection r3 with r3
    subst r3
    obtain ⟨f, hf⟩ : ∃ f, Dict.get? sets ref = some f := by
      have : ref ∈ Dict.keys sets := List.mem_map.2 ⟨_, r4, rfl⟩
      rw [← Dict.has_iff] at this
      cases hf : Dict.get? sets ref with
      | none => simp [Dict.has, hf] at this
      | some f => exact ⟨f, rfl⟩
    exact ⟨r1, f, r2, hf, (command_manager hs hw hf (hd _ _ r2 hf)).1 hm⟩
  have hback : ∀ {mgr file}, CommandReaches lib pattern w files sets a mgr file → ∃ ref,
      Requested (commandWorld lib pattern w env files upper abspath) a ref ∧
      (commandWorld lib pattern w env files upper abspath).load ref = .ok mgr := by
    rintro mgr file ⟨_, r1, ⟨ref, f, r2, hf, h3⟩, _⟩
    exact ⟨ref, ⟨r1, r2, sets, hs, f, Dict.mem_of_get? hf⟩,
      (command_manager hs hw hf (hd _ _ r2 hf)).2 h3⟩
  have huniq : ∀ {r r'}, Requested (commandWorld lib pattern w env files upper abspath) a r →
      Requested (commandWorld lib pattern w env files upper abspath) a r' → r = r' := by
    intro r r' h h'
    have := h.2.1.symm.trans h'.2.1
    simpa using this
  have hknown := report_option_refused (other := upper) ha
  rcases funcValidate_cases (commandWorld lib pattern w env files upper abspath) a with
    ⟨h, hl, _⟩ | ⟨r, hr, hno, hl, _⟩ | ⟨r, mgr, hr, hm, hk, hl, _⟩
  · rw [hl]
    constructor
    · rintro ⟨_, _, _, h, _⟩; simp at h
    · rintro ⟨_, mgr, file, hR, _⟩
      obtain ⟨ref, h1, _⟩ := hback hR
      exact absurd h1 (h ref)
  · rw [hl]
    constructor
    · rintro ⟨_, _, _, h, _⟩; simp at h
    · rintro ⟨_, mgr, file, hR, _⟩
      obtain ⟨ref, h1, h2⟩ := hback hR
      rw [huniq h1 hr] at h2
      exact absurd (hknown.2 hR.options) (hno mgr h2)
  · rw [hl]
    have hR : ∀ {file}, files a.infile = .hdf5 file → CommandReaches lib pattern w files sets a mgr file := by
      intro file hfile
      obtain ⟨h1, f, h2⟩ := hreq hr hm
      exact ⟨hknown.1 hk, h1, ⟨r, f, h2⟩, hfile⟩
    have hsame : ∀ {mgr' file}, CommandReaches lib pattern w files sets a mgr' file → mgr' = mgr := by
      intro mgr' file hR'
      obtain ⟨ref, h1, h2⟩ := hback hR'
      rw [huniq h1 hr, hm] at h2
      injection h2 with h2
      exact h2.symm
    rcases validateAndReport_cases (commandWorld lib pattern w env files upper abspath) mgr a.infile
      (reportChoices upper a.report).1 with
      ⟨file, rows, sm, sc, h1, h2, h3, h4, _⟩ | ⟨hnone, h4, _⟩
    · have hrows : ∀ y, y ∈ rows ↔
          y ∈ findings (validateOpen env mgr [] file).log ∧ Asked a.report y.status := by
        intro y
        obtain ⟨h5, _, _⟩ := printReport_rows h3
        rw [(reportRows_perm h5).mem_iff, List.mem_filter]
        refine and_congr_right (fun _ => ?_)
        have hne := (report_option_names upper a.report).2 hk
        rw [← report_option_selection (other := upper) ha]
        simp [hne]
      constructor
      · rintro ⟨rows', sm', sc', hmem, hx⟩
        rw [show (commandWorld lib pattern w env files upper abspath).upper = upper from rfl, h4] at hmem
        simp only [List.mem_cons, List.not_mem_nil, or_false, reduceCtorEq, false_or,
          Act.report.injEq] at hmem
        obtain ⟨rfl, rfl, _, _⟩ := hmem
        exact ⟨rfl, mgr, file, hR h1, h2, (hrows x).1 hx⟩
      · rintro ⟨rfl, mgr', file', hR', h6, h7⟩
        have e := hsame hR'
        subst e
        have e : file' = file := by
          have := hR'.hdf5.symm.trans h1
          injection this
        subst e
        refine ⟨rows, sm, sc, ?_, (hrows x).2 h7⟩
        rw [show (commandWorld lib pattern w env files upper abspath).upper = upper from rfl, h4]
        simp
    · constructor
      · rintro ⟨rows', sm', sc', hmem, hx⟩
        rw [show (commandWorld lib pattern w env files upper abspath).upper = upper from rfl, h4] at hmem
        simp at hmem
      · rintro ⟨rfl, mgr', file', hR', h6, h7⟩
        have e := hsame hR'
        subst e
        exact absurd ⟨file', hR'.hdf5, h6⟩ hnone

/-- **C101.** `punx validate` prints a line about a file if and only if the command reaches the
validation of the file, the validation runs to its end, the line is one of the expected ones and its
status was asked for. -/
theorem command_prints_iff {lib : Lib} {pattern : Str → Pat} {w : Disks} {env : Env}
    {files : Str → FileState} {upper : Char → Str} {abspath : Str → Str} {sets : Dict Str FileSet}
    (hs : allFileSets w.source w.user = .ok sets) (hw : ∀ kv ∈ sets, WellDescribed kv.2)
    {a : ValidateArgs} (hd : ∀ ref f, a.fileSet = some ref → Dict.get? sets ref = some f →
      HasDefinitions (w.dir f.path) ∧ LawfulDocs (w.dir f.path))
    (ha : PlainAscii a.report) (hdig : env.isdigit s%"1" = true)
    (hn : ∀ file, files a.infile = .hdf5 file → WellNamedFile file) (fname : Str) (l : Line) :
    (∃ rows sm sc, Act.report fname rows sm sc ∈
        (funcValidate (commandWorld lib pattern w env files upper abspath) a).log ∧
        l ∈ rows.map lineOf) ↔
      fname = a.infile ∧ ∃ mgr file, CommandReaches lib pattern w files sets a mgr file ∧
        Validatable env mgr file ∧ Asked a.report l.2.2 ∧
        Expected env mgr [] file (contents env file) l := by
  have hrow := fun x => command_rows (lib := lib) (pattern := pattern) (env := env) (files := files)
    (upper := upper) (abspath := abspath) hs hw (fun r f h1 h2 => (hd r f h1 h2).1) ha fname x
  have hexp : ∀ {mgr file}, CommandReaches lib pattern w files sets a mgr file →
      (validateOpen env mgr [] file).res = .ok () →
      (l ∈ report (validateOpen env mgr [] file).log ↔
        Expected env mgr [] file (contents env file) l) := by
    intro mgr file hR h
    obtain ⟨ref, f, h1, h2, h3⟩ := hR.own
    exact report_iff hdig (hn _ hR.hdf5)
      (fun d hk => own_groups_nodup (hd _ _ h1 h2).2 h3 hk) h l
  constructor
  · rintro ⟨rows, sm, sc, hmem, hl⟩
    obtain ⟨x, hx, rfl⟩ := List.mem_map.1 hl
    obtain ⟨e, mgr, file, hR, h1, h2, h3⟩ := (hrow x).1 ⟨rows, sm, sc, hmem, hx⟩
    exact ⟨e, mgr, file, hR, (validation_completes_iff (hn _ hR.hdf5)).1 h1, h3, (hexp hR h1).1 (List.mem_map.2 ⟨x, h2, rfl⟩)⟩
  · rintro ⟨e, mgr, file, hR, h0, h2, h3⟩
    have h1 := (validation_completes_iff (mins := []) (hn _ hR.hdf5)).2 h0
    obtain ⟨x, hx, rfl⟩ := List.mem_map.1 ((hexp hR h1).2 h3)
    obtain ⟨rows, sm, sc, hmem, hx'⟩ := (hrow x).2 ⟨e, mgr, file, hR, h1, hx, h2⟩
    exact ⟨rows, sm, sc, hmem, List.mem_map.2 ⟨x, hx', rfl⟩⟩

/-- **C101.** An ERROR is printed exactly for the faults of the file. -/
theorem command_errors_iff {lib : Lib} {pattern : Str → Pat} {w : Disks} {env : Env}
    {files : Str → FileState} {upper : Char → Str} {abspath : Str → Str} {sets : Dict Str FileSet}
    (hs : allFileSets w.source w.user = .ok sets) (hw : ∀ kv ∈ sets, WellDescribed kv.2)
    {a : ValidateArgs} (hd : ∀ ref f, a.fileSet = some ref → Dict.get? sets ref = some f →
      HasDefinitions (w.dir f.path) ∧ LawfulDocs (w.dir f.path))
    (ha : PlainAscii a.report) (hdig : env.isdigit s%"1" = true)
    (hn : ∀ file, files a.infile = .hdf5 file → WellNamedFile file) (fname : Str)
    (ad : Option Str) (t : Str) :
    (∃ rows sm sc x, Act.report fname rows sm sc ∈
        (funcValidate (commandWorld lib pattern w env files upper abspath) a).log ∧
        x ∈ rows ∧ x.addr = ad ∧ x.test = t ∧ x.status = .error) ↔
      fname = a.infile ∧ Asked a.report .error ∧
      ∃ mgr file, CommandReaches lib pattern w files sets a mgr file ∧
        Validatable env mgr file ∧
        Fault env mgr [] file (contents env file) ad t := by
  have h := command_prints_iff (lib := lib) (pattern := pattern) (upper := upper)
    (abspath := abspath) hs hw hd ha hdig hn fname (ad, t, .error)
  constructor
  · rintro ⟨rows, sm, sc, x, hmem, hx, rfl, rfl, hst⟩
    obtain ⟨e, mgr, file, hR, h1, h2, h3⟩ := h.1 ⟨rows, sm, sc, hmem,
      List.mem_map.2 ⟨x, hx, by rw [lineOf, hst]⟩⟩
    exact ⟨e, h2, mgr, file, hR, h1, expected_error_iff.1 h3⟩
  · rintro ⟨e, h2, mgr, file, hR, h1, h3⟩
    obtain ⟨rows, sm, sc, hmem, hl⟩ := h.2 ⟨e, mgr, file, hR, h1, h2, expected_error_iff.2 h3⟩
    obtain ⟨x, hx, hlx⟩ := List.mem_map.1 hl
    injection hlx with e1 e2
    injection e2 with e2 e3
    exact ⟨rows, sm, sc, x, hmem, hx, e1, e2, e3⟩

end Punx

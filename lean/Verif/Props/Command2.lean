import Verif.Props.Command

/-!
# C102: how `punx validate` ends, and what its summary and score say
-/

namespace Punx
open Spec

/-- **C102.** `punx validate` ends normally if and only if it reaches the data file and the file can
be validated to the end. -/
theorem command_succeeds_iff {lib : Lib} {pattern : Str → Pat} {w : Disks} {env : Env}
    {files : Str → FileState} {upper : Char → Str} {abspath : Str → Str} {sets : Dict Str FileSet}
    (hs : allFileSets w.source w.user = .ok sets) (hw : ∀ kv ∈ sets, WellDescribed kv.2)
    {a : ValidateArgs} (hd : ∀ ref f, a.fileSet = some ref → Dict.get? sets ref = some f →
      HasDefinitions (w.dir f.path))
    (ha : PlainAscii a.report) (hn : ∀ file, files a.infile = .hdf5 file → WellNamedFile file) :
    (funcValidate (commandWorld lib pattern w env files upper abspath) a).res = .ok () ↔
      ∃ mgr file, CommandReaches lib pattern w files sets a mgr file ∧ Validatable env mgr file := by
  rw [command_validates_iff hs hw hd ha]
  constructor
  · rintro ⟨h1, h2, ref, f, mgr, file, h3, h4, h5, h6, h7⟩
    exact ⟨mgr, file, ⟨h1, h2, ⟨ref, f, h3, h4, h5⟩, h6⟩,
      (validation_completes_iff (hn _ h6)).1 h7⟩
  · rintro ⟨mgr, file, ⟨h1, h2, ⟨ref, f, h3, h4, h5⟩, h6⟩, h7⟩
    exact ⟨h1, h2, ref, f, mgr, file, h3, h4, h5, h6, (validation_completes_iff (hn _ h6)).2 h7⟩

/-- Where a printed report comes from. -/
theorem command_report {lib : Lib} {pattern : Str → Pat} {w : Disks} {env : Env}
    {files : Str → FileState} {upper : Char → Str} {abspath : Str → Str} {sets : Dict Str FileSet}
    (hs : allFileSets w.source w.user = .ok sets) (hw : ∀ kv ∈ sets, WellDescribed kv.2)
    {a : ValidateArgs} (hd : ∀ ref f, a.fileSet = some ref → Dict.get? sets ref = some f →
      HasDefinitions (w.dir f.path))
    (ha : PlainAscii a.report) {fname : Str} {rows : List Finding} {sm : Dict Status Nat} {sc : Score}
    (h : Act.report fname rows sm sc ∈
      (funcValidate (commandWorld lib pattern w env files upper abspath) a).log) :
    fname = a.infile ∧ ∃ mgr file, CommandReaches lib pattern w files sets a mgr file ∧
      (validateOpen env mgr [] file).res = .ok () ∧
      findingSummary [] (findings (validateOpen env mgr [] file).log) = .ok sm ∧
      sc = findingScore (findings (validateOpen env mgr [] file).log) := by
  rcases funcValidate_cases (commandWorld lib pattern w env files upper abspath) a with
    ⟨_, hl, _⟩ | ⟨r, _, _, hl, _⟩ | ⟨r, mgr, hr, hm, hk, hl, _⟩
  · rw [hl] at h; simp at h
  · rw [hl] at h; simp at h
  · rw [hl] at h
    rcases validateAndReport_cases (commandWorld lib pattern w env files upper abspath) mgr a.infile
      (reportChoices upper a.report).1 with
      ⟨file, rows', sm', sc', h1, h2, h3, h4, _⟩ | ⟨_, h4, _⟩
    · rw [show (commandWorld lib pattern w env files upper abspath).upper = upper from rfl, h4] at h
      simp only [List.mem_cons, List.not_mem_nil, or_false, reduceCtorEq, false_or,
        Act.report.injEq] at h
      obtain ⟨rfl, rfl, rfl, rfl⟩ := h
      obtain ⟨_, h5, h6⟩ := printReport_rows h3
      refine ⟨rfl, mgr, file, ⟨(report_option_refused (other := upper) ha).1 hk, hr.1, ?_, h1⟩, h2,
        h5, h6⟩
      obtain ⟨r1, r2, sets', r3, s, r4⟩ := hr
      rw [show (commandWorld lib pattern w env files upper abspath).sets =
        allFileSets w.source w.user from rfl, hs] at r3
      injection r3 with r3
      subst r3
      obtain ⟨f, hf⟩ : ∃ f, Dict.get? sets r = some f := by
        have : r ∈ Dict.keys sets := List.mem_map.2 ⟨_, r4, rfl⟩
        rw [← Dict.has_iff] at this
        cases hf : Dict.get? sets r with
        | none => simp [Dict.has, hf] at this
        | some f => exact ⟨f, rfl⟩
      exact ⟨r, f, r2, hf, (command_manager hs hw hf (hd _ _ r2 hf)).1 hm⟩
    · rw [show (commandWorld lib pattern w env files upper abspath).upper = upper from rfl, h4] at h
      simp at h

theorem count_pos_iff {s : Status} {fs : List Finding} :
    0 < Spec.count s fs ↔ ∃ x ∈ fs, x.status = s := by
  unfold Spec.count
  simp [List.length_pos_iff_exists_mem, List.mem_filter]

/-- **C102.** The summary that `punx validate` prints counts a status if and only if a line with this
status is expected, whether it was asked for or not. -/
theorem command_summary_iff {lib : Lib} {pattern : Str → Pat} {w : Disks} {env : Env}
    {files : Str → FileState} {upper : Char → Str} {abspath : Str → Str} {sets : Dict Str FileSet}
    (hs : allFileSets w.source w.user = .ok sets) (hw : ∀ kv ∈ sets, WellDescribed kv.2)
    {a : ValidateArgs} (hd : ∀ ref f, a.fileSet = some ref → Dict.get? sets ref = some f →
      HasDefinitions (w.dir f.path) ∧ LawfulDocs (w.dir f.path))
    (ha : PlainAscii a.report) (hdig : env.isdigit s%"1" = true)
    (hn : ∀ file, files a.infile = .hdf5 file → WellNamedFile file)
    {fname : Str} {rows : List Finding} {sm : Dict Status Nat} {sc : Score}
    (h : Act.report fname rows sm sc ∈
      (funcValidate (commandWorld lib pattern w env files upper abspath) a).log) :
    ∃ mgr file, CommandReaches lib pattern w files sets a mgr file ∧
      (∀ st, (∃ n, (st, n) ∈ sm ∧ 0 < n) ↔
        ∃ ad t, Expected env mgr [] file (contents env file) (ad, t, st)) ∧
      ((∃ n, (Status.error, n) ∈ sm ∧ 0 < n) ↔
        ∃ ad t, Fault env mgr [] file (contents env file) ad t) ∧
      ((sm.map (·.2)).sum ≤ 100000 → ((sc.avgNum : Rat) / sc.avgDen < 0 ↔
        ∃ ad t, Fault env mgr [] file (contents env file) ad t)) := by
  obtain ⟨_, mgr, file, hR, h1, h2, h3⟩ :=
    command_report hs hw (fun r f e1 e2 => (hd r f e1 e2).1) ha h
  have hexp : ∀ l, l ∈ report (validateOpen env mgr [] file).log ↔
      Expected env mgr [] file (contents env file) l := by
    obtain ⟨ref, f, e1, e2, e3⟩ := hR.own
    exact report_iff hdig (hn _ hR.hdf5)
      (fun d hk => own_groups_nodup (hd _ _ e1 e2).2 e3 hk) h1
  have hst : ∀ st, (∃ x ∈ findings (validateOpen env mgr [] file).log, x.status = st) ↔
      ∃ ad t, Expected env mgr [] file (contents env file) (ad, t, st) := by
    intro st
    constructor
    · rintro ⟨x, hx, rfl⟩
      exact ⟨x.addr, x.test, (hexp _).1 (List.mem_map.2 ⟨x, hx, rfl⟩)⟩
    · rintro ⟨ad, t, hl⟩
      obtain ⟨x, hx, e⟩ := List.mem_map.1 ((hexp _).2 hl)
      injection e with _ e
      injection e with _ e
      exact ⟨x, hx, e⟩
  have hsm : ∀ st, (∃ n, (st, n) ∈ sm ∧ 0 < n) ↔
      ∃ x ∈ findings (validateOpen env mgr [] file).log, x.status = st := by
    intro st
    rw [← count_pos_iff]
    have := (findingSummary_exact h2).2 st
    constructor
    · rintro ⟨n, hn, hpos⟩
      rw [← ((this n).1 hn).2]
      exact hpos
    · intro hpos
      exact ⟨_, (this _).2 ⟨by cases st <;> decide, rfl⟩, hpos⟩
  have hfault : (∃ ad t, Expected env mgr [] file (contents env file) (ad, t, .error)) ↔
      ∃ ad t, Fault env mgr [] file (contents env file) ad t := by
    simp only [expected_error_iff]
  refine ⟨mgr, file, hR, fun st => (hsm st).trans (hst st), (hsm _).trans ((hst _).trans hfault), ?_⟩
  intro hlen
  rw [← hfault, ← hst, h3]
  constructor
  · intro hneg
    by_contra hno
    exact no_error_score_nonneg (fun x hx he => hno ⟨x, hx, he⟩) hneg
  · intro he
    obtain ⟨sm', e1, e2⟩ := findingSummary_total (findings (validateOpen env mgr [] file).log)
    rw [h2] at e1
    injection e1 with e1
    subst e1
    exact error_score_negative_partial he (by rw [← e2.2]; exact hlen)

end Punx

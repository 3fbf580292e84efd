import Verif.Props.DefaultPlot
import Verif.Props.Addressed
import Verif.Props.AppDef

/-!
# C31, C32, C34: histories of validations, and the record of an item
-/

namespace Punx
open Spec

/-! ## C31: repeatable -/

/-- The run splits into checks that do not depend on stored values, and the verdict. -/
theorem validateOpen_split {env : Env} {f : H5File} (hc : (catalog env f).res = .ok ())
    (mgr : Manager) (mins : Dict (Str × Str) Int) :
    validateOpen env mgr mins f =
      W.bind (checks (mkCtx env mgr mins f)) (fun _ => defaultPlotVerify (mkCtx env mgr mins f)
        (applyMins mins (checks (mkCtx env mgr mins f)).log)) := by
  rw [validateOpen, hc]
  rfl

/-- The verdict step with two sets of stored values. -/
theorem plot_mins (env : Env) (mgr : Manager) (f : H5File) (m m' : Dict (Str × Str) Int)
    (a b : Dict (Str × Str) Int) :
    (defaultPlotVerify (mkCtx env mgr m f) a).res =
      (defaultPlotVerify (mkCtx env mgr m' f) b).res ∧
    (findings (defaultPlotVerify (mkCtx env mgr m f) a).log =
      findings (defaultPlotVerify (mkCtx env mgr m' f) b).log ∨
     ∃ A x y, findings (defaultPlotVerify (mkCtx env mgr m f) a).log = A ++ [x] ∧
      findings (defaultPlotVerify (mkCtx env mgr m' f) b).log = A ++ [y] ∧
      x = ⟨some s%"/", s%"NeXus default plot", x.status, s%"no default plot described"⟩ ∧
      y = ⟨some s%"/", s%"NeXus default plot", y.status, s%"no default plot described"⟩ ∧
      ((x.status = .error ∧ y.status = .note) ∨ (x.status = .note ∧ y.status = .error)) ∧
      (defaultPlotVerify (mkCtx env mgr m f) a).res = .ok ()) := by
  unfold defaultPlotVerify
  rw [findDefaultPlot_mins env mgr f m m', show addressAt (mkCtx env mgr m f) s%"/" =
    addressAt (mkCtx env mgr m' f) s%"/" from rfl]
  cases ho : addressAt (mkCtx env mgr m' f) s%"/" with
  | error e => exact ⟨rfl, .inl rfl⟩
  | ok obj =>
    have ha := root_address ho
    rw [W.lift_ok_bind, W.lift_ok_bind]
    cases hr : (findDefaultPlot (mkCtx env mgr m' f)).res with
    | error e =>
      rw [W.bind_of_error hr, W.bind_of_error hr]
      exact ⟨rfl, .inl rfl⟩
    | ok r =>
      rw [W.bind_of_ok hr, W.bind_of_ok hr]
      rcases r with _ | ⟨k, addr⟩
      · simp only []
        have hm : (mkCtx env mgr m f).mgr = mgr := rfl
        have hm' : (mkCtx env mgr m' f).mgr = mgr := rfl
        rw [hm, hm']
        cases hd : Dict.get? mgr.classes s%"NXentry" with
        | none =>
          have e : ∀ z, defaultPlotRequired mgr z = .error .keyError := by
            intro z; rw [defaultPlotRequired, hd]
          rw [e a, e b]
          exact ⟨rfl, .inl rfl⟩
        | some d =>
          cases hs : Dict.get? d.groups s%"data" with
          | none =>
            have e : ∀ z, defaultPlotRequired mgr z = .error .keyError := by
              intro z; rw [defaultPlotRequired, hd]; simp only [hs]
            rw [e a, e b]
            exact ⟨rfl, .inl rfl⟩
          | some spec =>
            have e : ∀ z, ∃ v, defaultPlotRequired mgr z = .ok v := by
              intro z; rw [defaultPlotRequired, hd]; simp only [hs]; exact ⟨_, rfl⟩
            obtain ⟨v, hv⟩ := e a
            obtain ⟨v', hv'⟩ := e b
            rw [hv, hv', W.lift_ok_bind, W.lift_ok_bind]
            refine ⟨rfl, ?_⟩
            rw [findings_append, findings_append, findings_record, findings_record, ha]
            cases v <;> cases v'
            · exact .inl rfl
            · exact .inr ⟨_, _, _, rfl, rfl, rfl, rfl, .inr ⟨rfl, rfl⟩, rfl⟩
            · exact .inr ⟨_, _, _, rfl, rfl, rfl, rfl, .inl ⟨rfl, rfl⟩, rfl⟩
            · exact .inl rfl
      · exact ⟨rfl, .inl rfl⟩

/-- C31, what holds without conditions: whatever was validated before (values `m`, `m'`), the
outcome is the same and the findings are the same, but for the status of the last one if no
default plot was found. -/
theorem repeatable_partial (env : Env) (mgr : Manager) (f : H5File) (m m' : Dict (Str × Str) Int) :
    (validateOpen env mgr m f).res = (validateOpen env mgr m' f).res ∧
    (findings (validateOpen env mgr m f).log = findings (validateOpen env mgr m' f).log ∨
     ∃ A x y, findings (validateOpen env mgr m f).log = A ++ [x] ∧
      findings (validateOpen env mgr m' f).log = A ++ [y] ∧
      x = ⟨some s%"/", s%"NeXus default plot", x.status, s%"no default plot described"⟩ ∧
      y = ⟨some s%"/", s%"NeXus default plot", y.status, s%"no default plot described"⟩ ∧
      ((x.status = .error ∧ y.status = .note) ∨ (x.status = .note ∧ y.status = .error)) ∧
      (validateOpen env mgr m f).res = .ok ()) := by
  cases hc : (catalog env f).res with
  | error e =>
    rw [validateOpen, validateOpen, hc]
    exact ⟨rfl, .inl rfl⟩
  | ok u =>
    rw [validateOpen_split hc, validateOpen_split hc, checks_mins env mgr f m m']
    cases hr : (checks (mkCtx env mgr m' f)).res with
    | error e =>
      simp only [← W.bind_def]
      rw [W.bind_of_error hr, W.bind_of_error hr]
      exact ⟨rfl, .inl rfl⟩
    | ok u' =>
      simp only [← W.bind_def]
      rw [W.bind_of_ok hr, W.bind_of_ok hr]
      obtain ⟨h1, h2⟩ := plot_mins env mgr f m m'
        (applyMins m (checks (mkCtx env mgr m' f)).log)
        (applyMins m' (checks (mkCtx env mgr m' f)).log)
      refine ⟨h1, ?_⟩
      rw [findings_append, findings_append]
      rcases h2 with h2 | ⟨A, x, y, e1, e2, e3⟩
      · left; rw [h2]
      · right
        exact ⟨findings (checks (mkCtx env mgr m' f)).log ++ A, x, y, by rw [e1, List.append_assoc],
          by rw [e2, List.append_assoc], e3⟩

/-- The definitions do not name a group of NXentry twice. -/
def EntryGroupsNodup (mgr : Manager) : Prop :=
  ∀ d, Dict.get? mgr.classes s%"NXentry" = some d → (Dict.keys d.groups).Nodup

theorem plotVerdict_unique {env : Env} {classes : Dict Str ClassDef}
    {m : Dict (Str × Str) Int} {f : H5File} {items groups : List Item} {st : Status} {c : Str}
    (h : PlotVerdict env classes m f items groups st c) :
    (st = .error ↔ ((¬ ∃ b, AttributePlot env f items b) ∧ (¬ ∃ b, SignalPlot env items b) ∧
      PlotRequired env classes m groups)) ∧
    (st = .note ↔ ((¬ ∃ b, AttributePlot env f items b) ∧ (¬ ∃ b, SignalPlot env items b) ∧
      ¬ PlotRequired env classes m groups)) := by
  cases h with
  | byAttribute a ha =>
    exact ⟨⟨(fun e => by cases e), fun e => absurd ⟨a, ha⟩ e.1⟩,
      ⟨(fun e => by cases e), fun e => absurd ⟨a, ha⟩ e.1⟩⟩
  | bySignal a hn ha =>
    exact ⟨⟨(fun e => by cases e), fun e => absurd ⟨a, ha⟩ e.2.1⟩,
      ⟨(fun e => by cases e), fun e => absurd ⟨a, ha⟩ e.2.1⟩⟩
  | required h1 h2 h3 =>
    exact ⟨⟨fun _ => ⟨h1, h2, h3⟩, fun _ => rfl⟩,
      ⟨(fun e => by cases e), fun e => absurd h3 e.2.2⟩⟩
  | optional h1 h2 h3 =>
    exact ⟨⟨(fun e => by cases e), fun e => absurd e.2.2 h3⟩,
      ⟨fun _ => ⟨h1, h2, h3⟩, fun _ => rfl⟩⟩

/-- C31, exactly: the findings of a completed validation with stored values `m` and with `m'`
are the same if and only if the file has a default plot or both require one or neither does. -/
theorem repeatable_iff {env : Env} {mgr : Manager} {f : H5File} {m m' : Dict (Str × Str) Int}
    (h : (validateOpen env mgr m f).res = .ok ()) (hnd : EntryGroupsNodup mgr) :
    findings (validateOpen env mgr m f).log = findings (validateOpen env mgr m' f).log ↔
      ((∃ b, AttributePlot env f (catalog env f).log b) ∨
       (∃ b, SignalPlot env (catalog env f).log b) ∨
       (PlotRequired env mgr.classes m (groupItems env f) ↔
        PlotRequired env mgr.classes m' (groupItems env f))) := by
  classical
  obtain ⟨hres, hcases⟩ := repeatable_partial env mgr f m m'
  have h' := hres.symm.trans h
  obtain ⟨A, S, x, e1, _, _, _, _, _, v⟩ := default_plot_verdict h hnd
  obtain ⟨A', S', y, e1', _, _, _, _, _, v'⟩ := default_plot_verdict h' hnd
  have u := plotVerdict_unique v
  have u' := plotVerdict_unique v'
  rcases hcases with hc | ⟨B, x', y', f1, f2, f3, f4, f5, _⟩
  · refine ⟨fun _ => ?_, fun _ => hc⟩
    have hxy : x = y := by
      rw [e1, e1'] at hc
      have := List.append_inj_right' hc rfl
      simpa using this
    subst hxy
    by_cases ha : ∃ b, AttributePlot env f (catalog env f).log b
    · exact .inl ha
    · by_cases hs : ∃ b, SignalPlot env (catalog env f).log b
      · exact .inr (.inl hs)
      · refine .inr (.inr ?_)
        constructor
        · intro hr
          exact (u'.1.1 (u.1.2 ⟨ha, hs, hr⟩)).2.2
        · intro hr
          exact (u.1.1 (u'.1.2 ⟨ha, hs, hr⟩)).2.2
  · have hx : x' = x := by
      rw [e1] at f1
      have := List.append_inj_right' f1 rfl
      simpa using this.symm
    have hy : y' = y := by
      rw [e1'] at f2
      have := List.append_inj_right' f2 rfl
      simpa using this.symm
    subst hx hy
    constructor
    · intro e
      rw [f1, f2] at e
      have := List.append_inj_right' e rfl
      simp only [List.cons.injEq, and_true] at this
      rw [this] at f5
      rcases f5 with ⟨a, b⟩ | ⟨a, b⟩ <;> (rw [a] at b; cases b)
    · rintro (ha | hs | hr)
      · rcases f5 with ⟨a, b⟩ | ⟨a, b⟩
        · exact absurd ha (u.1.1 a).1
        · exact absurd ha (u.2.1 a).1
      · rcases f5 with ⟨a, b⟩ | ⟨a, b⟩
        · exact absurd hs (u.1.1 a).2.1
        · exact absurd hs (u.2.1 a).2.1
      · rcases f5 with ⟨a, b⟩ | ⟨a, b⟩
        · exact absurd (hr.1 (u.1.1 a).2.2) (u'.2.1 b).2.2
        · exact absurd (hr.2 (u'.1.1 b).2.2) (u.2.1 a).2.2

/-- Where stored values come from. -/
theorem sets_validateOpen (env : Env) (mgr : Manager) (m : Dict (Str × Str) Int) (f : H5File) :
    Sets (fun c g n => HasClass env (groupItems env f) c ∧ ∃ d spec,
      Dict.get? mgr.classes c = some d ∧ (g, spec) ∈ d.groups ∧ groupMinOccurs env spec = .ok n)
      (validateOpen env mgr m f) := by
  cases hc : (catalog env f).res with
  | error e =>
    rw [validateOpen, hc]
    exact Sets.fail _
  | ok u =>
    rw [validateOpen_split hc]
    refine Sets.bind' ?_ (fun _ _ => Sets.mono (fun _ _ _ h => h.elim) (quiet_defaultPlot _ _))
    rw [checks]
    refine Sets.bind (Sets.mono (fun _ _ _ h => h.elim) (quiet_step1 _ _ _)) (fun _ _ =>
      Sets.bind ?_ (fun _ _ => Sets.mono (fun _ _ _ h => h.elim) (quiet_step3 _)))
    rw [step2]
    refine Sets.forEach (fun it hit => ?_)
    refine Sets.ite (fun hgr => ?_) (fun _ => Sets.pure _)
    refine Sets.mono ?_ (sets_validateGroup _ it)
    rintro c g n ⟨h1, h2, h3⟩
    obtain ⟨grp, hg⟩ := Item.isGroup_iff.1 hgr
    exact ⟨⟨it, List.mem_filter.2 ⟨hit, hgr⟩, grp, hg, h1,
      (catalogued_group hc (mem_addressed hit) hg).2 _ h2⟩, h3⟩

/-- A call of `validate` that opens a file. -/
def Opens (c : (Str → FileState) × Call) (f : H5File) : Prop :=
  ∃ n, c.2 = .validate n ∧ c.1 n = .hdf5 f

theorem applyMins_source {m : Dict (Str × Str) Int} {l : List Eff} {k : Str × Str} {n : Int}
    (h : Dict.get? (applyMins m l) k = some n) :
    Eff.setMin k.1 k.2 n ∈ l ∨ Dict.get? m k = some n := by
  induction l using List.reverseRecOn with
  | nil => exact .inr h
  | append_singleton l e ih =>
    rw [applyMins_append] at h
    cases e with
    | found o kk x =>
      rcases ih h with h | h
      · exact .inl (by simp [h])
      · exact .inr h
    | setMin c g n' =>
      have e : applyMins (applyMins m l) [.setMin c g n'] =
        Dict.set (applyMins m l) (c, g) n' := rfl
      rw [e, Dict.get?_set] at h
      by_cases hk : (c, g) = k
      · rw [if_pos hk] at h
        injection h with h
        subst hk
        exact .inl (by simp [h])
      · rw [if_neg hk] at h
        rcases ih h with h | h
        · exact .inl (by simp [h])
        · exact .inr h

/-- What a history has stored about the group `data` of NXentry is what the definition says, and
it was stored when a file with an NXentry group was validated. -/
theorem history_stored {env : Env} {mgr : Manager} {calls : List ((Str → FileState) × Call)}
    {c g : Str} {n : Int} (h : Dict.get? (history env mgr calls).minOccurs (c, g) = some n)
    {d : ClassDef} {spec : GroupSpec} (hd : Dict.get? mgr.classes c = some d)
    (hs : Dict.get? d.groups g = some spec) (hnd : (Dict.keys d.groups).Nodup) :
    MinOccursIs env spec n ∧ ∃ x ∈ calls, ∃ f, Opens x f ∧ HasClass env (groupItems env f) c := by
  induction calls using List.reverseRecOn with
  | nil => simp [history, VState.init, Dict.get?] at h
  | append_singleton calls x ih =>
    rw [history_append] at h
    have keep : Dict.get? (history env mgr calls).minOccurs (c, g) = some n →
        MinOccursIs env spec n ∧ ∃ y ∈ calls ++ [x], ∃ f, Opens y f ∧
          HasClass env (groupItems env f) c := by
      intro h
      obtain ⟨h1, y, hy, hf⟩ := ih h
      exact ⟨h1, y, by simp [hy], hf⟩
    obtain ⟨fs, cl⟩ := x
    cases cl with
    | close => exact keep h
    | validate name =>
      simp only [Call.run, validate] at h
      cases hf : fs name with
      | missing => rw [hf] at h; exact keep h
      | notHdf5 => rw [hf] at h; exact keep h
      | hdf5 f =>
        rw [hf] at h
        rcases applyMins_source h with h | h
        · obtain ⟨h1, d', spec', h2, h3, h4⟩ := sets_validateOpen env mgr _ f _ _ _ h
          rw [hd] at h2; cases h2
          rw [Dict.get?_of_mem hnd h3] at hs
          cases hs
          exact ⟨minOccursIs_iff.1 h4, (fs, .validate name), by simp, f, ⟨name, rfl, hf⟩, h1⟩
        · exact keep h

/-- If the file has an NXentry group, the requirement does not depend on stored values. -/
theorem required_of_entry {env : Env} {classes : Dict Str ClassDef} {m m' : Dict (Str × Str) Int}
    {groups : List Item} (h : HasClass env groups s%"NXentry") :
    PlotRequired env classes m groups ↔ PlotRequired env classes m' groups := by
  constructor
  · rintro ⟨d, spec, h1, h2, h3 | h3⟩
    · exact ⟨d, spec, h1, h2, .inl h3⟩
    · exact absurd h h3.1
  · rintro ⟨d, spec, h1, h2, h3 | h3⟩
    · exact ⟨d, spec, h1, h2, .inl h3⟩
    · exact absurd h h3.1

/-- Findings for a file, if it is validated after a history. -/
def findingsAfter (env : Env) (mgr : Manager) (calls : List ((Str → FileState) × Call))
    (f : H5File) : List Finding :=
  findings (validateOpen env mgr (history env mgr calls).minOccurs f).log

/-- The findings that a validator holds after validating a file are those. -/
theorem findingsAfter_validate (env : Env) (mgr : Manager)
    (calls : List ((Str → FileState) × Call)) (fs : Str → FileState) (n : Str) (f : H5File)
    (hf : fs n = .hdf5 f) :
    (history env mgr (calls ++ [(fs, .validate n)])).validations = findingsAfter env mgr calls f := by
  rw [history_append]
  simp only [Call.run, validate, hf]
  rfl

/-- C31 for files with an NXentry group: every history gives the findings of a new validator. -/
theorem repeatable_with_entry {env : Env} {mgr : Manager} (hnd : EntryGroupsNodup mgr)
    (calls : List ((Str → FileState) × Call)) {f : H5File}
    (hf : HasClass env (groupItems env f) s%"NXentry") :
    findingsAfter env mgr calls f = findingsAfter env mgr [] f := by
  rw [findingsAfter, findingsAfter]
  by_cases h : (validateOpen env mgr (history env mgr calls).minOccurs f).res = .ok ()
  · exact (repeatable_iff h hnd).2 (.inr (.inr (required_of_entry hf)))
  · rcases (repeatable_partial env mgr f (history env mgr calls).minOccurs
      (history env mgr []).minOccurs).2 with e | ⟨A, x, y, e1, e2, e3, e4, e5, e6⟩
    · exact e
    · exact absurd e6 h

/-- C31 for definitions that require a default plot in NXentry: every history gives the findings
of a new validator, for every file. -/
theorem repeatable_when_required {env : Env} {mgr : Manager} (hnd : EntryGroupsNodup mgr)
    (hreq : ∀ d spec n, Dict.get? mgr.classes s%"NXentry" = some d →
      Dict.get? d.groups s%"data" = some spec → MinOccursIs env spec n → 0 < n)
    (calls : List ((Str → FileState) × Call)) (f : H5File) :
    findingsAfter env mgr calls f = findingsAfter env mgr [] f := by
  by_cases hf : HasClass env (groupItems env f) s%"NXentry"
  · exact repeatable_with_entry hnd calls hf
  rw [findingsAfter, findingsAfter]
  by_cases h : (validateOpen env mgr (history env mgr calls).minOccurs f).res = .ok ()
  · refine (repeatable_iff h hnd).2 (.inr (.inr ?_))
    constructor
    · rintro ⟨d, spec, h1, h2, h3 | ⟨_, h3⟩⟩
      · exact absurd h3.1 hf
      · exact ⟨d, spec, h1, h2, .inr ⟨hf, fun n hn => by
          simp [history, VState.init, Dict.get?] at hn⟩⟩
    · rintro ⟨d, spec, h1, h2, h3 | ⟨_, h3⟩⟩
      · exact absurd h3.1 hf
      · refine ⟨d, spec, h1, h2, .inr ⟨hf, fun n hn => ?_⟩⟩
        exact hreq d spec n h1 h2 (history_stored hn h1 h2 (hnd d h1)).1
  · rcases (repeatable_partial env mgr f (history env mgr calls).minOccurs
      (history env mgr []).minOccurs).2 with e | ⟨A, x, y, e1, e2, e3, e4, e5, e6⟩
    · exact e
    · exact absurd e6 h

/-- After a completed validation of a file with an NXentry group, the value of the definition is
stored. -/
theorem stored_after {env : Env} {mgr : Manager} (calls : List ((Str → FileState) × Call))
    {fs : Str → FileState} {name : Str} {g : H5File} (hg : fs name = .hdf5 g)
    (h : (validateOpen env mgr (history env mgr calls).minOccurs g).res = .ok ())
    {c gn : Str} (he : HasClass env (groupItems env g) c) {d : ClassDef} {spec : GroupSpec}
    (hd : Dict.get? mgr.classes c = some d) (hs : Dict.get? d.groups gn = some spec)
    (hnd : (Dict.keys d.groups).Nodup) :
    ∃ n, MinOccursIs env spec n ∧
      Dict.get? (history env mgr (calls ++ [(fs, .validate name)])).minOccurs (c, gn) = some n := by
  have e : (history env mgr (calls ++ [(fs, .validate name)])).minOccurs =
      applyMins (history env mgr calls).minOccurs
        (validateOpen env mgr (history env mgr calls).minOccurs g).log := by
    rw [history_append]
    simp only [Call.run, validate, hg]
  rw [e]
  obtain ⟨m, hlog, hp, hm⟩ := (completed h).log
  have h1 := (stored_min (mins' := applyMins (history env mgr calls).minOccurs
      (validateOpen env mgr (history env mgr calls).minOccurs g).log) h hd hs hnd
    (X := (step1Items (catalog env g).log).flatMap
      (fun it => (nameAndAttribute (mkCtx env mgr (history env mgr calls).minOccurs g) [] it).log))
    (Y := (step3 (mkCtx env mgr (history env mgr calls).minOccurs g)).log ++
      (defaultPlotVerify (mkCtx env mgr (history env mgr calls).minOccurs g) m).log)
    (fun c g n => quiet_flatMap _ c g n)
    (fun c g n hn => (List.mem_append.1 hn).elim (quiet_step3 _ c g n)
      (quiet_defaultPlot _ _ c g n))
    (by rw [hlog, List.append_assoc])).1 he
  exact h1

/-- A completed run without default plot: the definitions have a group `data` in NXentry. -/
theorem entry_data_defined {env : Env} {mgr : Manager} {f : H5File} {m : Dict (Str × Str) Int}
    (h : (validateOpen env mgr m f).res = .ok ())
    (ha : ¬ ∃ b, AttributePlot env f (catalog env f).log b)
    (hs : ¬ ∃ b, SignalPlot env (catalog env f).log b) :
    ∃ d spec, Dict.get? mgr.classes s%"NXentry" = some d ∧
      Dict.get? d.groups s%"data" = some spec := by
  have c := completed h
  obtain ⟨m', hlog, hp, hm⟩ := c.log
  obtain ⟨S, x, _, _, _, _, _, e6⟩ := plot_step c.catalog hp
  rcases e6 with ⟨a, h1, _⟩ | ⟨_, a, h1, _⟩ | ⟨_, _, b, h3, _⟩
  · exact absurd ⟨a, h1⟩ ha
  · exact absurd ⟨a, h1⟩ hs
  · rw [defaultPlotRequired] at h3
    cases hd : Dict.get? mgr.classes s%"NXentry" with
    | none => rw [hd] at h3; cases h3
    | some d =>
      rw [hd] at h3
      cases hs : Dict.get? d.groups s%"data" with
      | none => simp only [hs] at h3; cases h3
      | some spec => exact ⟨d, spec, rfl, hs⟩

/-- C31 over histories, exactly: for a file whose validation completes, a history changes the
findings if and only if the file has no default plot and no NXentry group, and the history has
stored that no plot is required. -/
theorem repeatable_history_iff {env : Env} {mgr : Manager} (hnd : EntryGroupsNodup mgr)
    (calls : List ((Str → FileState) × Call)) {f : H5File}
    (h : (validateOpen env mgr [] f).res = .ok ()) :
    findingsAfter env mgr calls f = findingsAfter env mgr [] f ↔
      ((∃ b, AttributePlot env f (catalog env f).log b) ∨
       (∃ b, SignalPlot env (catalog env f).log b) ∨
       HasClass env (groupItems env f) s%"NXentry" ∨
       ∀ n, Dict.get? (history env mgr calls).minOccurs (s%"NXentry", s%"data") = some n →
        0 < n) := by
  rw [eq_comm]
  refine (repeatable_iff (m := []) h hnd).trans ?_
  constructor
  · rintro (ha | hs | hr)
    · exact .inl ha
    · exact .inr (.inl hs)
    · by_cases ha : ∃ b, AttributePlot env f (catalog env f).log b
      · exact .inl ha
      by_cases hs : ∃ b, SignalPlot env (catalog env f).log b
      · exact .inr (.inl hs)
      by_cases he : HasClass env (groupItems env f) s%"NXentry"
      · exact .inr (.inr (.inl he))
      refine .inr (.inr (.inr ?_))
      obtain ⟨d, spec, hd, hsp⟩ := entry_data_defined h ha hs
      obtain ⟨d', spec', _, _, h3 | ⟨_, h3⟩⟩ := hr.1 ⟨d, spec, hd, hsp, .inr ⟨he, fun n hn => by
        simp [Dict.get?] at hn⟩⟩
      · exact absurd h3.1 he
      · exact h3
  · rintro (ha | hs | he | hn)
    · exact .inl ha
    · exact .inr (.inl hs)
    · exact .inr (.inr (required_of_entry he))
    · by_cases he : HasClass env (groupItems env f) s%"NXentry"
      · exact .inr (.inr (required_of_entry he))
      refine .inr (.inr ⟨?_, ?_⟩)
      · rintro ⟨d, spec, h1, h2, h3 | _⟩
        · exact absurd h3.1 he
        · exact ⟨d, spec, h1, h2, .inr ⟨he, hn⟩⟩
      · rintro ⟨d, spec, h1, h2, h3 | _⟩
        · exact absurd h3.1 he
        · exact ⟨d, spec, h1, h2, .inr ⟨he, fun n hn => by simp [Dict.get?] at hn⟩⟩

/-- C31 is false in the code: after a completed validation of any file with an NXentry group
(definitions that do not require a default plot), a file without NXentry and without default
plot gets other findings than from a new validator. -/
theorem not_repeatable {env : Env} {mgr : Manager} (hnd : EntryGroupsNodup mgr)
    (calls : List ((Str → FileState) × Call)) {fs : Str → FileState} {name : Str} {g f : H5File}
    (hg : fs name = .hdf5 g)
    (h : (validateOpen env mgr (history env mgr calls).minOccurs g).res = .ok ())
    (he : HasClass env (groupItems env g) s%"NXentry") {d : ClassDef} {spec : GroupSpec} {n : Int}
    (hd : Dict.get? mgr.classes s%"NXentry" = some d) (hs : Dict.get? d.groups s%"data" = some spec)
    (hn : MinOccursIs env spec n) (hn0 : n ≤ 0)
    (hf : (validateOpen env mgr [] f).res = .ok ())
    (hfe : ¬ HasClass env (groupItems env f) s%"NXentry")
    (ha : ¬ ∃ b, AttributePlot env f (catalog env f).log b)
    (hsig : ¬ ∃ b, SignalPlot env (catalog env f).log b) :
    findingsAfter env mgr (calls ++ [(fs, .validate name)]) f ≠ findingsAfter env mgr [] f := by
  intro e
  rcases (repeatable_history_iff hnd _ hf).1 e with h1 | h1 | h1 | h1
  · exact ha h1
  · exact hsig h1
  · exact hfe h1
  · obtain ⟨n', hn', hst⟩ := stored_after calls hg h he hd hs (hnd d hd)
    have := h1 n' hst
    rw [← minOccursIs_iff] at hn hn'
    rw [hn] at hn'
    injection hn' with hn'
    omega

/-- The files of the example. -/
def twoFiles : Str → FileState := fun n =>
  if n = s%"a.h5" then .hdf5 nameFile
  else if n = s%"b.h5" then .hdf5 emptyFile
  else if n = s%"c.txt" then .notHdf5 else .missing

example : lastVerdict (history sampleEnv sampleMgr [(twoFiles, .validate s%"b.h5")]).effs =
    some (s%"NeXus default plot", .error, s%"no default plot described") := by rfl

example : lastVerdict (history sampleEnv sampleMgr
    [(twoFiles, .validate s%"a.h5"), (twoFiles, .validate s%"b.h5")]).effs =
    some (s%"NeXus default plot", .note, s%"no default plot described") := by rfl

example : (history sampleEnv sampleMgr
      [(twoFiles, .validate s%"a.h5"), (twoFiles, .validate s%"b.h5")]).validations ≠
    (history sampleEnv sampleMgr [(twoFiles, .validate s%"b.h5")]).validations := by
  decide +kernel

/-! ## C32: whose findings? -/

/-- The findings held after any history are those of the last file that could be opened; none
if no file could be opened. -/
theorem findings_of_last_opened (env : Env) (mgr : Manager)
    (calls : List ((Str → FileState) × Call)) :
    ((∀ c ∈ calls, ∀ f, ¬ Opens c f) ∧ (history env mgr calls).validations = []) ∨
    ∃ before fs n f after, calls = before ++ (fs, .validate n) :: after ∧ fs n = .hdf5 f ∧
      (∀ c ∈ after, ∀ f, ¬ Opens c f) ∧
      (history env mgr calls).validations = findingsAfter env mgr before f := by
  induction calls using List.reverseRecOn with
  | nil => exact .inl ⟨by simp, rfl⟩
  | append_singleton calls x ih =>
    rw [history_append]
    have keep : (∀ f, ¬ Opens x f) →
        (Call.run env mgr (history env mgr calls) x).validations =
          (history env mgr calls).validations →
        ((∀ c ∈ calls ++ [x], ∀ f, ¬ Opens c f) ∧
          (Call.run env mgr (history env mgr calls) x).validations = []) ∨
        ∃ before fs n f after, calls ++ [x] = before ++ (fs, .validate n) :: after ∧
          fs n = .hdf5 f ∧ (∀ c ∈ after, ∀ f, ¬ Opens c f) ∧
          (Call.run env mgr (history env mgr calls) x).validations =
            findingsAfter env mgr before f := by
      intro hx e
      rw [e]
      rcases ih with ⟨h1, h2⟩ | ⟨b, fs, n, f, a, h1, h2, h3, h4⟩
      · refine .inl ⟨?_, h2⟩
        intro c hc
        rcases List.mem_append.1 hc with hc | hc
        · exact h1 c hc
        · rw [List.mem_singleton.1 hc]; exact hx
      · refine .inr ⟨b, fs, n, f, a ++ [x], by rw [h1]; simp, h2, ?_, h4⟩
        intro c hc
        rcases List.mem_append.1 hc with hc | hc
        · exact h3 c hc
        · rw [List.mem_singleton.1 hc]; exact hx
    obtain ⟨fs, cl⟩ := x
    cases cl with
    | close => exact keep (by rintro f ⟨n, h, _⟩; cases h) rfl
    | validate name =>
      cases hf : fs name with
      | missing =>
        refine keep ?_ (by simp only [Call.run, validate, hf])
        rintro f ⟨n, h, h'⟩
        cases h; exact absurd (hf.symm.trans h') (by simp)
      | notHdf5 =>
        refine keep ?_ (by simp only [Call.run, validate, hf]; rfl)
        rintro f ⟨n, h, h'⟩
        cases h; exact absurd (hf.symm.trans h') (by simp)
      | hdf5 f =>
        refine .inr ⟨calls, fs, name, f, [], rfl, hf, by simp, ?_⟩
        rw [← history_append, findingsAfter_validate env mgr calls fs name f hf]

/-- A call of `validate` for a file that exists. -/
def Finds (c : (Str → FileState) × Call) (n : Str) : Prop :=
  c.2 = .validate n ∧ c.1 n ≠ .missing

/-- The name held after any history is that of the last existing file given to `validate`. -/
theorem fname_of_last_found (env : Env) (mgr : Manager)
    (calls : List ((Str → FileState) × Call)) :
    ((∀ c ∈ calls, ∀ n, ¬ Finds c n) ∧ (history env mgr calls).fname = none) ∨
    ∃ before c n after, calls = before ++ c :: after ∧ Finds c n ∧
      (∀ c ∈ after, ∀ n, ¬ Finds c n) ∧ (history env mgr calls).fname = some n := by
  induction calls using List.reverseRecOn with
  | nil => exact .inl ⟨by simp, rfl⟩
  | append_singleton calls x ih =>
    rw [history_append]
    have keep : (∀ n, ¬ Finds x n) →
        (Call.run env mgr (history env mgr calls) x).fname = (history env mgr calls).fname →
        ((∀ c ∈ calls ++ [x], ∀ n, ¬ Finds c n) ∧
          (Call.run env mgr (history env mgr calls) x).fname = none) ∨
        ∃ before c n after, calls ++ [x] = before ++ c :: after ∧ Finds c n ∧
          (∀ c ∈ after, ∀ n, ¬ Finds c n) ∧
          (Call.run env mgr (history env mgr calls) x).fname = some n := by
      intro hx e
      rw [e]
      rcases ih with ⟨h1, h2⟩ | ⟨b, c, n, a, h1, h2, h3, h4⟩
      · refine .inl ⟨?_, h2⟩
        intro c hc
        rcases List.mem_append.1 hc with hc | hc
        · exact h1 c hc
        · rw [List.mem_singleton.1 hc]; exact hx
      · refine .inr ⟨b, c, n, a ++ [x], by rw [h1]; simp, h2, ?_, h4⟩
        intro c hc
        rcases List.mem_append.1 hc with hc | hc
        · exact h3 c hc
        · rw [List.mem_singleton.1 hc]; exact hx
    obtain ⟨fs, cl⟩ := x
    cases cl with
    | close => exact keep (by rintro n ⟨h, _⟩; cases h) rfl
    | validate name =>
      cases hf : fs name with
      | missing =>
        refine keep ?_ (by simp only [Call.run, validate, hf])
        rintro n ⟨h, h'⟩
        cases h; exact h' hf
      | notHdf5 =>
        refine .inr ⟨calls, _, name, [], rfl, ⟨rfl, (fun e => by have := hf.symm.trans e; cases this)⟩, by simp, ?_⟩
        simp only [Call.run, validate, hf]
      | hdf5 f =>
        refine .inr ⟨calls, _, name, [], rfl, ⟨rfl, (fun e => by have := hf.symm.trans e; cases this)⟩, by simp, ?_⟩
        simp only [Call.run, validate, hf]

/-- C32 for histories whose last existing file can be opened: the findings are those of the file
that the validator names. -/
theorem findings_named_partial (env : Env) (mgr : Manager)
    (before after : List ((Str → FileState) × Call)) (fs : Str → FileState) (n : Str) (f : H5File)
    (hf : fs n = .hdf5 f) (hafter : ∀ c ∈ after, ∀ n, ¬ Finds c n) :
    (history env mgr (before ++ (fs, .validate n) :: after)).fname = some n ∧
    (history env mgr (before ++ (fs, .validate n) :: after)).validations =
      findingsAfter env mgr before f := by
  induction after using List.reverseRecOn with
  | nil =>
    refine ⟨?_, findingsAfter_validate env mgr before fs n f hf⟩
    rw [history_append]
    simp only [Call.run, validate, hf]
  | append_singleton after x ih =>
    have ih := ih (fun c hc => hafter c (by simp [hc]))
    have e : before ++ (fs, Call.validate n) :: (after ++ [x]) =
      (before ++ (fs, Call.validate n) :: after) ++ [x] := by simp
    rw [e, history_append]
    have hx := hafter x (by simp)
    obtain ⟨fs', cl⟩ := x
    cases cl with
    | close => exact ih
    | validate name =>
      have : fs' name = .missing := by
        by_contra hne
        exact hx name ⟨rfl, hne⟩
      simp only [Call.run, validate, this]
      exact ih

/-- C32 is false in the code: after a file that exists but cannot be opened, the validator names
that file and holds the findings of the file before. -/
theorem findings_misnamed (env : Env) (mgr : Manager) (before : List ((Str → FileState) × Call))
    {fs fs' : Str → FileState} {n n' : Str} {f : H5File} (hf : fs n = .hdf5 f)
    (hf' : fs' n' = .notHdf5) :
    (history env mgr (before ++ [(fs, .validate n), (fs', .validate n')])).fname = some n' ∧
    (history env mgr (before ++ [(fs, .validate n), (fs', .validate n')])).validations =
      findingsAfter env mgr before f := by
  have e : before ++ [(fs, Call.validate n), (fs', Call.validate n')] =
    (before ++ [(fs, Call.validate n)]) ++ [(fs', Call.validate n')] := by simp
  rw [e, history_append]
  have h := findingsAfter_validate env mgr before fs n f hf
  simp only [Call.run, validate, hf']
  exact ⟨trivial, h⟩

example : (history sampleEnv sampleMgr
      [(twoFiles, .validate s%"a.h5"), (twoFiles, .validate s%"c.txt")]).fname = some s%"c.txt" ∧
    (history sampleEnv sampleMgr
      [(twoFiles, .validate s%"a.h5"), (twoFiles, .validate s%"c.txt")]).validations ≠ [] := by
  decide +kernel

/-! ## C34: the record of an item -/

/-- The findings recorded for an item with a test name, in order. -/
def recordedFor (oid : List Nat) (k : Str) (effs : List Eff) : List Finding :=
  effs.filterMap (fun
    | .found o k' f => if o = oid ∧ k' = k then some f else none
    | .setMin .. => none)

/-- C34, exactly: `item.validations` holds for each test name the last finding recorded for the
item, and nothing else. -/
theorem itemRecord_last (oid : List Nat) (k : Str) (effs : List Eff) :
    Dict.get? (itemRecord oid effs) k = (recordedFor oid k effs).getLast? := by
  induction effs using List.reverseRecOn with
  | nil => simp [itemRecord, recordedFor, Dict.get?]
  | append_singleton l e ih =>
    rw [itemRecord, List.foldl_append, ← itemRecord, recordedFor, List.filterMap_append,
      ← recordedFor]
    cases e with
    | setMin c g n => simpa using ih
    | found o k' x =>
      by_cases ho : o = oid
      · subst ho
        by_cases hk : k' = k
        · subst hk
          simp [Dict.get?_set]
        · simp [Dict.get?_set, hk, ih]
      · simpa [ho] using ih

/-- C34 for items that get each test once: all findings are kept. -/
theorem itemRecord_keeps_partial {oid : List Nat} {k : Str} {effs : List Eff} {x : Finding}
    (h : recordedFor oid k effs = [x]) : Dict.get? (itemRecord oid effs) k = some x := by
  rw [itemRecord_last, h]; rfl

/-- C34: a finding is kept exactly if no later finding of the item has its test name. -/
theorem itemRecord_kept_iff {oid : List Nat} {k : Str} {before after : List Eff} {x : Finding} :
    Dict.get? (itemRecord oid (before ++ .found oid k x :: after)) k = some x ↔
      (recordedFor oid k after).getLast?.getD x = x := by
  rw [itemRecord_last, recordedFor, List.filterMap_append, List.filterMap_cons]
  simp only [and_self, if_true]
  rw [← recordedFor, ← recordedFor, List.getLast?_append, List.getLast?_cons]
  simp

/-- C34 is false in the code: the root of an ordinary file has two findings of the test
"NeXus base class"; the first is lost. -/
theorem itemRecord_loses :
    (recordedFor [] s%"NeXus base class" (validateOpen sampleEnv sampleMgr [] nameFile).log).map
        (·.status) = [.ok, .todo] ∧
    (Dict.get? (itemRecord [] (validateOpen sampleEnv sampleMgr [] nameFile).log)
        s%"NeXus base class").map (·.status) = some .todo := by
  decide +kernel

end Punx

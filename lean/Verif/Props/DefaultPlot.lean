import Verif.Props.DefaultPlotV3
import Verif.Lemmas.Mins

/-!
# C27-C30: the default plot
-/

namespace Punx
open Spec

/-- The groups that step 2 validates. -/
def groupItems (env : Env) (f : H5File) : List Item := (addressed env f).filter Item.isGroup

theorem minOccursIs_iff {env : Env} {spec : GroupSpec} {n : Int} :
    groupMinOccurs env spec = .ok n ↔ MinOccursIs env spec n := by
  rw [groupMinOccurs, MinOccursIs]
  cases h : Dict.get? spec.attrs s%"minOccurs" with
  | none => simp [eq_comm]
  | some v =>
    cases v with
    | raw s =>
      simp only []
      cases hi : env.int s with
      | none => simp [hi]
      | some m => simp [hi]
    | spec a => simp

theorem checkedClass_of {env : Env} {f : H5File} (h : (catalog env f).res = .ok ()) {it : Item}
    (hit : it ∈ (catalog env f).log) {g : Node} (hg : it.obj.asGroup = some g)
    {mgr : Manager} {mins : Dict (Str × Str) Int}
    (hok : (validateGroup (mkCtx env mgr mins f) it).res = .ok ()) (hn : it.classpath ≠ nonNeXus)
    {c : Str} (hc : GroupClass env it.classpath g.attrs c) : CheckedClass it c := by
  obtain ⟨ha, hcl⟩ := catalogued_group h hit hg
  obtain ⟨c', h1, _⟩ := validateGroup_lines (mkCtx_addrOk env mgr mins f) ha hg hn hok
  rw [groupClass_unique hc (hcl _ h1)]
  exact h1

/-- What is stored about the group `data` of NXentry by the first three steps. -/
theorem stored_min {env : Env} {mgr : Manager} {mins : Dict (Str × Str) Int} {f : H5File}
    (h : (validateOpen env mgr mins f).res = .ok ()) {c gn : Str} {d : ClassDef} {spec : GroupSpec}
    (hd : Dict.get? mgr.classes c = some d) (hs : Dict.get? d.groups gn = some spec)
    (hnd : (Dict.keys d.groups).Nodup) {mins' : Dict (Str × Str) Int} {X Y : List Eff}
    (hX : ∀ c g n, Eff.setMin c g n ∉ X) (hY : ∀ c g n, Eff.setMin c g n ∉ Y)
    (hm : mins' = applyMins mins (X ++ (step2 (mkCtx env mgr mins f)).log ++ Y)) :
    (HasClass env (groupItems env f) c →
      ∃ n, MinOccursIs env spec n ∧ Dict.get? mins' (c, gn) = some n) ∧
    (¬ HasClass env (groupItems env f) c → Dict.get? mins' (c, gn) = Dict.get? mins (c, gn)) := by
  have cc := completed h
  rw [applyMins_append, applyMins_append, applyMins_quiet mins X hX, applyMins_quiet _ Y hY] at hm
  have hok := W.forEach_ok_iff.1 cc.step2
  -- every store of that key
  have src : ∀ n, Eff.setMin c gn n ∈ (step2 (mkCtx env mgr mins f)).log →
      HasClass env (groupItems env f) c ∧ MinOccursIs env spec n := by
    intro n hn
    obtain ⟨it, hit, hn⟩ := W.mem_forEach_log hn
    split at hn
    · rename_i hgr
      obtain ⟨g, hg⟩ := Item.isGroup_iff.1 hgr
      obtain ⟨h1, h2, d', spec', h3, h4, h5⟩ := sets_validateGroup _ _ _ _ _ hn
      have h3' : Dict.get? mgr.classes c = some d' := h3
      rw [hd] at h3'; cases h3'
      rw [Dict.get?_of_mem hnd h4] at hs
      cases hs
      refine ⟨⟨it, List.mem_filter.2 ⟨hit, hgr⟩, g, hg, h1, ?_⟩, minOccursIs_iff.1 h5⟩
      exact (catalogued_group cc.catalog (mem_addressed hit) hg).2 _ h2
    · simp at hn
  have uniq : ∀ n n', MinOccursIs env spec n → MinOccursIs env spec n' → n = n' := by
    intro n n' h1 h2
    rw [← minOccursIs_iff] at h1 h2
    rw [h1] at h2
    injection h2
  constructor
  · rintro ⟨it, hit, g, hg, hn, hcl⟩
    have hit' := (List.mem_filter.1 hit)
    have hgr : (isHdf5Group it.obj || isHdf5File it.obj) = true := hit'.2
    have ho := hok it hit'.1
    rw [if_pos hgr] at ho
    have hch := checkedClass_of cc.catalog (mem_addressed hit'.1) hg ho hn hcl
    obtain ⟨n, h1, h2⟩ := validateGroup_sets ho hn hch hd (Dict.mem_of_get? hs)
    have h1' : Eff.setMin c gn n ∈ (step2 (mkCtx env mgr mins f)).log := by
      rw [step2, W.forEach_log hok, List.mem_flatMap]
      exact ⟨it, hit'.1, by rw [if_pos hgr]; exact h1⟩
    have hmo := minOccursIs_iff.1 h2
    refine ⟨n, hmo, ?_⟩
    rw [hm, applyMins_get (n := n) (fun n' hn' => uniq _ _ (src n' hn').2 hmo), if_pos h1']
  · intro hno
    rw [hm, applyMins_get (n := 0) (fun n' hn' => absurd (src n' hn').1 hno), if_neg]
    intro hn'
    exact hno (src _ hn').1

theorem quiet_flatMap {ctx : Ctx} (l : List Item) (c g : Str) (n : Int) :
    Eff.setMin c g n ∉ l.flatMap (fun it => (nameAndAttribute ctx [] it).log) := by
  intro h
  rw [List.mem_flatMap] at h
  obtain ⟨it, _, h⟩ := h
  have : Quiet (nameAndAttribute ctx [] it) := by
    unfold nameAndAttribute
    exact Sets.bind (quiet_itemName _ _ _) (fun _ _ => quiet_attribute _ _)
  exact this _ _ _ h

theorem root_address {env : Env} {mgr : Manager} {mins : Dict (Str × Str) Int} {f : H5File}
    {obj : Item} (h : addressAt (mkCtx env mgr mins f) s%"/" = .ok obj) : obj.addr = some s%"/" :=
  (itemAt_addr (itemAt_eq env mgr mins f _ ▸ addressAt_ok h)).1

/-- The findings of the last step: what is reported on the way, and one verdict. -/
theorem plot_step {env : Env} {mgr : Manager} {mins mins' : Dict (Str × Str) Int} {f : H5File}
    (hc : (catalog env f).res = .ok ())
    (h : (defaultPlotVerify (mkCtx env mgr mins f) mins').res = .ok ()) :
    ∃ S x, findings (defaultPlotVerify (mkCtx env mgr mins f) mins').log = S ++ [x] ∧
      S.map lineOf = searchLines env f (catalog env f).log ∧
      (∀ y ∈ S, y.test ≠ s%"NeXus default plot") ∧
      x.addr = some s%"/" ∧ x.test = s%"NeXus default plot" ∧
      ((∃ a, AttributePlot env f (catalog env f).log a ∧ x.status = .ok ∧
          x.comment = s%"found by v3: " ++ a) ∨
       (¬ (∃ b, AttributePlot env f (catalog env f).log b) ∧
          ∃ a, SignalPlot env (catalog env f).log a ∧ x.status = .ok ∧
          x.comment = s%"found by v2: " ++ a) ∨
       (¬ (∃ b, AttributePlot env f (catalog env f).log b) ∧
        ¬ (∃ b, SignalPlot env (catalog env f).log b) ∧
        ∃ b, defaultPlotRequired mgr mins' = .ok b ∧
          x.status = (if b then .error else .note) ∧
          x.comment = s%"no default plot described")) := by
  classical
  rw [defaultPlotVerify, W.bind_ok_iff] at h
  obtain ⟨obj, hobj, h⟩ := h
  rw [W.lift_res] at hobj
  rw [defaultPlotVerify, hobj, W.lift_ok_bind]
  have hroot := root_address hobj
  rw [W.bind_ok_iff] at h
  obtain ⟨r, hr, h⟩ := h
  rw [W.bind_log_of_ok hr, findings_append]
  -- no finding of the search has the name of the verdict
  have hno : ∀ y ∈ findings (findDefaultPlot (mkCtx env mgr mins f)).log,
      y.test ≠ s%"NeXus default plot" := by
    intro y hy e
    have hT : Emits (fun _ k _ => k ≠ s%"NeXus default plot")
        (findDefaultPlot (mkCtx env mgr mins f)) := by
      have v3 : ∀ a b c, Emits (fun _ k _ => k ≠ s%"NeXus default plot")
          (v3Loop (mkCtx env mgr mins f) a b c) := fun a b c =>
        Emits.mono (fun i k st hk => by rw [hk.2]; decide) (emits_v3Loop _ a b c)
      have vi : ∀ rev l, Emits (fun _ k _ => k ≠ s%"NeXus default plot")
          (v2Items (mkCtx env mgr mins f) rev l) := by
        intro rev l
        induction l generalizing rev with
        | nil => exact Emits.pure _
        | cons x l ih =>
          have := fun r => ih r
          unfold v2Items v2Item
          emits
          all_goals first | exact this _ | decide
      have vs : ∀ rev d, Emits (fun _ k _ => k ≠ s%"NeXus default plot")
          (v2Scan (mkCtx env mgr mins f) rev d) := by
        intro rev l
        induction l generalizing rev with
        | nil => exact Emits.pure _
        | cons x l ih =>
          have := fun r => ih r
          unfold v2Scan
          emits
          all_goals first | exact this _ | exact vi _ _
      have vp : ∀ a rev, Emits (fun _ k _ => k ≠ s%"NeXus default plot") (v2Pick a rev) := by
        intro a l
        induction l generalizing a with
        | nil => exact Emits.pure _
        | cons x l ih =>
          have := fun r => ih r
          unfold v2Pick
          emits
          all_goals first | exact this _ | decide
      unfold findDefaultPlot defaultPlotV3 defaultPlotV2
      emits
      all_goals first | exact v3 _ _ _ | exact vs _ _ | exact vp _ _ | decide
    obtain ⟨i, hi⟩ := emits_findings hT hy
    exact hi e
  refine ⟨findings (findDefaultPlot (mkCtx env mgr mins f)).log, ?_⟩
  have hr' := hr
  rw [findDefaultPlot, W.bind_ok_iff] at hr
  obtain ⟨r3, h3, hr⟩ := hr
  obtain ⟨x3, l3⟩ := v3_exact h3
  cases r3 with
  | some a =>
    simp only [W.pure_res, Except.ok.injEq] at hr
    have hap := (x3 a).1 rfl
    subst hr
    refine ⟨_, by rw [findings_record], ?_, hno, hroot, rfl, .inl ⟨a, hap, rfl, rfl⟩⟩
    have hl : lines (findDefaultPlot (mkCtx env mgr mins f)) =
        searchLines env f (catalog env f).log := by
      rw [findDefaultPlot, lines_bind h3, l3, searchLines, if_pos ⟨a, hap⟩]
      rfl
    exact hl
  | none =>
    have hap : ¬ ∃ b, AttributePlot env f (catalog env f).log b := by
      rintro ⟨b, hb⟩
      cases (x3 b).2 hb
    simp only [] at hr
    rw [W.bind_ok_iff] at hr
    obtain ⟨r2, h2, hr⟩ := hr
    obtain ⟨x2, l2⟩ := v2_exact hc h2
    have hl : lines (findDefaultPlot (mkCtx env mgr mins f)) =
        searchLines env f (catalog env f).log := by
      rw [findDefaultPlot, lines_bind h3, l3, searchLines, if_neg hap]
      simp only []
      rw [lines_bind h2, l2]
      cases r2 <;> simp [lines_pure]
    cases r2 with
    | some a =>
      simp only [W.pure_res, Except.ok.injEq] at hr
      have hsp := (x2 a).1 rfl
      subst hr
      exact ⟨_, by rw [findings_record], hl, hno, hroot, rfl, .inr (.inl ⟨hap, a, hsp, rfl, rfl⟩)⟩
    | none =>
      have hsp : ¬ ∃ b, SignalPlot env (catalog env f).log b := by
        rintro ⟨b, hb⟩
        cases (x2 b).2 hb
      simp only [W.pure_res, Except.ok.injEq] at hr
      subst hr
      simp only [] at h ⊢
      rw [W.bind_ok_iff] at h
      obtain ⟨b, hb, h⟩ := h
      rw [W.lift_res] at hb
      rw [hb, W.lift_ok_bind]
      exact ⟨_, by rw [findings_record], hl, hno, hroot, rfl,
        .inr (.inr ⟨hap, hsp, b, hb, rfl, rfl⟩)⟩

/-- C27, C29, C30: a completed validation ends with exactly one verdict on the default plot, at
the root.  It follows the attribute method if that finds something, else the signal=1 method;
otherwise it is ERROR or NOTE depending on the definitions.  Before the verdict the search is
reported line by line. -/
theorem default_plot_verdict {env : Env} {mgr : Manager} {mins : Dict (Str × Str) Int} {f : H5File}
    (h : (validateOpen env mgr mins f).res = .ok ())
    (hnd : ∀ d, Dict.get? mgr.classes s%"NXentry" = some d → (Dict.keys d.groups).Nodup) :
    ∃ A S x, findings (validateOpen env mgr mins f).log = A ++ S ++ [x] ∧
      (∀ y ∈ A, ¬ PlotTest y.test) ∧
      S.map lineOf = searchLines env f (catalog env f).log ∧
      (∀ y ∈ S, y.test ≠ s%"NeXus default plot") ∧
      x.addr = some s%"/" ∧ x.test = s%"NeXus default plot" ∧
      PlotVerdict env mgr.classes mins f (catalog env f).log (groupItems env f)
        x.status x.comment := by
  have c := completed h
  obtain ⟨m, hlog, hp, hm⟩ := c.log
  obtain ⟨S, x, e1, e2, e3, e4, e5, e6⟩ := plot_step c.catalog hp
  refine ⟨findings ((step1Items (catalog env f).log).flatMap
      (fun it => (nameAndAttribute (mkCtx env mgr mins f) [] it).log) ++
      (step2 (mkCtx env mgr mins f)).log ++ (step3 (mkCtx env mgr mins f)).log),
    S, x, ?_, ?_, e2, e3, e4, e5, ?_⟩
  · rw [hlog, findings_append, e1]
    exact (List.append_assoc _ _ _).symm
  · intro y hy hk
    rw [findings_append, findings_append, List.mem_append, List.mem_append] at hy
    rcases hy with (hy | hy) | hy
    · rw [findings_flatMap, List.mem_flatMap] at hy
      obtain ⟨it, _, hy⟩ := hy
      obtain ⟨i, _, hk' | hk'⟩ := emits_findings (emits_nameAndAttribute _ [] it) hy
      · exact hk.ne hk'
      · have h1 := hk'.is
        rw [hk.isNot] at h1
        cases h1
    · obtain ⟨i, hk'⟩ := emits_findings (emits_step2 _) hy
      exact hk.not_group hk'
    · obtain ⟨i, hk'⟩ := emits_findings (emits_step3 _) hy
      revert hk hk'
      generalize y.test = t
      intro hk hk'
      cases hk <;> cases hk'
  · rcases e6 with ⟨a, h1, h2, h3⟩ | ⟨h1, a, h2, h3, h4⟩ | ⟨h1, h2, b, h3, h4, h5⟩
    · rw [h2, h3]; exact .byAttribute a h1
    · rw [h3, h4]; exact .bySignal a h1 h2
    · rw [defaultPlotRequired] at h3
      cases hd : Dict.get? mgr.classes s%"NXentry" with
      | none => rw [hd] at h3; cases h3
      | some d =>
        cases hs : Dict.get? d.groups s%"data" with
        | none => rw [hd] at h3; simp only [hs] at h3; cases h3
        | some spec =>
          rw [hd] at h3
          simp only [hs, Except.ok.injEq] at h3
          have hst := stored_min h hd hs (hnd d hd) (fun c g n => quiet_flatMap _ c g n)
            (fun c g n hn => quiet_step3 _ c g n hn) hm
          have hreq : b = true ↔ PlotRequired env mgr.classes mins (groupItems env f) := by
            rw [← h3, decide_eq_true_eq]
            by_cases hh : HasClass env (groupItems env f) s%"NXentry"
            · obtain ⟨n, hn, hg⟩ := hst.1 hh
              rw [hg]
              constructor
              · intro hpos
                exact ⟨d, spec, hd, hs, .inl ⟨hh, n, hn, hpos⟩⟩
              · rintro ⟨d', spec', hd', hs', ⟨_, n', hn', hpos⟩ | ⟨hno, _⟩⟩
                · rw [hd] at hd'; cases hd'
                  rw [hs] at hs'; cases hs'
                  have e : n = n' := by
                    rw [← minOccursIs_iff] at hn hn'
                    rw [hn] at hn'; injection hn'
                  rw [e]; exact hpos
                · exact absurd hh hno
            · rw [hst.2 hh]
              constructor
              · intro hpos
                refine ⟨d, spec, hd, hs, .inr ⟨hh, ?_⟩⟩
                intro n hn
                rw [hn] at hpos
                exact hpos
              · rintro ⟨d', spec', hd', hs', ⟨hh', _⟩ | ⟨_, hall⟩⟩
                · exact absurd hh' hh
                · cases hg : Dict.get? mins (s%"NXentry", s%"data") with
                  | none => decide
                  | some n => exact hall n hg
          rw [h4, h5]
          by_cases hb : b = true
          · rw [if_pos hb]; exact .required h1 h2 (hreq.1 hb)
          · rw [if_neg hb]; exact .optional h1 h2 (fun e => hb (hreq.2 e))

/-- C27: exactly one verdict. -/
theorem default_plot_once {env : Env} {mgr : Manager} {mins : Dict (Str × Str) Int} {f : H5File}
    (h : (validateOpen env mgr mins f).res = .ok ()) :
    ∃ A x, findings (validateOpen env mgr mins f).log = A ++ [x] ∧
      x.test = s%"NeXus default plot" ∧ x.addr = some s%"/" ∧
      (x.status = .ok ∨ x.status = .error ∨ x.status = .note) ∧
      ∀ y ∈ A, y.test ≠ s%"NeXus default plot" := by
  have c := completed h
  obtain ⟨m, hlog, hp, hm⟩ := c.log
  obtain ⟨S, x, e1, e2, e3, e4, e5, e6⟩ := plot_step c.catalog hp
  refine ⟨findings ((step1Items (catalog env f).log).flatMap
      (fun it => (nameAndAttribute (mkCtx env mgr mins f) [] it).log) ++
      (step2 (mkCtx env mgr mins f)).log ++ (step3 (mkCtx env mgr mins f)).log) ++ S,
    x, by rw [hlog, findings_append, e1]; exact (List.append_assoc _ _ _).symm, e5, e4, ?_, ?_⟩
  · rcases e6 with ⟨_, _, h2, _⟩ | ⟨_, _, _, h3, _⟩ | ⟨_, _, b, _, h4, _⟩
    · exact .inl h2
    · exact .inl h3
    · rw [h4]; cases b
      · exact .inr (.inr rfl)
      · exact .inr (.inl rfl)
  · intro y hy
    rcases List.mem_append.1 hy with hy | hy
    · rw [findings_append, findings_append, List.mem_append, List.mem_append] at hy
      intro e
      rcases hy with (hy | hy) | hy
      · rw [findings_flatMap, List.mem_flatMap] at hy
        obtain ⟨it, _, hy⟩ := hy
        obtain ⟨i, _, hk' | hk'⟩ := emits_findings (emits_nameAndAttribute _ [] it) hy
        · rw [e] at hk'; exact absurd hk' (by decide)
        · have h1 := hk'.is
          rw [e] at h1
          exact absurd h1 (by decide)
      · obtain ⟨i, hk'⟩ := emits_findings (emits_step2 _) hy
        rw [e] at hk'
        exact PlotTest.plot.not_group hk'
      · obtain ⟨i, hk'⟩ := emits_findings (emits_step3 _) hy
        rw [e] at hk'
        cases hk'
    · exact e3 y hy

/-- C28: what the attribute method reports exists: it is either the dataset named by the
signal attribute of an NXdata group, or (if there is one complete path of default attributes)
that attribute; in both cases the dataset is in the catalogue. -/
theorem attribute_plot_exists {env : Env} {f : H5File} {items : List Item} {a : Str}
    (h : AttributePlot env f items a) :
    ∃ it ∈ items, it.classpath = s%"/NXentry/NXdata@signal" ∧
      ∃ D E R t T n ats v, InGroups items it D E R ∧ PointsAt env f D s%"signal" t ∧
        T ∈ items ∧ T.addr = some t ∧ T.obj = .node (.dataset n ats v) ∧
        ((niacPaths env f items).length ≠ 1 ∧ a = t ∨
         DefaultPath env f items it ∧ it.addr = some a) := by
  classical
  have hmem : ∀ it ∈ dataSignals items, it ∈ items ∧ it.classpath = s%"/NXentry/NXdata@signal" := by
    intro it hit
    have := List.mem_filter.1 hit
    exact ⟨this.1, by simpa using this.2⟩
  obtain ⟨_, ⟨it, h1, h2⟩ | ⟨h1, before, it, after, h2, h3, _⟩⟩ := h
  · have hin : it ∈ niacPaths env f items := by rw [h1]; simp
    rw [niacPaths, List.mem_filter] at hin
    obtain ⟨k1, k2⟩ := hmem it hin.1
    have hn : Niac env f items it := by simpa using hin.2
    obtain ⟨hdp, t, D, E, R, T, n, ats, v, p1, p2, p3, p4⟩ := hn
    obtain ⟨p5, p6⟩ := itemAt_addr p3
    exact ⟨it, k1, k2, D, E, R, t, T, n, ats, v, p1, p2, p6, p5, p4, .inr ⟨hdp, h2⟩⟩
  · obtain ⟨k1, k2⟩ := hmem it (by rw [h2]; simp)
    obtain ⟨D, E, R, T, n, ats, v, p1, p2, p3, p4⟩ := h3
    obtain ⟨p5, p6⟩ := itemAt_addr p3
    exact ⟨it, k1, k2, D, E, R, a, T, n, ats, v, p1, p2, p6, p5, p4, .inl ⟨h1, rfl⟩⟩

/-- C28 for a run: a verdict "found by v3: a" means that `a` is what the attribute method
specifies. -/
theorem found_by_v3 {env : Env} {mgr : Manager} {mins : Dict (Str × Str) Int} {f : H5File}
    (h : (validateOpen env mgr mins f).res = .ok ()) {x : Finding} {a : Str}
    (hx : x ∈ findings (validateOpen env mgr mins f).log) (ht : x.test = s%"NeXus default plot") :
    x.comment = s%"found by v3: " ++ a ↔ AttributePlot env f (catalog env f).log a := by
  have c := completed h
  obtain ⟨m, hlog, hp, hm⟩ := c.log
  obtain ⟨S, y, e1, e2, e3, e4, e5, e6⟩ := plot_step c.catalog hp
  obtain ⟨A, z, f1, f2, f3, f4, f5⟩ := default_plot_once h
  have hxz : x = z := by
    rw [f1, List.mem_append, List.mem_singleton] at hx
    rcases hx with hx | hx
    · exact absurd ht (f5 x hx)
    · exact hx
  have hyz : y = z := by
    have := f1
    rw [hlog, findings_append, e1, ← List.append_assoc] at this
    have := List.append_inj_right' this rfl
    simpa using this
  rw [hxz, ← hyz]
  rcases e6 with ⟨b, h1, h2, h3⟩ | ⟨h1, b, h2, h3, h4⟩ | ⟨h1, h2, b, h3, h4, h5⟩
  · rw [h3]
    constructor
    · intro e
      have := List.append_cancel_left e
      rw [← this]; exact h1
    · intro ha
      have hr3 : ∃ r, (defaultPlotV3 (mkCtx env mgr mins f)).res = .ok r := by
        rw [defaultPlotVerify, W.bind_ok_iff] at hp
        obtain ⟨obj, hobj, hp⟩ := hp
        rw [W.bind_ok_iff] at hp
        obtain ⟨r, hr, _⟩ := hp
        rw [findDefaultPlot, W.bind_ok_iff] at hr
        obtain ⟨r3, h3, _⟩ := hr
        exact ⟨r3, h3⟩
      obtain ⟨r, hr⟩ := hr3
      have hx := (v3_exact hr).1
      have := (hx a).2 ha
      rw [(hx b).2 h1] at this
      injection this with this
      rw [this]
  · rw [h4]
    constructor
    · intro e
      simp at e
    · intro ha; exact absurd ⟨a, ha⟩ h1
  · rw [h5]
    constructor
    · intro e
      simp at e
    · intro ha; exact absurd ⟨a, ha⟩ h1

/-- C29: the signal=1 method finds something exactly if some group has exactly one mark. -/
theorem signalPlot_iff {env : Env} {f : H5File} (hc : (catalog env f).res = .ok ()) :
    (∃ a, SignalPlot env (catalog env f).log a) ↔
      ∃ g, (marksIn env (catalog env f).log g).length = 1 := by
  classical
  constructor
  · rintro ⟨a, _, g, _, it, _, _, h, _⟩
    exact ⟨g, by rw [h]; rfl⟩
  · rintro ⟨g, hg⟩
    have hmem : g ∈ markedGroups env (catalog env f).log := by
      obtain ⟨it, hit⟩ := List.length_eq_one_iff.1 hg
      have : it ∈ marksIn env (catalog env f).log g := by rw [hit]; simp
      rw [marksIn, List.mem_filter] at this
      rw [markedGroups, List.mem_eraseDups, List.mem_map]
      exact ⟨it, this.1, by simpa using this.2⟩
    have last : ∀ l : List (Option Str), g ∈ l → ∃ before g' after, l = before ++ g' :: after ∧
        (marksIn env (catalog env f).log g').length = 1 ∧
        ∀ g'' ∈ after, (marksIn env (catalog env f).log g'').length ≠ 1 := by
      intro l
      induction l using List.reverseRecOn with
      | nil => intro h; simp at h
      | append_singleton l x ih =>
        intro hl
        by_cases hx : (marksIn env (catalog env f).log x).length = 1
        · exact ⟨l, x, [], rfl, hx, by simp⟩
        · rcases List.mem_append.1 hl with hl | hl
          · obtain ⟨before, g', after, e, h1, h2⟩ := ih hl
            refine ⟨before, g', after ++ [x], by rw [e]; simp, h1, ?_⟩
            intro g'' hg''
            rcases List.mem_append.1 hg'' with hg'' | hg''
            · exact h2 g'' hg''
            · rw [List.mem_singleton.1 hg'']; exact hx
          · rw [← List.mem_singleton.1 hl] at hx
            exact absurd hg hx
    obtain ⟨before, g', after, e, h1, h2⟩ := last _ hmem
    obtain ⟨it, hit⟩ := List.length_eq_one_iff.1 h1
    have hin : it ∈ marksIn env (catalog env f).log g' := by rw [hit]; simp
    rw [marksIn, marks, List.mem_filter, List.mem_filter] at hin
    have hm : Mark env it := by simpa using hin.1.2
    obtain ⟨⟨hsuf, d, hd, _⟩, hv⟩ := hm
    obtain ⟨a, ha⟩ := mark_parent hc (mem_byClasspath.1 hin.1.1) hd (by
      intro hn
      rw [hn] at hsuf
      exact absurd hsuf (by decide)) ⟨_, hv.choose_spec.1⟩
    exact ⟨a, before, g', after, it, d, e, hit, hd, ha, h2⟩

/-! Cases: three files whose validation completes. -/

/-- NXdata `/e/d` with a `signal` attribute and a field, marked by `marks`. -/
def dataFile (rootAttrs entryAttrs dataAttrs fieldAttrs : List (Str × Val)) : H5File where
  attrs := rootAttrs
  kids := .cons s%"e" .hard
    (.group s%"/e" ((s%"NX_class", .str s%"NXentry") :: entryAttrs)
      (.cons s%"d" .hard (.group s%"/e/d" ((s%"NX_class", .str s%"NXdata") :: dataAttrs)
        (.cons s%"x" .hard (.dataset s%"/e/d/x" fieldAttrs (.ofVal (.int 1))) .nil)) .nil)) .nil

/-- The verdict of a run. -/
def lastVerdict (l : List Eff) : Option (Str × Status × Str) :=
  (findings l).getLast?.map (fun x => (x.test, x.status, x.comment))

/-- Complete default path. -/
def niacFile : H5File :=
  dataFile [(s%"default", .str s%"e")] [(s%"default", .str s%"d")] [(s%"signal", .str s%"x")] []

theorem niacFile_ok : (validateOpen sampleEnv sampleMgr [] niacFile).res = .ok () := by rfl

example : lastVerdict (validateOpen sampleEnv sampleMgr [] niacFile).log =
    some (s%"NeXus default plot", .ok, s%"found by v3: /e/d@signal") := by rfl

/-- No default attributes. -/
def signalFile : H5File := dataFile [] [] [(s%"signal", .str s%"x")] []

theorem signalFile_ok : (validateOpen sampleEnv sampleMgr [] signalFile).res = .ok () := by rfl

example : lastVerdict (validateOpen sampleEnv sampleMgr [] signalFile).log =
    some (s%"NeXus default plot", .ok, s%"found by v3: /e/d/x") := by rfl

/-- A marked field only. -/
def markedFile : H5File := dataFile [] [] [] [(s%"signal", .int 1)]

theorem markedFile_ok : (validateOpen sampleEnv sampleMgr [] markedFile).res = .ok () := by rfl

example : lastVerdict (validateOpen sampleEnv sampleMgr [] markedFile).log =
    some (s%"NeXus default plot", .ok, s%"found by v2: /e/d/x") := by rfl

/-- Nothing to plot; the definition of NXentry in the sample does not require a plot. -/
example : lastVerdict (validateOpen sampleEnv sampleMgr [] nameFile).log =
    some (s%"NeXus default plot", .note, s%"no default plot described") := by rfl

/-- A file without NXentry. -/
def emptyFile : H5File := ⟨[], .nil⟩

example : lastVerdict (validateOpen sampleEnv sampleMgr [] emptyFile).log =
    some (s%"NeXus default plot", .error, s%"no default plot described") := by rfl

example : ∃ a, SignalPlot sampleEnv (catalog sampleEnv markedFile).log a := by
  have h := default_plot_verdict markedFile_ok (fun d hd => by
    cases hd; decide)
  obtain ⟨A, S, x, h1, _, _, _, _, _, h2⟩ := h
  have hx : x.comment = s%"found by v2: /e/d/x" := by
    have hl : lastVerdict (validateOpen sampleEnv sampleMgr [] markedFile).log =
      some (s%"NeXus default plot", .ok, s%"found by v2: /e/d/x") := by rfl
    rw [lastVerdict, h1] at hl
    simp at hl
    exact hl.2.2
  generalize hs : x.status = st at h2
  generalize x.comment = cm at h2 hx
  cases h2 with
  | byAttribute a ha => simp at hx
  | bySignal a _ ha => exact ⟨a, ha⟩
  | required => simp at hx
  | optional => simp at hx

end Punx

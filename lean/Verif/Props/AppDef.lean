import Verif.Props.Group4
import Verif.Spec.AppDef

/-!
# C26: the application definition check
-/

namespace Punx
open Spec

/-! ## reading values -/

theorem readText {env : Env} {v w x : Val} (h1 : firstOfArray v = .ok w)
    (h2 : decodeByteString env w = .ok x) (s : Str) : x = .str s ↔ HoldsText env v s := by
  unfold HoldsText TextOf
  cases v with
  | str t =>
    injection h1 with h1; subst h1
    injection h2 with h2; subst h2
    simp
  | bytes b =>
    injection h1 with h1; subst h1
    rw [decodeByteString] at h2
    cases hb : env.dec b with
    | none => rw [hb] at h2; cases h2
    | some t =>
      rw [hb] at h2
      injection h2 with h2; subst h2
      simp [hb]
  | arrO l =>
    cases l with
    | nil => cases h1
    | cons t l =>
      injection h1 with h1; subst h1
      injection h2 with h2; subst h2
      simp
  | list l =>
    cases l with
    | nil => cases h1
    | cons t l =>
      injection h1 with h1; subst h1
      injection h2 with h2; subst h2
      simp
  | arrS l =>
    cases l with
    | nil => cases h1
    | cons b l =>
      injection h1 with h1; subst h1
      rw [decodeByteString] at h2
      cases hb : env.dec b with
      | none => rw [hb] at h2; cases h2
      | some t =>
        rw [hb] at h2
        injection h2 with h2; subst h2
        simp [hb]
  | arrNum l =>
    cases l with
    | nil => cases h1
    | cons t l =>
      injection h1 with h1; subst h1
      injection h2 with h2; subst h2
      simp
  | int n => injection h1 with h1; subst h1; injection h2 with h2; subst h2; simp
  | num n => injection h1 with h1; subst h1; injection h2 with h2; subst h2; simp
  | none => injection h1 with h1; subst h1; injection h2 with h2; subst h2; simp
  | empty => injection h1 with h1; subst h1; injection h2 with h2; subst h2; simp

theorem readPrinted {env : Env} {v w x : Val} (h1 : firstOfArray v = .ok w)
    (h2 : decodeByteString env w = .ok x) :
    HoldsText env v (pyStr env x) ∨ HoldsOther env v (pyStr env x) := by
  have key := readText h1 h2
  cases x with
  | str s => exact .inl ((key s).1 rfl)
  | _ =>
    right
    unfold HoldsOther
    cases v with
    | str t => injection h1 with h1; subst h1; injection h2 with h2; cases h2
    | bytes b =>
      injection h1 with h1; subst h1
      rw [decodeByteString] at h2
      cases hb : env.dec b with
      | none => rw [hb] at h2; cases h2
      | some t => rw [hb] at h2; injection h2 with h2; cases h2
    | arrO l =>
      cases l with
      | nil => cases h1
      | cons t l => injection h1 with h1; subst h1; injection h2 with h2; cases h2
    | list l =>
      cases l with
      | nil => cases h1
      | cons t l => injection h1 with h1; subst h1; injection h2 with h2; cases h2
    | arrS l =>
      cases l with
      | nil => cases h1
      | cons b l =>
        injection h1 with h1; subst h1
        rw [decodeByteString] at h2
        cases hb : env.dec b with
        | none => rw [hb] at h2; cases h2
        | some t => rw [hb] at h2; injection h2 with h2; cases h2
    | arrNum l =>
      cases l with
      | nil => cases h1
      | cons t l =>
        injection h1 with h1; subst h1
        injection h2 with h2
        first
          | cases h2; done
          | (injection h2 with h2; subst h2; simp [pyStr])
    | _ =>
      injection h1 with h1; subst h1; injection h2 with h2
      first
        | cases h2; done
        | (cases h2; simp [pyStr])

theorem appDefName_ok {ctx : Ctx} {it : Item} {name : Str} (h : appDefName ctx it = .ok name) :
    ∃ g, it.obj.asGroup = some g ∧ Declares ctx.env ctx.file g name := by
  rw [appDefName] at h
  split at h
  · cases h
  · rename_i g hg
    split at h
    · cases h
    · cases h
    · rename_i n hn
      cases n with
      | group => cases h
      | datatype => cases h
      | dataset m a d =>
        refine ⟨g, hg, m, a, d, hn, ?_⟩
        simp only [readValue] at h
        change (firstOfArray d.value >>= fun v => decodeByteString ctx.env v >>= fun v =>
          Except.ok (pyStr ctx.env v)) = .ok name at h
        cases h1 : firstOfArray d.value with
        | error e => rw [h1] at h; cases h
        | ok w =>
          rw [h1] at h
          change (decodeByteString ctx.env w >>= fun v => Except.ok (pyStr ctx.env v)) = .ok name at h
          cases h2 : decodeByteString ctx.env w with
          | error e => rw [h2] at h; cases h
          | ok x =>
            rw [h2] at h
            injection h with h
            subst h
            exact readPrinted h1 h2

theorem enumLoop_ok {env : Env} {o : Option Node} {enums : List (Option Str)}
    {r : Option (Option Str)} (hne : enums ≠ []) (h : enumLoop env o enums = .ok r) :
    ∃ m a d, o = some (.dataset m a d) ∧
      (r = none → ∀ t, some t ∈ enums → ¬ HoldsText env d.value t) ∧
      (∀ e, r = some e → e ∈ enums) ∧
      (∀ e, r = some (some e) → HoldsText env d.value e) ∧
      (r = some none → ∀ t, ¬ HoldsText env d.value t) := by
  induction enums with
  | nil => exact absurd rfl hne
  | cons e es ih =>
    rw [enumLoop] at h
    cases o with
    | none => cases h
    | some n =>
      cases n with
      | group => cases h
      | datatype => cases h
      | dataset m a d =>
        change (firstOfArray d.value >>= fun v => decodeByteString env v >>= fun v =>
          if v = enumValue e then .ok (some e) else
            enumLoop env (some (.dataset m a d)) es) = .ok r at h
        cases h1 : firstOfArray d.value with
        | error e => rw [h1] at h; cases h
        | ok w =>
          rw [h1] at h
          change (decodeByteString env w >>= fun v =>
            if v = enumValue e then .ok (some e) else
              enumLoop env (some (.dataset m a d)) es) = .ok r at h
          cases h2 : decodeByteString env w with
          | error e => rw [h2] at h; cases h
          | ok x =>
            rw [h2] at h
            change (if x = enumValue e then .ok (some e) else
              enumLoop env (some (.dataset m a d)) es) = .ok r at h
            have key := readText h1 h2
            refine ⟨m, a, d, rfl, ?_⟩
            by_cases hx : x = enumValue e
            · rw [if_pos hx] at h
              injection h with h
              subst h
              refine ⟨(fun h => by cases h), fun e' he' => ?_, fun e' he' => ?_, fun he' t ht => ?_⟩
              · injection he' with he'
                simp [he']
              · injection he' with he'
                subst he'
                exact (key _).1 hx
              · injection he' with he'
                subst he'
                rw [(key t).2 ht] at hx
                cases hx
            · rw [if_neg hx] at h
              have hno : ∀ t, e = some t → ¬ HoldsText env d.value t :=
                fun t ht hh => hx (ht ▸ (key t).2 hh)
              cases es with
              | nil =>
                rw [enumLoop] at h
                injection h with h
                subst h
                refine ⟨fun _ t ht => ?_, (fun e' he' => by cases he'),
                  (fun e' he' => by cases he'), (fun he' => by cases he')⟩
                simp at ht
                exact hno t ht.symm
              | cons e' es =>
                obtain ⟨m', a', d', hd, i1, i2, i3, i4⟩ := ih (by simp) h
                cases hd
                refine ⟨fun hr t ht => ?_, fun e hr => List.mem_cons_of_mem _ (i2 e hr), i3, i4⟩
                rcases List.mem_cons.1 ht with ht | ht
                · exact hno t ht.symm
                · exact i1 hr t ht

theorem joinEnums_ok {l : List (Option Str)} : (∃ s, joinEnums l = .ok s) ↔ none ∉ l := by
  unfold joinEnums
  split <;> simp_all

theorem fieldRequired_ok {mgr : Manager} :
    (∃ b, fieldRequired mgr = .ok b) ↔ mgr.fieldMinOccursIsOne ≠ none := by
  unfold fieldRequired
  cases mgr.fieldMinOccursIsOne <;> simp

/-! ## the lines of one check -/

theorem appField_lines {ctx : Ctx} {it : Item} {a : Str} {g : Node} {ad : Str} {i : Nat}
    {fld : Str × FieldSpec} (ha : it.addr = some a) (hn : it.classpath ≠ nonNeXus)
    (h : (appField ctx it g ad i fld).res = .ok ()) :
    FieldLines ctx.env ctx.file g a fld (lines (appField ctx it g ad i fld)) := by
  have h' := h
  rw [appField] at h ⊢
  rw [W.bind_ok_iff] at h
  obtain ⟨o, ho, h⟩ := h
  rw [W.lift_res] at ho
  rw [ho, W.lift_ok_bind]
  rw [W.bind_ok_iff] at h
  obtain ⟨v, hv, h⟩ := h
  rw [W.lift_res] at hv
  extract_lets obj
  rw [show mkItem ctx.env (some it) obj none (0 :: i :: it.oid) = .ok v from hv, W.lift_ok_bind,
    lines_record_bind]
  rw [record_bind_res] at h
  cases o with
  | none =>
    simp only [mkItem, H5Obj.name?, if_neg hn, Except.ok.injEq] at hv
    have hva : v.addr = some (a ++ s%"@None") := by
      rw [← hv]
      simp [ha]
    by_cases he : fld.2.enums = []
    · rw [if_neg (by simp [he]), lines_pure, hva]
      exact .absent ho he
    · rw [if_pos (List.length_pos_iff.2 he), W.bind_ok_iff] at h
      obtain ⟨r, hr, _⟩ := h
      rw [W.lift_res] at hr
      obtain ⟨_, _, _, hd, _⟩ := enumLoop_ok he hr
      cases hd
  | some n =>
    have hva : v.addr = some n.name := by rw [(mkItem_ok rfl hv).1]; rfl
    by_cases he : fld.2.enums = []
    · rw [if_neg (by simp [he]), lines_pure, hva]
      exact .plain ho he
    · rw [if_pos (List.length_pos_iff.2 he), W.bind_ok_iff] at h
      obtain ⟨r, hr, h⟩ := h
      rw [W.lift_res] at hr
      rw [if_pos (List.length_pos_iff.2 he), hr, W.lift_ok_bind]
      rw [W.bind_ok_iff] at h
      obtain ⟨q, hq, h⟩ := h
      rw [W.lift_res] at hq
      rw [hq, W.lift_ok_bind]
      obtain ⟨m, b, d, hd, h1, h2, h3, _⟩ := enumLoop_ok he hr
      injection hd with hd
      have hds : ∃ m b d, n = .dataset m b d := ⟨m, b, d, hd⟩
      cases r with
      | none =>
        dsimp only at h ⊢
        rw [W.bind_ok_iff] at h
        obtain ⟨j, hj, _⟩ := h
        rw [W.lift_res] at hj
        rw [hj, W.lift_ok_bind, lines_record, hva]
        have := FieldLines.enum (env := ctx.env) (f := ctx.file) (a := a) ho he hds
        rw [okIf_neg] at this
        · exact this
        · rintro ⟨m', b', d', e, t, ht, ht'⟩
          rw [hd] at e
          cases e
          exact h1 rfl t ht ht'
      | some e =>
        cases e with
        | none => cases h
        | some e =>
          rw [lines_record, hva]
          have := FieldLines.enum (env := ctx.env) (f := ctx.file) (a := a) ho he hds
          rw [okIf_pos] at this
          · exact this
          · exact ⟨m, b, d, hd, e, h2 _ rfl, h3 e rfl⟩

theorem appFields_lines {ctx : Ctx} {it : Item} {a : Str} {g : Node} {ad : Str} {i : Nat}
    {flds : List (Str × FieldSpec)} (ha : it.addr = some a) (hn : it.classpath ≠ nonNeXus)
    (h : (appFields ctx it g ad i flds).res = .ok ()) :
    ∃ parts, lines (appFields ctx it g ad i flds) = parts.flatten ∧
      List.Forall₂ (FieldLines ctx.env ctx.file g a) flds parts := by
  induction flds generalizing i with
  | nil => exact ⟨[], rfl, .nil⟩
  | cons fld flds ih =>
    rw [appFields, W.bind_ok_iff] at h
    obtain ⟨⟨⟩, h1, h2⟩ := h
    obtain ⟨parts, e, hp⟩ := ih h2
    rw [appFields, lines_bind h1, e]
    exact ⟨_ :: parts, rfl, .cons (appField_lines ha hn h1) hp⟩

theorem appDefVerify_lines {ctx : Ctx} {it : Item} {a : Str} (ha : it.addr = some a)
    (hn : it.classpath ≠ nonNeXus) (h : (appDefVerify ctx it).res = .ok ()) :
    ∃ g, it.obj.asGroup = some g ∧
      AppLines ctx.env ctx.file ctx.mgr.classes g a (lines (appDefVerify ctx it)) := by
  rw [appDefVerify] at h ⊢
  rw [W.bind_ok_iff] at h
  obtain ⟨name, hname, h⟩ := h
  rw [W.lift_res] at hname
  rw [hname, W.lift_ok_bind]
  obtain ⟨g, hg, hd⟩ := appDefName_ok hname
  refine ⟨g, hg, name, hd, ?_⟩
  cases hc : Dict.get? ctx.mgr.classes name with
  | none =>
    simp only [lines_record, ha]
    exact .inl ⟨trivial, trivial⟩
  | some ad =>
    right
    simp only [hc, hg] at h
    simp only [hg, lines_record_bind, ha]
    rw [record_bind_res] at h
    cases hgr : ad.groups with
    | nil =>
      exfalso
      rw [hgr] at h
      cases hcat : ad.category <;>
        (simp only [hcat, record_bind_res, Dict.values, List.map_nil] at h; cases h)
    | cons q more =>
      obtain ⟨gname, entry⟩ := q
      rw [hgr] at h
      have h3 : (appFields ctx it g name 0 entry.fields).res = .ok () := by
        cases hcat : ad.category <;>
          (simp only [hcat, record_bind_res, Dict.values, List.map_cons] at h; exact h)
      obtain ⟨parts, e, hp⟩ := appFields_lines ha hn h3
      refine ⟨ad, gname, entry, more, parts, rfl, hgr, hp, ?_⟩
      cases hcat : ad.category <;>
        simp [lines_record_bind, ha, Dict.values, e, okIf]

/-! ## the run -/

/-- The catalogued items that declare an application definition, in the order of the run. -/
def definers (env : Env) (f : H5File) : List Item :=
  (catalog env f).log.filter (fun it => it.classpath = s%"/NXentry/definition") ++
  (catalog env f).log.filter (fun it => it.classpath = s%"/NXentry/NXsubentry/definition")

theorem mem_definers {env : Env} {f : H5File} {it : Item} :
    it ∈ definers env f ↔ it ∈ (catalog env f).log ∧
      (it.classpath = s%"/NXentry/definition" ∨
       it.classpath = s%"/NXentry/NXsubentry/definition") := by
  simp [definers, ← and_or_left]

/-- The parent of such an item is a catalogued NeXus object. -/
theorem definer_parent {env : Env} {f : H5File} (h : (catalog env f).res = .ok ()) {it : Item}
    (hit : it ∈ definers env f) :
    ∃ p ∈ (catalog env f).log, it.parent = some p ∧ p.classpath ≠ nonNeXus := by
  obtain ⟨hit, hk⟩ := mem_definers.1 hit
  cases catalogued h hit with
  | root => simp [rootItem] at hk
  | @attr v attrs ka j hv ho ha hka =>
    exfalso
    rw [attrItem] at hk
    split at hk
    · simp [nonNeXus] at hk
    · have : '@' ∈ v.classpath ++ '@' :: ka.1 := by simp
      rcases hk with hk | hk
      · have hk' : v.classpath ++ '@' :: ka.1 = s%"/NXentry/definition" := hk
        rw [hk'] at this; exact absurd this (by decide)
      · have hk' : v.classpath ++ '@' :: ka.1 = s%"/NXentry/NXsubentry/definition" := hk
        rw [hk'] at this; exact absurd this (by decide)
  | @node p n oid hp ho =>
    refine ⟨p, hp, rfl, ?_⟩
    intro hn
    have : (cpOf env (some p) (.node n) n.name).1 = [] ∨
        (cpOf env (some p) (.node n) n.name).1 = nonNeXus := by
      rw [cpOf, determineClasspath]
      by_cases h1 : objName n.name = s%"/"
      · rw [if_pos h1]; exact .inl rfl
      · rw [if_neg h1]
        simp only [if_pos hn]
        exact .inr rfl
    have e : (objItem env (some p) (.node n) n.name oid).classpath =
      (cpOf env (some p) (.node n) n.name).1 := rfl
    rw [e] at hk
    rcases this with h1 | h1 <;> rw [h1] at hk <;> simp [nonNeXus] at hk

/-- What is expected for a declaring item: the lines of the check of its parent. -/
def AppReportOn (env : Env) (mgr : Manager) (f : H5File) (it : Item) (ls : List Line) : Prop :=
  ∃ p ∈ (catalog env f).log, it.parent = some p ∧ ∃ g, p.obj.asGroup = some g ∧
    AppLines env f mgr.classes g g.name ls

theorem AttrTest.not_app {k : Str} (h : AttrTest k) : ¬ AppTest k := by
  intro hg
  have h1 := hg.isNot
  rw [h.is] at h1
  cases h1

theorem PlotTest.not_app {k : Str} (h : PlotTest k) : ¬ AppTest k := by
  intro hg
  generalize e : k = k' at hg
  cases h <;> cases hg <;> simp at e

theorem step3_lines {env : Env} {mgr : Manager} {mins : Dict (Str × Str) Int} {f : H5File}
    (hc : (catalog env f).res = .ok ()) (h : (step3 (mkCtx env mgr mins f)).res = .ok ()) :
    ∃ parts, lines (step3 (mkCtx env mgr mins f)) = parts.flatten ∧
      List.Forall₂ (AppReportOn env mgr f) (definers env f) parts := by
  have hget : ∀ k, (Dict.get? (mkCtx env mgr mins f).classpaths k).getD [] =
      (catalog env f).log.filter (fun it => it.classpath = k) := classpathTable_get _
  have hl := lines_forEach h
  change lines (step3 (mkCtx env mgr mins f)) = _ at hl
  have hok := W.forEach_ok_iff.1 h
  have key : ∀ l : List Item, (∀ it ∈ l, it ∈ definers env f) →
      (∀ it ∈ l, (match it.parent with
        | some p => appDefVerify (mkCtx env mgr mins f) p
        | none => W.fail .attributeError).res = .ok ()) →
      ∃ parts, l.flatMap (fun it => lines (match it.parent with
        | some p => appDefVerify (mkCtx env mgr mins f) p
        | none => W.fail .attributeError)) = parts.flatten ∧
        List.Forall₂ (AppReportOn env mgr f) l parts := by
    intro l
    induction l with
    | nil => intro _ _; exact ⟨[], rfl, .nil⟩
    | cons it l ih =>
      intro hm ho
      obtain ⟨parts, e, hp⟩ := ih (fun i hi => hm i (by simp [hi])) (fun i hi => ho i (by simp [hi]))
      have hit := ho it (by simp)
      obtain ⟨p, hpm, hpar, hpn⟩ := definer_parent hc (hm it (by simp))
      rw [hpar] at hit
      have hg : ∃ g, p.obj.asGroup = some g := by
        have hit' := hit
        simp only at hit'
        rw [appDefVerify, W.bind_ok_iff] at hit'
        obtain ⟨nm, hnm, _⟩ := hit'
        rw [W.lift_res] at hnm
        obtain ⟨g, hg, _⟩ := appDefName_ok hnm
        exact ⟨g, hg⟩
      obtain ⟨g, hg⟩ := hg
      have ha := (catalogued_group hc hpm hg).1
      obtain ⟨g', hg', hal⟩ := appDefVerify_lines ha hpn hit
      rw [hg] at hg'
      injection hg' with hg'
      subst hg'
      rw [List.flatMap_cons, e, hpar]
      exact ⟨_ :: parts, rfl, .cons ⟨p, hpm, hpar, g, hg, hal⟩ hp⟩
  have hl2 : lines (step3 (mkCtx env mgr mins f)) = (definers env f).flatMap (fun it => lines
      (match it.parent with
        | some p => appDefVerify (mkCtx env mgr mins f) p
        | none => W.fail .attributeError)) := by
    rw [hl, definers, List.flatMap_append, definitionPaths]
    simp only [List.flatMap_cons, List.flatMap_nil, List.append_nil]
    rw [lines_forEach (hok s%"/NXentry/definition" (by simp [definitionPaths])),
      lines_forEach (hok s%"/NXentry/NXsubentry/definition" (by simp [definitionPaths])),
      hget, hget]
    rfl
  rw [hl2]
  refine key _ (fun it hi => hi) ?_
  intro it hi
  rw [definers, List.mem_append] at hi
  rcases hi with hi | hi
  · refine W.forEach_ok_iff.1 (hok s%"/NXentry/definition" (by simp [definitionPaths])) it ?_
    rw [hget]; exact hi
  · refine W.forEach_ok_iff.1 (hok s%"/NXentry/NXsubentry/definition" (by simp [definitionPaths])) it ?_
    rw [hget]; exact hi

/-- C26: all application definition findings of a completed run, in order: for each item at
`/NXentry/definition` or `/NXentry/NXsubentry/definition` the lines of the check of its parent,
and nothing else.  ("known NXDL" is also used for the class of groups.) -/
theorem app_findings_run {env : Env} {mgr : Manager} {mins : Dict (Str × Str) Int} {f : H5File}
    (h : (validateOpen env mgr mins f).res = .ok ()) :
    ∃ A S B, findings (validateOpen env mgr mins f).log = A ++ S ++ B ∧
      (∀ x ∈ A, AppTest x.test → x.test = s%"known NXDL") ∧ (∀ x ∈ B, ¬ AppTest x.test) ∧
      ∃ parts, S.map lineOf = parts.flatten ∧
        List.Forall₂ (AppReportOn env mgr f) (definers env f) parts := by
  have c := completed h
  obtain ⟨m, hlog, _, _⟩ := c.log
  refine ⟨findings ((step1Items (catalog env f).log).flatMap
      (fun it => (nameAndAttribute (mkCtx env mgr mins f) [] it).log)) ++
    findings (step2 (mkCtx env mgr mins f)).log,
    findings (step3 (mkCtx env mgr mins f)).log,
    findings (defaultPlotVerify (mkCtx env mgr mins f) m).log, ?_, ?_, ?_, ?_⟩
  · rw [hlog, findings_append, findings_append, findings_append]
  · intro x hx hg
    rcases List.mem_append.1 hx with hx | hx
    · rw [findings_flatMap, List.mem_flatMap] at hx
      obtain ⟨it, _, hx⟩ := hx
      obtain ⟨i, _, hk | hk⟩ := emits_findings (emits_nameAndAttribute _ [] it) hx
      · exact absurd hk hg.ne
      · exact absurd hg hk.not_app
    · obtain ⟨i, hk⟩ := emits_findings (emits_step2 _) hx
      exact hg.group hk
  · intro x hx hg
    obtain ⟨i, hk⟩ := emits_findings (emits_defaultPlot _ _) hx
    exact hk.2.not_app hg
  · exact step3_lines c.catalog c.step3

/-! ## consequences -/

theorem holds_unique {env : Env} {v : Val} {s t : Str}
    (h1 : HoldsText env v s ∨ HoldsOther env v s) (h2 : HoldsText env v t ∨ HoldsOther env v t) :
    s = t := by
  unfold HoldsText TextOf HoldsOther at *
  cases v with
  | bytes b =>
    simp at h1 h2
    rw [h1] at h2
    injection h2
  | arrS l =>
    cases l with
    | nil => simp at h1
    | cons b l =>
      simp at h1 h2
      rw [h1] at h2
      injection h2
  | arrO l => cases l <;> simp at h1 h2; rw [← h1, ← h2]
  | list l => cases l <;> simp at h1 h2; rw [← h1, ← h2]
  | arrNum l => cases l <;> simp at h1 h2; rw [← h1, ← h2]
  | _ => simp at h1 h2; first | rw [← h1, ← h2] | rw [h1, h2]

/-- A group declares at most one application definition. -/
theorem declares_unique {env : Env} {f : H5File} {g : Node} {s t : Str}
    (h1 : Declares env f g s) (h2 : Declares env f g t) : s = t := by
  obtain ⟨n, a, d, e1, h1⟩ := h1
  obtain ⟨n', a', d', e2, h2⟩ := h2
  rw [e1] at e2
  injection e2 with e2
  injection e2 with e2
  cases e2
  exact holds_unique h1 h2

/-- The group `g` of the catalogue declares a definition `ad` whose entry requires `fld`. -/
def Requires (env : Env) (mgr : Manager) (f : H5File) (g : Node) (fld : Str × FieldSpec) : Prop :=
  ∃ it ∈ definers env f, ∃ p, it.parent = some p ∧ p.obj.asGroup = some g ∧
    ∃ name ad gname entry more, Declares env f g name ∧ Dict.get? mgr.classes name = some ad ∧
      ad.groups = (gname, entry) :: more ∧ fld ∈ entry.fields

theorem forall₂_mem {α β : Type} {R : α → β → Prop} {l : List α} {m : List β}
    (h : List.Forall₂ R l m) {x : α} (hx : x ∈ l) : ∃ y ∈ m, R x y := by
  induction h with
  | nil => simp at hx
  | @cons a b l m hr _ ih =>
    rcases List.mem_cons.1 hx with rfl | hx
    · exact ⟨b, by simp, hr⟩
    · obtain ⟨y, h1, h2⟩ := ih hx
      exact ⟨y, by simp [h1], h2⟩

theorem forall₂_mem' {α β : Type} {R : α → β → Prop} {l : List α} {m : List β}
    (h : List.Forall₂ R l m) {y : β} (hy : y ∈ m) : ∃ x ∈ l, R x y := by
  induction h with
  | nil => simp at hy
  | @cons a b l m hr _ ih =>
    rcases List.mem_cons.1 hy with rfl | hy
    · exact ⟨a, by simp, hr⟩
    · obtain ⟨x, h1, h2⟩ := ih hy
      exact ⟨x, by simp [h1], h2⟩

/-- The lines of a whole report. -/
def report (effs : List Eff) : List Line := (findings effs).map lineOf

/-- The lines of the check of a declaring group are in the report. -/
theorem app_lines_reported {env : Env} {mgr : Manager} {mins : Dict (Str × Str) Int} {f : H5File}
    (h : (validateOpen env mgr mins f).res = .ok ()) {it p : Item} {g : Node}
    (hit : it ∈ definers env f) (hp : it.parent = some p) (hg : p.obj.asGroup = some g) :
    ∃ ls, AppLines env f mgr.classes g g.name ls ∧
      ∀ l ∈ ls, l ∈ report (validateOpen env mgr mins f).log := by
  obtain ⟨A, S, B, e, _, _, parts, hS, hparts⟩ := app_findings_run h
  obtain ⟨ls, hls, p', _, hp', g', hg', hal⟩ := forall₂_mem hparts hit
  rw [hp] at hp'
  injection hp' with hp'
  subst hp'
  rw [hg] at hg'
  injection hg' with hg'
  subst hg'
  refine ⟨ls, hal, fun l hl => ?_⟩
  rw [report, e, List.map_append, List.map_append, hS]
  simp only [List.mem_append, List.mem_flatten]
  exact .inl (.inr ⟨ls, hls, hl⟩)

/-- C26: the verdict on the declared name. -/
theorem declared_definition_verdict {env : Env} {mgr : Manager} {mins : Dict (Str × Str) Int}
    {f : H5File} (h : (validateOpen env mgr mins f).res = .ok ()) {it p : Item} {g : Node}
    (hit : it ∈ definers env f) (hp : it.parent = some p) (hg : p.obj.asGroup = some g)
    {name : Str} (hd : Declares env f g name) :
    (Dict.get? mgr.classes name = none →
      (some g.name, s%"known NXDL", .error) ∈ report (validateOpen env mgr mins f).log) ∧
    (∀ ad, Dict.get? mgr.classes name = some ad →
      (some g.name, s%"known NXDL", .ok) ∈ report (validateOpen env mgr mins f).log ∧
      (some g.name, s%"NeXus application definition",
        okIf (ad.category = .applications ∨ ad.category = .contributed) .error) ∈
          report (validateOpen env mgr mins f).log ∧
      (some g.name, s%"NeXus application definition", .todo) ∈
          report (validateOpen env mgr mins f).log) := by
  obtain ⟨ls, ⟨name', hd', hal⟩, hm⟩ := app_lines_reported h hit hp hg
  have := declares_unique hd hd'
  subst this
  constructor
  · intro hn
    rcases hal with ⟨_, rfl⟩ | ⟨ad, _, _, _, _, hc, _⟩
    · exact hm _ (by simp)
    · rw [hn] at hc; cases hc
  · intro ad hc
    rcases hal with ⟨hn, _⟩ | ⟨ad', _, _, _, _, hc', _, _, rfl⟩
    · rw [hn] at hc; cases hc
    · rw [hc] at hc'
      injection hc' with hc'
      subst hc'
      exact ⟨hm _ (by simp), hm _ (by simp), hm _ (by simp)⟩

/-- C26: every field that a declared definition requires is reported: OK if the group has it,
ERROR if not; a field with enumerated values is there and reported according to its value. -/
theorem required_field_verdict {env : Env} {mgr : Manager} {mins : Dict (Str × Str) Int}
    {f : H5File} (h : (validateOpen env mgr mins f).res = .ok ()) {g : Node}
    {fld : Str × FieldSpec} (hr : Requires env mgr f g fld) :
    (∃ n, h5get f g fld.1 = .ok (some n) ∧
      (some n.name, s%"NXDL field", .ok) ∈ report (validateOpen env mgr mins f).log ∧
      (fld.2.enums ≠ [] → (some n.name, s%"NXDL field enumerations",
        okIf (HasOneOf env n fld.2.enums) .error) ∈ report (validateOpen env mgr mins f).log)) ∨
    (h5get f g fld.1 = .ok none ∧ fld.2.enums = [] ∧
      (some (g.name ++ s%"@None"), s%"NXDL field", .error) ∈
        report (validateOpen env mgr mins f).log) := by
  obtain ⟨it, hit, p, hp, hg, name, ad, gname, entry, more, hd, hc, hgr, hf⟩ := hr
  obtain ⟨ls, ⟨name', hd', hal⟩, hm⟩ := app_lines_reported h hit hp hg
  have := declares_unique hd hd'
  subst this
  rcases hal with ⟨hn, _⟩ | ⟨ad', _, entry', _, parts, hc', hgr', hparts, rfl⟩
  · rw [hn] at hc; cases hc
  · rw [hc] at hc'
    injection hc' with hc'
    subst hc'
    rw [hgr] at hgr'
    cases hgr'
    obtain ⟨fl, hfl, hx⟩ := forall₂_mem hparts hf
    have hm' : ∀ l ∈ fl, l ∈ report (validateOpen env mgr mins f).log := fun l hl =>
      hm l (List.mem_append_right _ (List.mem_flatten.2 ⟨fl, hfl, hl⟩))
    cases hx with
    | plain h1 h2 => exact .inl ⟨_, h1, hm' _ (by simp), fun h3 => absurd h2 h3⟩
    | enum h1 h2 h3 => exact .inl ⟨_, h1, hm' _ (by simp), fun _ => hm' _ (by simp)⟩
    | absent h1 h2 => exact .inr ⟨h1, h2, hm' _ (by simp)⟩

/-- C26: a completed validation reports a missing field exactly if a required field is
missing. -/
theorem missing_field_iff {env : Env} {mgr : Manager} {mins : Dict (Str × Str) Int}
    {f : H5File} (h : (validateOpen env mgr mins f).res = .ok ()) :
    (∃ x ∈ findings (validateOpen env mgr mins f).log, x.test = s%"NXDL field" ∧
      x.status ≠ .ok) ↔
    ∃ g fld, Requires env mgr f g fld ∧ h5get f g fld.1 = .ok none := by
  constructor
  · rintro ⟨x, hx, ht, hst⟩
    obtain ⟨A, S, B, e, hA, hB, parts, hS, hparts⟩ := app_findings_run h
    rw [e] at hx
    have hat : AppTest x.test := by rw [ht]; constructor
    simp only [List.mem_append] at hx
    rcases hx with (hx | hx) | hx
    · have := hA x hx hat
      rw [ht] at this
      cases this
    · have hl : lineOf x ∈ parts.flatten := by rw [← hS]; exact List.mem_map_of_mem hx
      have hl1 : (lineOf x).2.1 = s%"NXDL field" := ht
      have hl2 : (lineOf x).2.2 ≠ .ok := hst
      generalize lineOf x = l at hl hl1 hl2
      obtain ⟨ls, hls, hl⟩ := List.mem_flatten.1 hl
      obtain ⟨it, hit, p, _, hp, g, hg, name, hd, hal⟩ := forall₂_mem' hparts hls
      rcases hal with ⟨_, rfl⟩ | ⟨ad, gname, entry, more, fparts, hc, hgr, hfp, rfl⟩
      · simp at hl; subst hl; simp at hl1
      · rcases List.mem_append.1 hl with hl | hl
        · simp at hl
          rcases hl with rfl | rfl | rfl <;> simp at hl1
        · obtain ⟨fl, hfl, hl⟩ := List.mem_flatten.1 hl
          obtain ⟨fld, hfld, hx⟩ := forall₂_mem' hfp hfl
          cases hx with
          | plain => simp at hl; subst hl; simp at hl2
          | enum => simp at hl; rcases hl with rfl | rfl <;> simp at hl1 hl2
          | absent h1 h2 =>
            exact ⟨g, fld, ⟨it, hit, p, hp, hg, name, ad, gname, entry, more, hd, hc, hgr, hfld⟩, h1⟩
    · exact absurd hat (hB x hx)
  · rintro ⟨g, fld, hr, hnone⟩
    rcases required_field_verdict h hr with ⟨n, hn, _⟩ | ⟨_, _, hm⟩
    · rw [hnone] at hn; cases hn
    · rw [report, List.mem_map] at hm
      obtain ⟨x, hx, hl⟩ := hm
      refine ⟨x, hx, congrArg (fun l => l.2.1) hl, ?_⟩
      have : x.status = .error := congrArg (fun l => l.2.2) hl
      rw [this]
      decide

/-- C26: an absent field with enumerated values is not reported: the run does not complete. -/
theorem enumerated_field_absent_stops {env : Env} {mgr : Manager} {mins : Dict (Str × Str) Int}
    {f : H5File} {g : Node} {fld : Str × FieldSpec} (hr : Requires env mgr f g fld)
    (he : fld.2.enums ≠ []) (hnone : h5get f g fld.1 = .ok none) :
    (validateOpen env mgr mins f).res ≠ .ok () := by
  intro h
  rcases required_field_verdict h hr with ⟨n, hn, _⟩ | ⟨_, h2, _⟩
  · rw [hnone] at hn; cases hn
  · exact he h2

/-! ## examples -/

/-- The text dataset `/e/<l>`. -/
def textIn (l v : Str) (rest : Kids) : Kids :=
  .cons l .hard (.dataset (s%"/e/" ++ l) [] (.ofVal (.str v))) rest

/-- An entry declaring NXsas, without the required title. -/
def sasFile : H5File := entryFile (textIn s%"definition" s%"NXsas" .nil)

theorem sasFile_ok : (validateOpen sampleEnv sampleMgr [] sasFile).res = .ok () := by rfl

/-- The report on the example. -/
example : (report (validateOpen sampleEnv sampleMgr [] sasFile).log).filter
    (fun l => l.2.1 = s%"NXDL field" || l.2.1 = s%"NXDL field enumerations") =
    [(some s%"/e@None", s%"NXDL field", .error), (some s%"/e/definition", s%"NXDL field", .ok),
     (some s%"/e/definition", s%"NXDL field enumerations", .ok)] := by rfl

/-- `/e` requires a title, which is missing. -/
theorem sasFile_requires : ∃ g fld, Requires sampleEnv sampleMgr sasFile g fld ∧
    fld.1 = s%"title" ∧ h5get sasFile g fld.1 = .ok none := by
  refine ⟨_, (s%"title", {}), ⟨(catalog sampleEnv sasFile).log[3], ?_, _, rfl, rfl,
    s%"NXsas", _, _, _, _, ⟨_, _, _, rfl, .inl (.inl (.inl rfl))⟩, rfl, rfl, ?_⟩, rfl, rfl⟩
  · exact mem_definers.2 ⟨List.getElem_mem _, .inl rfl⟩
  · exact List.mem_cons_self

example : ∃ x ∈ findings (validateOpen sampleEnv sampleMgr [] sasFile).log,
    x.test = s%"NXDL field" ∧ x.status ≠ .ok := by
  obtain ⟨g, fld, hr, _, hn⟩ := sasFile_requires
  exact (missing_field_iff sasFile_ok).2 ⟨g, fld, hr, hn⟩

/-- Definitions where NXsas also requires a field `mode`, "a" or "b". -/
def modeMgr : Manager where
  classes := Dict.set sampleMgr.classes s%"NXsas" (ClassDef.mk s%"NXsas" .applications []
    [(s%"entry", .mk [] [] [(s%"mode", { enums := [some s%"a", some s%"b"] })] [])] [] [] [])
  itemPats := sampleMgr.itemPats
  classPats := sampleMgr.classPats
  fieldMinOccursIsOne := some true

/-- C26: without the field the validation stops with `TypeError`. -/
theorem absent_mode_stops :
    (validateOpen sampleEnv modeMgr [] sasFile).res = .error .typeError := by rfl

/-- With the field it is judged by its value. -/
example : (report (validateOpen sampleEnv modeMgr []
      (entryFile (textIn s%"definition" s%"NXsas" (textIn s%"mode" s%"c" .nil)))).log).filter
    (fun l => l.2.1 = s%"NXDL field enumerations") =
    [(some s%"/e/mode", s%"NXDL field enumerations", .error)] := by rfl

/-- `modeMgr` with another enumeration of `mode` and another value for `minOccurs`. -/
def modeMgrWith (enums : List (Option Str)) (min : Option Bool) : Manager :=
  { modeMgr with
    classes := Dict.set sampleMgr.classes s%"NXsas" (ClassDef.mk s%"NXsas" .applications []
      [(s%"entry", .mk [] [] [(s%"mode", { enums := enums })] [])] [] [] [])
    fieldMinOccursIsOne := min }

/-- An entry declaring NXsas whose mode is `v`. -/
def modeFile (v : Str) : H5File :=
  entryFile (textIn s%"definition" s%"NXsas" (textIn s%"mode" v .nil))

/-- An enumeration with a gap can be checked for a value before or after the gap, but not for
another one. -/
example : (validateOpen sampleEnv (modeMgrWith [none, some s%"b"] (some true)) [] (modeFile s%"b")).res
      = .ok () ∧
    (validateOpen sampleEnv (modeMgrWith [none, some s%"b"] (some true)) [] (modeFile s%"c")).res
      = .error .typeError := ⟨rfl, rfl⟩

/-- If the schema does not say how often fields occur, no enumeration can be checked. -/
example : (validateOpen sampleEnv (modeMgrWith [some s%"b"] none) [] (modeFile s%"b")).res
    = .error .keyError := rfl

end Punx

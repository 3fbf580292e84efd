import Verif.Spec.Expected
import Verif.Props.Completes4

/-!
# C99: the report as a whole
-/

namespace Punx
open Spec

/-! ## items of attributes -/

theorem hasAttr_item {env : Env} {f : H5File} (hc : (catalog env f).res = .ok ()) {o : Item}
    {a k : Str} {v : Val} (h : CarriesAttr (catalog env f).log o a k v) :
    ∃ it ∈ (catalog env f).log, it.obj = .val v ∧ it.addr = some (a ++ '@' :: k) ∧ it.name = k ∧
      it.parent = some o := by
  obtain ⟨attrs, h1, h2⟩ := h.attr
  obtain ⟨j, hj⟩ := attrs_catalogued hc h.mem h1 h2
  have hn : o.classpath ≠ nonNeXus := h.nexus
  refine ⟨_, hj, attrItem_obj _ _ _, ?_, ?_, attrItem_parent _ _ _⟩
  · rw [attrItem, if_neg hn, h.addr]; rfl
  · rw [attrItem, if_neg hn]

theorem item_hasAttr {env : Env} {f : H5File} (hc : (catalog env f).res = .ok ()) {it : Item}
    (hit : it ∈ (catalog env f).log) {v : Val} (hobj : it.obj = .val v) {b : Str}
    (hb : it.addr = some b) :
    ∃ o a, CarriesAttr (catalog env f).log o a it.name v ∧ b = a ++ '@' :: it.name ∧
      it.parent = some o := by
  obtain ⟨o, attrs, oa, h1, h2, h3, h4, h5, _, h7, h8, _, _⟩ :=
    attr_shape (catalogued hc hit) hobj hb
  exact ⟨o, oa, ⟨h1, h8, h5, attrs, h3, h4⟩, h7, h2⟩

/-! ## verdicts are unique -/

theorem NameRule.unique {cp n : Str} {r : Prop} {s t : Status} (h1 : NameRule cp n r s)
    (h2 : NameRule cp n r t) : s = t := by
  by_cases hc : s%"NXcollection" <:+: cp
  · rw [h1.1 hc, h2.1 hc]
  · by_cases hs : OrNewline StrictName n
    · rw [(h1.2 hc).1 hs, (h2.2 hc).1 hs]
    · by_cases hr : r
      · rw [(h1.2 hc).2.1 hs hr, (h2.2 hc).2.1 hs hr]
      · rw [(h1.2 hc).2.2 hs hr, (h2.2 hc).2.2 hs hr]

theorem ValueNameRule.unique {n : Str} {r : Prop} {s t : Status} (h1 : ValueNameRule n r s)
    (h2 : ValueNameRule n r t) : s = t := by
  by_cases hs : OrNewline StrictName n
  · rw [h1.1 hs, h2.1 hs]
  · by_cases hr : r
    · rw [h1.2.1 hs hr, h2.2.1 hs hr]
    · rw [h1.2.2 hs hr, h2.2.2 hs hr]

theorem AttrNameRule.unique {w : Char → Bool} {mgr : Manager} {n : Str} {s t : Status}
    (h1 : AttrNameRule w mgr n s) (h2 : AttrNameRule w mgr n t) : s = t := by
  by_cases hs : OrNewline StrictName n ∨ RelaxedBy w mgr n
  · rw [h1.1 hs, h2.1 hs]
  · rw [not_or] at hs
    rw [h1.2 hs.1 hs.2, h2.2 hs.1 hs.2]

theorem PlotVerdict.unique {env : Env} {classes : Dict Str ClassDef} {mins : Dict (Str × Str) Int}
    {f : H5File} {items groups : List Item} {s t : Status} {c c' : Str}
    (h1 : PlotVerdict env classes mins f items groups s c)
    (h2 : PlotVerdict env classes mins f items groups t c') : s = t := by
  cases h1 with
  | byAttribute a ha =>
    cases h2 with
    | byAttribute => rfl
    | bySignal => rfl
    | required h => exact absurd ⟨a, ha⟩ h
    | optional h => exact absurd ⟨a, ha⟩ h
  | bySignal a _ ha =>
    cases h2 with
    | byAttribute => rfl
    | bySignal => rfl
    | required _ h => exact absurd ⟨a, ha⟩ h
    | optional _ h => exact absurd ⟨a, ha⟩ h
  | required x y z =>
    cases h2 with
    | byAttribute a ha => exact absurd ⟨a, ha⟩ x
    | bySignal a _ ha => exact absurd ⟨a, ha⟩ y
    | required => rfl
    | optional _ _ h => exact absurd z h
  | optional x y z =>
    cases h2 with
    | byAttribute a ha => exact absurd ⟨a, ha⟩ x
    | bySignal a _ ha => exact absurd ⟨a, ha⟩ y
    | required _ _ h => exact absurd h z
    | optional => rfl

theorem axesOf_unique {env : Env} {v : Val} {xs ys : List Str} (h1 : AxesOf env v xs)
    (h2 : AxesOf env v ys) : xs = ys := by
  rcases h1 with ⟨s, hs, rfl⟩ | ⟨hn, rfl⟩ | ⟨bs, rfl, hb, hm⟩ | rfl | ⟨rfl, rfl⟩
  · rcases h2 with ⟨t, ht, rfl⟩ | ⟨_, rfl⟩ | ⟨_, rfl, _⟩ | rfl | ⟨rfl, _⟩
    · rw [textOf_unique hs ht]
    all_goals (rcases hs with hs | ⟨_, hs, _⟩ <;> cases hs)
  · rcases h2 with ⟨t, ht, rfl⟩ | ⟨_, h⟩ | ⟨_, h, _⟩ | h | ⟨h, _⟩
    · rcases ht with ht | ⟨_, ht, _⟩ <;> cases ht
    all_goals injection h
  · rcases h2 with ⟨t, ht, rfl⟩ | ⟨_, h⟩ | ⟨cs, h, _, hm'⟩ | h | ⟨h, _⟩
    · rcases ht with ht | ⟨_, ht, _⟩ <;> cases ht
    · cases h
    · injection h with h
      subst h
      rw [hm] at hm'
      exact map_some_inj hm'
    all_goals cases h
  · rcases h2 with ⟨t, ht, rfl⟩ | ⟨_, h⟩ | ⟨_, h, _⟩ | h | ⟨h, _⟩
    · rcases ht with ht | ⟨_, ht, _⟩ <;> cases ht
    all_goals injection h
  · rcases h2 with ⟨t, ht, rfl⟩ | ⟨_, h⟩ | ⟨_, h, _⟩ | h | ⟨_, h⟩
    · rcases ht with ht | ⟨_, ht, _⟩ <;> cases ht
    all_goals first | exact h.symm | cases h

/-! ## names -/

theorem linked_iff {env : Env} {o : Item} {attrs : List (Str × Val)} {a : Str}
    (h1 : o.obj.attrs? = some attrs) (h2 : o.addr = some a) :
    Linked env o ↔ TargetElsewhere env attrs a := by
  constructor
  · rintro ⟨attrs', a', h3, h4, h5⟩
    rw [h1] at h3; cases h3
    rw [h2] at h4; cases h4
    exact h5
  · exact fun h => ⟨_, _, h1, h2, h⟩

theorem mem_oneFinding {fs : List Finding} {ad : Option Str} {P : Status → Prop} {l : Line}
    (h : OneFinding fs ad P) (hl : l ∈ fs.map lineOf) :
    ∃ st, l = (ad, s%"validItemName", st) ∧ P st := by
  obtain ⟨st, c, rfl, hP⟩ := h
  rw [List.map_singleton, List.mem_singleton] at hl
  exact ⟨st, hl, hP⟩

theorem oneFinding_mem {fs : List Finding} {ad : Option Str} {P : Status → Prop} {st : Status}
    (h : OneFinding fs ad P) (hu : ∀ s, P s → s = st) :
    (ad, s%"validItemName", st) ∈ fs.map lineOf := by
  obtain ⟨s, c, rfl, hP⟩ := h
  rw [hu s hP]
  simp [lineOf]

/-- The name findings of the items are the expected lines on names. -/
theorem name_lines_iff {env : Env} {mgr : Manager} {mins : Dict (Str × Str) Int} {f : H5File}
    (h : (validateOpen env mgr mins f).res = .ok ()) {l : Line} :
    (∃ it ∈ (catalog env f).log,
      l ∈ (nameFindings (validateOpen env mgr mins f).log it.oid).map lineOf) ↔
    NameLine env mgr (catalog env f).log l := by
  have hc := (completed h).catalog
  constructor
  · rintro ⟨it, hit, hl⟩
    cases hobj : it.obj with
    | file g => rw [root_unjudged h hit hobj] at hl; simp at hl
    | none =>
      cases catalogued hc hit with
      | root => cases hobj
      | node _ => cases hobj
      | attr j => rw [attrItem_obj] at hobj; cases hobj
    | node n =>
      by_cases hat : '@' ∈ it.classpath
      · obtain ⟨g, attrs, oa, _, h2, h3, h4, h5, h6⟩ := object_with_at_verdict h hit hobj hat
        by_cases ht : TargetElsewhere env attrs oa
        · rw [h5 ht] at hl; simp at hl
        · obtain ⟨st, rfl, hst⟩ := mem_oneFinding (h6 ht) hl
          exact .member hit hobj hat h2 (fun hh => ht ((linked_iff h3 h4).1 hh)) hst
      · obtain ⟨st, rfl, hst⟩ := mem_oneFinding (object_name_verdict h hit hobj hat) hl
        exact .object hit hobj hat hst
    | val v =>
      cases ha : it.addr with
      | none => rw [nonNexus_attribute_unjudged h hit hobj ha] at hl; simp at hl
      | some b =>
        obtain ⟨o, a, hA, rfl, hp⟩ := item_hasAttr hc hit hobj ha
        by_cases hcl : s%"@NX_class" <:+ a ++ '@' :: it.name
        · obtain ⟨s, pats, h1, h2, h3⟩ := class_value_verdict h hit hobj ha hcl
          obtain ⟨st, rfl, h4, h5⟩ := mem_oneFinding h3 hl
          have e : st = okIf (ClassNameOk env mgr s) .error := by
            by_cases hk : ∃ p ∈ pats, PatAccepts env.word p s
            · rw [h4 hk, okIf_pos ⟨pats, h2, hk⟩]
            · rw [h5 hk, okIf_neg]
              rintro ⟨pats', h6, h7⟩
              rw [h2] at h6; cases h6
              exact hk h7
          rw [e, ha]
          exact .cls hA (ends_class_iff.1 hcl) h1
        · obtain ⟨o', attrs, oa, _, h2, h3, h4, h5, h6⟩ :=
            attribute_name_verdict h hit hobj ha hcl
          rw [hp] at h2; cases h2
          by_cases ht : TargetElsewhere env attrs oa
          · rw [h5 ht] at hl; simp at hl
          · obtain ⟨st, rfl, hst⟩ := mem_oneFinding (h6 ht) hl
            rw [ha]
            exact .attr hA (fun hh => hcl (ends_class_iff.2 hh))
              (fun hh => ht ((linked_iff h3 h4).1 hh)) hst
  · intro hl
    cases hl with
    | @object it n st hit hobj hat hst =>
      exact ⟨it, hit, oneFinding_mem (object_name_verdict h hit hobj hat)
        (fun s hs => NameRule.unique hs hst)⟩
    | @member it p n st hit hobj hat hp hlk hst =>
      obtain ⟨g, attrs, oa, _, h2, h3, h4, _, h6⟩ := object_with_at_verdict h hit hobj hat
      rw [hp] at h2; cases h2
      exact ⟨it, hit, oneFinding_mem (h6 (fun ht => hlk ((linked_iff h3 h4).2 ht)))
        (fun s hs => AttrNameRule.unique hs hst)⟩
    | @attr o a k v st hA hnc hlk hst =>
      obtain ⟨it, hit, hobj, ha, rfl, hp⟩ := hasAttr_item hc hA
      obtain ⟨o', attrs, oa, _, h2, h3, h4, _, h6⟩ :=
        attribute_name_verdict h hit hobj ha (fun hh => hnc (ends_class_iff.1 hh))
      rw [hp] at h2; cases h2
      rw [← ha]
      exact ⟨it, hit, oneFinding_mem (h6 (fun ht => hlk ((linked_iff h3 h4).2 ht)))
        (fun s hs => AttrNameRule.unique hs hst)⟩
    | @cls o a k s v hA hnc hs =>
      obtain ⟨it, hit, hobj, ha, rfl, hp⟩ := hasAttr_item hc hA
      obtain ⟨s', pats, h1, h2, h3⟩ :=
        class_value_verdict h hit hobj ha (ends_class_iff.2 hnc)
      rw [textOf_unique h1 hs] at h3
      rw [← ha]
      refine ⟨it, hit, oneFinding_mem h3 ?_⟩
      rintro st ⟨h4, h5⟩
      by_cases hk : ∃ p ∈ pats, PatAccepts env.word p s
      · rw [h4 hk, okIf_pos ⟨pats, h2, hk⟩]
      · rw [h5 hk, okIf_neg]
        rintro ⟨pats', h6, h7⟩
        rw [h2] at h6; cases h6
        exact hk h7

/-! ## values of attributes -/

theorem okIf_of {P : Prop} {st no : Status} (h1 : P → st = .ok) (h2 : ¬ P → st = no) :
    st = okIf P no := by
  by_cases h : P
  · rw [h1 h, okIf_pos h]
  · rw [h2 h, okIf_neg h]

theorem false_of_not {b : Bool} (h : ¬ b = true) : b = false := by
  cases b
  · rfl
  · exact absurd rfl h

/-- The lines on one attribute. -/
theorem value_lines_of_attr {env : Env} {mgr : Manager} {mins : Dict (Str × Str) Int} {f : H5File}
    (hdig : env.isdigit s%"1" = true) (h : (validateOpen env mgr mins f).res = .ok ()) {it o : Item}
    (hit : it ∈ (catalog env f).log) {v : Val} (hobj : it.obj = .val v) {a : Str}
    (ha : it.addr = some (a ++ '@' :: it.name)) (hp : it.parent = some o)
    (hA : CarriesAttr (catalog env f).log o a it.name v) {l : Line}
    (hl : l ∈ (attrFindings (validateOpen env mgr mins f).log it.oid).map lineOf) :
    ValueLine env mgr f (catalog env f).log l := by
  by_cases h1 : it.name = s%"NX_class"
  · obtain ⟨s, st, c, hs, e, h2, h3⟩ := nxclass_known h hit hobj ha h1
    rw [e, List.map_singleton, List.mem_singleton] at hl
    rw [hl, lineOf, okIf_of h2 h3]
    rw [h1] at hA ⊢
    exact .cls hA hs
  by_cases h2 : it.name = s%"target"
  · obtain ⟨t, st, c, ht, e, h3, h4⟩ := target_verdict h hit hobj ha h2
    rw [e, List.map_singleton, List.mem_singleton] at hl
    have hst : st = okIf (TargetOk env mgr f t) .error := by
      refine okIf_of h4.2 (fun hno => ?_)
      rcases h3 with h3 | h3
      · exact absurd (h4.1 h3) hno
      · exact h3
    rw [hl, lineOf, hst]
    rw [h2] at hA ⊢
    exact .target hA ht
  by_cases h3 : it.name = s%"signal"
  · by_cases hg : isHdf5Group o.obj = true
    · cases ho : o.obj with
      | node g =>
        cases g with
        | group gn ga gk =>
          obtain ⟨s, st, c, st', c', hs, e, h4, h5, h6⟩ := signal_of_group h hit hobj ha h3 hp ho
          rw [e] at hl
          simp only [List.map_cons, List.map_nil, List.mem_cons, List.not_mem_nil, or_false] at hl
          rw [h3] at hA hl
          rcases hl with rfl | rfl
          · exact .signalName hA hg hs h4
          · rw [lineOf, okIf_of h5 (fun hh => h6 (false_of_not hh))]
            exact .signal hA ho hg hs
        | _ => rw [ho] at hg; cases hg
      | _ => rw [ho] at hg; cases hg
    · by_cases hd : isHdf5Dataset o.obj = true
      · obtain ⟨st, c, e, h4, h5⟩ := signal_of_field hdig h hit hobj ha h3 hp hd
        rw [e, List.map_singleton, List.mem_singleton] at hl
        rw [hl, lineOf, okIf_of h4 h5]
        rw [h3] at hA ⊢
        exact .fieldSignal hA hd
      · rw [signal_elsewhere h hit hobj ha h3 hp (false_of_not hd) (false_of_not hg),
          List.map_singleton, List.mem_singleton] at hl
        rw [hl, lineOf]
        rw [h3] at hA ⊢
        exact .otherSignal hA (false_of_not hd) (false_of_not hg)
  by_cases h4 : it.name = s%"axes"
  · obtain ⟨names, fs, hn, hfa, e⟩ := axes_findings h hit hobj ha h4 hp
    rw [e, List.map_append, List.mem_append] at hl
    rw [h4] at hA hfa hl
    rcases hl with hl | hl
    · rw [List.mem_map] at hl
      obtain ⟨x, hx, rfl⟩ := hl
      rw [List.mem_flatten] at hx
      obtain ⟨ys, hys, hx⟩ := hx
      obtain ⟨n, hnn, g, st, c, st', c', hg, rfl, h5, ⟨r, hr⟩, h6, h7⟩ := forall₂_mem' hfa hys
      simp only [List.mem_cons, List.not_mem_nil, or_false] at hx
      rcases hx with rfl | rfl
      · exact .axisName hA hn hnn h5
      · have hst : st' = okIf (∃ m, h5get f g n = .ok (some m)) .error := by
          refine okIf_of h6 (fun hno => ?_)
          cases r with
          | none => exact h7 hr
          | some m => exact absurd ⟨m, hr⟩ hno
        rw [lineOf, hst]
        exact .axis hA hn hnn hg
    · rw [List.map_singleton, List.mem_singleton] at hl
      rw [hl, lineOf]
      exact .axes hA
  · have hno : it.name ∉ [s%"NX_class", s%"target", s%"signal", s%"axes"] := by
      simp only [List.mem_cons, List.not_mem_nil, or_false, not_or]
      exact ⟨h1, h2, h3, h4⟩
    rw [other_attribute_todo h hit hobj ha hno, List.map_singleton, List.mem_singleton] at hl
    rw [hl, lineOf]
    exact .other hA hno

/-- The attribute findings of the items are the expected lines on values. -/
theorem value_lines_iff {env : Env} {mgr : Manager} {mins : Dict (Str × Str) Int} {f : H5File}
    (hdig : env.isdigit s%"1" = true) (h : (validateOpen env mgr mins f).res = .ok ())
    (hw : WellNamedFile f) {l : Line} :
    (∃ it ∈ (catalog env f).log,
      l ∈ (attrFindings (validateOpen env mgr mins f).log it.oid).map lineOf) ↔
    ValueLine env mgr f (catalog env f).log l := by
  have hc := (completed h).catalog
  constructor
  · rintro ⟨it, hit, hl⟩
    have hnone : (∀ a, it.addr = some a → '@' ∉ a) → False := by
      intro ha
      rw [no_attribute_finding h hit ha] at hl
      simp at hl
    cases hobj : it.obj with
    | file g =>
      exfalso
      refine hnone (fun a ha => ?_)
      cases catalogued hc hit with
      | root => cases ha; decide
      | node _ => cases hobj
      | attr j => rw [attrItem_obj] at hobj; cases hobj
    | none =>
      cases catalogued hc hit with
      | root => cases hobj
      | node _ => cases hobj
      | attr j => rw [attrItem_obj] at hobj; cases hobj
    | node n =>
      exfalso
      refine hnone (fun a ha => ?_)
      have := node_name_noAt hc hw hit hobj
      cases catalogued hc hit with
      | root => cases hobj
      | node _ => cases hobj; cases ha; exact this
      | attr j => rw [attrItem_obj] at hobj; cases hobj
    | val v =>
      cases ha : it.addr with
      | none => exact absurd (fun a h' => by rw [ha] at h'; cases h') hnone
      | some b =>
        obtain ⟨o, a, hA, rfl, hp⟩ := item_hasAttr hc hit hobj ha
        exact value_lines_of_attr hdig h hit hobj ha hp hA hl
  · intro hl
    cases hl with
    | @cls o a s v hA hs =>
      obtain ⟨it, hit, hobj, ha, hn, hp⟩ := hasAttr_item hc hA
      obtain ⟨s', st, c, hs', e, h2, h3⟩ := nxclass_known h hit hobj ha hn
      rw [textOf_unique hs' hs] at h2 h3
      refine ⟨it, hit, ?_⟩
      rw [e, okIf_of h2 h3]
      simp [lineOf, UsableName]
    | @target o a t v hA ht =>
      obtain ⟨it, hit, hobj, ha, hn, hp⟩ := hasAttr_item hc hA
      obtain ⟨t', st, c, ht', e, h3, h4⟩ := target_verdict h hit hobj ha hn
      rw [textOf_unique ht' ht] at h4
      refine ⟨it, hit, ?_⟩
      have hst : st = okIf (TargetOk env mgr f t) .error := by
        refine okIf_of h4.2 (fun hno => ?_)
        rcases h3 with h3 | h3
        · exact absurd (h4.1 h3) hno
        · exact h3
      rw [e, hst]
      simp [lineOf]
    | @signalName o a s v st hA hg hs hst =>
      obtain ⟨it, hit, hobj, ha, hn, hp⟩ := hasAttr_item hc hA
      cases ho : o.obj with
      | node g =>
        cases g with
        | group gn ga gk =>
          obtain ⟨s', st1, c, st', c', hs', e, h4, _, _⟩ := signal_of_group h hit hobj ha hn hp ho
          rw [textOf_unique hs' hs] at h4 e
          refine ⟨it, hit, ?_⟩
          rw [e, ValueNameRule.unique h4 hst]
          simp [lineOf]
        | _ => rw [ho] at hg; cases hg
      | _ => rw [ho] at hg; cases hg
    | @signal o a s v g hA ho hg hs =>
      obtain ⟨it, hit, hobj, ha, hn, hp⟩ := hasAttr_item hc hA
      cases g with
      | group gn ga gk =>
        obtain ⟨s', st1, c, st', c', hs', e, _, h5, h6⟩ := signal_of_group h hit hobj ha hn hp ho
        rw [textOf_unique hs' hs] at h5 h6 e
        refine ⟨it, hit, ?_⟩
        rw [e, okIf_of h5 (fun hh => h6 (false_of_not hh))]
        simp [lineOf]
      | _ => rw [ho] at hg; cases hg
    | @fieldSignal o a v hA hd =>
      obtain ⟨it, hit, hobj, ha, hn, hp⟩ := hasAttr_item hc hA
      obtain ⟨st, c, e, h4, h5⟩ := signal_of_field hdig h hit hobj ha hn hp hd
      refine ⟨it, hit, ?_⟩
      rw [e, okIf_of h4 h5]
      simp [lineOf]
    | @otherSignal o a v hA hd hg =>
      obtain ⟨it, hit, hobj, ha, hn, hp⟩ := hasAttr_item hc hA
      refine ⟨it, hit, ?_⟩
      rw [signal_elsewhere h hit hobj ha hn hp hd hg]
      simp [lineOf]
    | @axisName o a n v names st hA hns hn' hst =>
      obtain ⟨it, hit, hobj, ha, hn, hp⟩ := hasAttr_item hc hA
      obtain ⟨names', fs, hns', hfa, e⟩ := axes_findings h hit hobj ha hn hp
      rw [axesOf_unique hns' hns] at hfa
      obtain ⟨ys, hys, g, st1, c, st', c', hg, rfl, h5, _, _, _⟩ := forall₂_mem hfa hn'
      refine ⟨it, hit, ?_⟩
      rw [e, ValueNameRule.unique hst h5, List.map_append, List.mem_append]
      exact .inl (List.mem_map.2 ⟨_, List.mem_flatten.2 ⟨_, hys, List.mem_cons_self ..⟩, rfl⟩)
    | @axis o a n v names g hA hns hn' hg =>
      obtain ⟨it, hit, hobj, ha, hn, hp⟩ := hasAttr_item hc hA
      obtain ⟨names', fs, hns', hfa, e⟩ := axes_findings h hit hobj ha hn hp
      rw [axesOf_unique hns' hns] at hfa
      obtain ⟨ys, hys, g', st1, c, st', c', hg', rfl, _, ⟨r, hr⟩, h6, h7⟩ := forall₂_mem hfa hn'
      rw [hg] at hg'; cases hg'
      have hst : st' = okIf (∃ m, h5get f g n = .ok (some m)) .error := by
        refine okIf_of h6 (fun hno => ?_)
        cases r with
        | none => exact h7 hr
        | some m => exact absurd ⟨m, hr⟩ hno
      refine ⟨it, hit, ?_⟩
      rw [e, ← hst, List.map_append, List.mem_append]
      exact .inl (List.mem_map.2 ⟨_, List.mem_flatten.2
        ⟨_, hys, List.mem_cons_of_mem _ (List.mem_cons_self ..)⟩, rfl⟩)
    | @axes o a v hA =>
      obtain ⟨it, hit, hobj, ha, hn, hp⟩ := hasAttr_item hc hA
      obtain ⟨names', fs, hns', hfa, e⟩ := axes_findings h hit hobj ha hn hp
      refine ⟨it, hit, ?_⟩
      rw [e, List.map_append, List.mem_append]
      exact .inr (by simp [lineOf])
    | @other o a k v hA hk =>
      obtain ⟨it, hit, hobj, ha, hn, hp⟩ := hasAttr_item hc hA
      refine ⟨it, hit, ?_⟩
      rw [other_attribute_todo h hit hobj ha (hn ▸ hk)]
      simp [lineOf]

end Punx

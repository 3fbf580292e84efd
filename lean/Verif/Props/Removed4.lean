import Verif.Props.Removed2

/-!
# C135: additional content that nothing refers to does not change the errors
-/

namespace Punx
open Spec

variable {env : Env} {mgr : Manager} {mins : Dict (Str × Str) Int} {X : Node → Bool} {f : H5File}

/-! ## lists that are gone through up to the first miss -/

/-- Two lists that are gone through up to the first element that is a miss (`M`, `M'`); `C`, `C'`:
the element can be looked at. -/
theorem scan_transfer {α β : Type} {P : α → β → Prop} {M C : α → Prop} {M' C' : β → Prop}
    {l : List α} {l' : List β} (h : List.Forall₂ P l l')
    (hP : ∀ x y, x ∈ l → y ∈ l' → P x y → C' y → C x ∧ (M x ↔ M' y))
    (hs : ∀ before y after, l' = before ++ y :: after → (∀ i ∈ before, ¬ M' i) → C' y) :
    (∀ before x after, l = before ++ x :: after → (∀ i ∈ before, ¬ M i) → C x ∧
      ∃ before' y after', l' = before' ++ y :: after' ∧ (∀ i ∈ before', ¬ M' i) ∧ P x y ∧
        (M x ↔ M' y)) := by
  induction h with
  | nil => intro before x after e; cases before <;> cases e
  | @cons x0 y0 l l' h0 _ ih =>
    have hy := hs [] y0 l' rfl (by simp)
    have h1 := hP x0 y0 (by simp) (by simp) h0 hy
    intro before x after e hb
    cases before with
    | nil =>
      cases e
      exact ⟨h1.1, [], y0, l', rfl, by simp, h0, h1.2⟩
    | cons z before =>
      cases e
      have hz : ¬ M' y0 := fun k => hb x0 (by simp) (h1.2.2 k)
      obtain ⟨k1, before', y, after', k2, k3, k4⟩ := ih
        (fun x y hx hy => hP x y (List.mem_cons_of_mem _ hx) (List.mem_cons_of_mem _ hy))
        (fun before y after e hb => hs (y0 :: before) y after (by rw [e]; rfl) fun i hi => by
          rcases List.mem_cons.1 hi with rfl | hi
          · exact hz
          · exact hb i hi)
        before x after rfl fun i hi => hb i (List.mem_cons_of_mem _ hi)
      refine ⟨k1, y0 :: before', y, after', by rw [k2]; rfl, fun i hi => ?_, k4⟩
      rcases List.mem_cons.1 hi with rfl | hi
      · exact hz
      · exact k3 i hi

/-- If there is no miss in the one list, then all elements of the other can be looked at. -/
theorem scan_no_miss {α β : Type} {P : α → β → Prop} {M C : α → Prop} {M' C' : β → Prop}
    {l : List α} {l' : List β} (h : List.Forall₂ P l l')
    (hP : ∀ x y, x ∈ l → y ∈ l' → P x y → C' y → C x ∧ (M x ↔ M' y))
    (hs : ∀ before y after, l' = before ++ y :: after → (∀ i ∈ before, ¬ M' i) → C' y)
    (hn : ∀ x ∈ l, ¬ M x) : ∀ y ∈ l', ¬ M' y ∧ C' y := by
  induction h with
  | nil => intro y hy; cases hy
  | @cons x0 y0 l l' h0 _ ih =>
    have hy := hs [] y0 l' rfl (by simp)
    have h1 := hP x0 y0 (by simp) (by simp) h0 hy
    have hz : ¬ M' y0 := fun k => hn x0 (by simp) (h1.2.2 k)
    intro y hm
    rcases List.mem_cons.1 hm with rfl | hm
    · exact ⟨hz, hy⟩
    · refine ih (fun x y hx hy => hP x y (List.mem_cons_of_mem _ hx) (List.mem_cons_of_mem _ hy))
        (fun before y after e hb => hs (y0 :: before) y after (by rw [e]; rfl) fun i hi => ?_)
        (fun x hx => hn x (List.mem_cons_of_mem _ hx)) y hm
      rcases List.mem_cons.1 hi with rfl | hi
      · exact hz
      · exact hb i hi

/-! ## paths -/

theorem Spec.StillThere.contains (w : WellNamedFile f) {g : Node} (d : Distinct g) {p : Str}
    (h : StillThere X f g p) : h5contains (trim X f) (trimNode X g) p = h5contains f g p := by
  rw [Bool.eq_iff_iff]
  exact ⟨trim_contains w d, h.link⟩

theorem Spec.StillThere.none_iff (w : WellNamedFile f) {g : Node} (d : Distinct g) {p : Str}
    (h : StillThere X f g p) :
    h5get (trim X f) (trimNode X g) p = .ok none ↔ h5get f g p = .ok none := by
  constructor
  · intro e
    cases e' : h5get f g p with
    | error _ =>
      rw [h5get] at e e'
      split at e'
      · rw [if_pos (by assumption)] at e
        cases e
      · cases e'
    | ok o =>
      cases o with
      | none => rfl
      | some n => rw [h.found w d e'] at e; cases e
  · intro e
    cases e' : h5get (trim X f) (trimNode X g) p with
    | error _ =>
      rw [h5get] at e e'
      split at e'
      · rw [if_pos (by assumption)] at e
        cases e
      · cases e'
    | ok o =>
      cases o with
      | none => rfl
      | some n =>
        obtain ⟨m, k, _⟩ := trim_get w d e'
        rw [k] at e
        cases e

theorem itemReadable_trim (n : Node) : ItemReadable env (trimNode X n) ↔ ItemReadable env n := by
  cases n <;> simp only [trimNode, ItemReadable, Node.name, NodeClassOk, NodeTargetOk, Node.attrs]

theorem holds_trim {n : Node} :
    (∃ m a d, trimNode X n = .dataset m a d ∧ ∃ s, HoldsText env d.value s ∨ HoldsOther env d.value s) ↔
    ∃ m a d, n = .dataset m a d ∧ ∃ s, HoldsText env d.value s ∨ HoldsOther env d.value s := by
  cases n with
  | dataset => simp only [trimNode]
  | datatype => simp only [trimNode]
  | group => simp [trimNode]

/-- The same field can be checked. -/
theorem fieldCheckable_trim (w : WellNamedFile f) {g : Node} (d : Distinct g) {fld : Str × FieldSpec}
    (h : StillThere X f g fld.1) :
    FieldCheckable env mgr (trim X f) (trimNode X g) fld ↔ FieldCheckable env mgr f g fld := by
  refine or_congr ⟨?_, ?_⟩ (and_congr (h.none_iff w d) Iff.rfl)
  · rintro ⟨n, k1, k2, k3⟩
    obtain ⟨m, e, rfl⟩ := trim_get w d k1
    refine ⟨m, e, (itemReadable_trim m).1 k2, fun he => ?_⟩
    obtain ⟨k4, k5, k6⟩ := k3 he
    exact ⟨holds_trim.1 k4, k5, fun hn => (hasOneOf_trim _ _).1 (k6 hn)⟩
  · rintro ⟨n, k1, k2, k3⟩
    refine ⟨_, h.found w d k1, (itemReadable_trim n).2 k2, fun he => ?_⟩
    obtain ⟨k4, k5, k6⟩ := k3 he
    exact ⟨holds_trim.2 k4, k5, fun hn => (hasOneOf_trim _ _).2 (k6 hn)⟩

section
variable (R : ReferencesKept env mgr X f)
  (S : TrimFile env mgr X f (contents env (trim X f)) (contents env f))
include R S

/-! ## signals -/

theorem inGroups_keep {x y : Item} (hl : TrimRel X x y) (hy : y ∈ dataSignals (contents env f))
    {D' E' R' : Item} {t : Str} {g' : Node} (h1 : InGroups (contents env f) y D' E' R')
    (h5 : Names env D' s%"signal" t) (hg' : D'.obj.asGroup = some g') :
    ∃ D E R, InGroups (contents env (trim X f)) x D E R ∧ TrimRel X D D' ∧ TrimRel X E E' ∧
      TrimRel X R R' := by
  obtain ⟨_, k2, k3, _⟩ := R.plot y hy D' E' R' t g' h1 h5 hg'
  obtain ⟨r, e, d, rest, m1, m2, m3, m4, m5, m6, m7⟩ := h1
  obtain ⟨_, a5⟩ := (itemAt_iff S.once).1 m5
  obtain ⟨_, a6⟩ := (itemAt_iff S.once).1 m6
  rw [a5] at k2
  rw [a6] at k3
  obtain ⟨D, e5, lD⟩ := itemAt_left S m5 k2
  obtain ⟨E, e6, lE⟩ := itemAt_left S m6 k3
  obtain ⟨R, e7, lR⟩ := itemAt_left S m7 fun _ =>
    ⟨rootOf (trim X f), by rw [contents]; exact List.mem_cons_self .., rfl⟩
  exact ⟨D, E, R, ⟨r, e, d, rest, hl.core.addr.trans m1, m2, m3, m4, e5, e6, e7⟩, lD, lE, lR⟩

omit R S in
theorem pointer_keep {i i' : Item} {k : Str} (l : TrimRel X i i') (h : Pointer env i' k) :
    Pointer env i k := by
  obtain ⟨attrs, p1, p2⟩ := h
  refine ⟨attrs, l.attrs.trans p1, fun v hv => ⟨(p2 v hv).1, ?_⟩⟩
  obtain ⟨g, hg⟩ := (p2 v hv).2
  exact ⟨_, (l.group hg).1⟩

omit R S in
/-- A group that names its signal, if that can be checked. -/
theorem group_of_pointer {i : Item} {k t : Str} (h : Pointer env i k) (hn : Names env i k t) :
    ∃ g, i.obj.asGroup = some g := by
  obtain ⟨attrs, p1, p2⟩ := h
  obtain ⟨_, attrs', v, _, _, q1, q2, _⟩ := hn
  rw [p1] at q1
  cases q1
  exact (p2 v q2).2

/-- What is found out about a signal that can be checked in the file. -/
theorem signal_keep {x y : Item} (hy : y ∈ dataSignals (contents env f)) (hl : TrimRel X x y)
    (hc : SignalCheckable env f (contents env f) y) :
    SignalCheckable env (trim X f) (contents env (trim X f)) x ∧
    (SignalMissing env (trim X f) (contents env (trim X f)) x ↔
      SignalMissing env f (contents env f) y) ∧
    ((∃ t, PlotField env (trim X f) (contents env (trim X f)) x t) ↔
      ∃ t, PlotField env f (contents env f) y t) := by
  obtain ⟨D', E', R', t, h1, h2, h3, h4, h5, h6⟩ := hc
  obtain ⟨g', hg'⟩ := group_of_pointer h4 h5
  obtain ⟨k1, _, _, k4⟩ := R.plot y hy D' E' R' t g' h1 h5 hg'
  obtain ⟨D, E, R, g1, lD, lE, lR⟩ := inGroups_keep R S hl hy h1 h5 hg'
  have hn := (names_trim lD).2 h5
  have hpt : PointsAt env (trim X f) D s%"signal" t ↔ PointsAt env f D' s%"signal" t := by
    refine ⟨pointsAt_trim S.named lD, ?_⟩
    rintro ⟨_, g, hg, hct⟩
    rw [hg'] at hg
    cases hg
    exact ⟨hn, _, (lD.group hg').1, k1.link hct⟩
  refine ⟨⟨D, E, R, t, g1, pointer_keep lR h2, pointer_keep lE h3, pointer_keep lD h4, hn,
    fun h => ?_⟩, ⟨?_, ?_⟩, ⟨?_, ?_⟩⟩
  · obtain ⟨T', hT'⟩ := h6 (hpt.1 h)
    obtain ⟨T, hT, _⟩ := itemAt_left S hT' k4
    exact ⟨T, hT⟩
  · rintro ⟨D2, E2, R2, t2, m1, m2, m3⟩
    obtain ⟨rfl, _, _⟩ := inGroups_unique g1 m1
    rw [names_unique m2 hn] at m3
    exact ⟨D', E', R', t, h1, h5, fun k => m3 (hpt.2 k)⟩
  · rintro ⟨D2, E2, R2, t2, m1, m2, m3⟩
    obtain ⟨rfl, _, _⟩ := inGroups_unique h1 m1
    rw [names_unique m2 h5] at m3
    exact ⟨D, E, R, t, g1, hn, fun k => m3 (hpt.1 k)⟩
  · rintro ⟨t2, ht⟩
    exact ⟨t2, plotField_trim S hl ht⟩
  · rintro ⟨t2, D2, E2, R2, T2, n, a, v, m1, m2, m3, m4⟩
    obtain ⟨rfl, _, _⟩ := inGroups_unique h1 m1
    have := names_unique m2.1 h5
    subst this
    obtain ⟨T, hT, lT⟩ := itemAt_left S m3 k4
    obtain ⟨n', a', v', e⟩ := lT.dataset.2 ⟨n, a, v, m4⟩
    exact ⟨t2, D, E, R, T, n', a', v', g1, hpt.2 m2, hT, e⟩

/-- A signal can be checked in the file, if it can be checked without additional content. -/
theorem signal_back {x y : Item} (hy : y ∈ dataSignals (contents env f)) (hl : TrimRel X x y)
    (hc : SignalCheckable env (trim X f) (contents env (trim X f)) x) :
    SignalCheckable env f (contents env f) y := by
  obtain ⟨D, E, R', t, h1, h2, h3, h4, h5, h6⟩ := hc
  obtain ⟨D', E', R'', k1, lD, lE, lR⟩ := inGroups_trim S hl h1
  have hn' := (names_trim lD).1 h5
  refine ⟨D', E', R'', t, k1, pointer_trim lR h2, pointer_trim lE h3, pointer_trim lD h4, hn',
    fun hp => ?_⟩
  obtain ⟨_, g', hg', hct⟩ := hp
  obtain ⟨k2, _⟩ := R.plot y hy D' E' R'' t g' k1 hn' hg'
  obtain ⟨T, hT⟩ := h6 ⟨h5, _, (lD.group hg').1, k2.link hct⟩
  obtain ⟨T', hT', _⟩ := itemAt_trim S hT
  exact ⟨T', hT'⟩

/-- The signals of the file, up to the first one that is missing. -/
def SignalsFollowed (env : Env) (f : H5File) : Prop :=
  ∀ before it after, dataSignals (contents env f) = before ++ it :: after →
    (∀ i ∈ before, ¬ SignalMissing env f (contents env f) i) →
    SignalCheckable env f (contents env f) it

theorem signals_keep (h : SignalsFollowed env f) : SignalsFollowed env (trim X f) :=
  fun before x after e hb => (scan_transfer (dataSignals_trim S)
    (fun _ _ _ hy hl hc => ⟨(signal_keep R S hy hl hc).1, (signal_keep R S hy hl hc).2.1⟩)
    h before x after e hb).1

theorem signals_back (h : SignalsFollowed env (trim X f)) : SignalsFollowed env f :=
  fun before x after e hb => (scan_transfer (P := fun y x => TrimRel X x y) (dataSignals_trim S).flip
    (fun _ _ hy _ hl hc => ⟨signal_back R S hy hl hc,
      (signal_keep R S hy hl (signal_back R S hy hl hc)).2.1.symm⟩)
    h before x after e hb).1

theorem attributePlot_keep (h : SignalsFollowed env f) :
    (∃ a, AttributePlot env (trim X f) (contents env (trim X f)) a) ↔
      ∃ a, AttributePlot env f (contents env f) a := by
  have hP := fun x y (_ : x ∈ dataSignals (contents env (trim X f))) hy (hl : TrimRel X x y) hc =>
    And.intro (signal_keep R S (x := x) (y := y) hy hl hc).1 (signal_keep R S hy hl hc).2.1
  rw [attributePlot_iff, attributePlot_iff]
  constructor
  · rintro ⟨h1, x, hx, ht⟩
    have k := scan_no_miss (dataSignals_trim S) hP h fun x hx hm => h1 ⟨x, hx, hm⟩
    obtain ⟨y, hy, hl⟩ := (PermBy.of_forall₂ (dataSignals_trim S)).mem hx
    exact ⟨fun ⟨y, hy, hm⟩ => (k y hy).1 hm, y, hy,
      (signal_keep R S hy hl (k y hy).2).2.2.1 ht⟩
  · rintro ⟨h1, y, hy, ht⟩
    have hc : ∀ y ∈ dataSignals (contents env f), SignalCheckable env f (contents env f) y := by
      intro y hy
      obtain ⟨before, after, e⟩ := List.append_of_mem hy
      exact h before y after e fun i hi hm => h1 ⟨i, by rw [e]; simp [hi], hm⟩
    refine ⟨?_, ?_⟩
    · rintro ⟨x, hx, hm⟩
      obtain ⟨y, hy, hl⟩ := (PermBy.of_forall₂ (dataSignals_trim S)).mem hx
      exact h1 ⟨y, hy, (signal_keep R S hy hl (hc y hy)).2.1.1 hm⟩
    · obtain ⟨x, hx, hl⟩ := (PermBy.of_forall₂ (dataSignals_trim S).flip).mem hy
      exact ⟨x, hx, (signal_keep R S hy hl (hc y hy)).2.2.2 ht⟩

omit R in
theorem signalPlot_keep : (∃ a, SignalPlot env (contents env (trim X f)) a) ↔
    ∃ a, SignalPlot env (contents env f) a :=
  ⟨signalPlot_trim S, signalPlot_left S⟩

/-! ## definitions -/

theorem declaredBy_keep {g : Node} {name : Str} (hd : DeclaredBy env f (contents env f) g name) :
    DeclaredBy env (trim X f) (contents env (trim X f)) (trimNode X g) name ∧ Distinct g := by
  have hst := R.definition g name hd
  obtain ⟨y, hm, hi, p, hp, hg, n, a, d, e1, e2⟩ := hd
  rcases S.rel.down hm with ⟨x, hx, hl⟩ | hE
  · obtain ⟨p', hp', hlp, _⟩ := hl.parent (isDefinition_at hi).2 hp
    obtain ⟨hg', dist⟩ := hlp.group hg
    have hi' : IsDefinition x := by rw [IsDefinition] at hi ⊢; rwa [hl.core.classpath]
    have := hst.found S.named dist e1
    rw [trimNode] at this
    exact ⟨⟨x, hx, hi', p', hp', hg', n, a, d, this, e2⟩, dist⟩
  · exact absurd hi hE.definition

theorem requiredIn_keep {g : Node} {fld : Str × FieldSpec}
    (hr : RequiredIn env mgr f (contents env f) g fld) :
    RequiredIn env mgr (trim X f) (contents env (trim X f)) (trimNode X g) fld ∧ Distinct g := by
  obtain ⟨name, ad, gname, entry, more, h1, h2⟩ := hr
  obtain ⟨k1, k2⟩ := declaredBy_keep R S h1
  exact ⟨⟨name, ad, gname, entry, more, k1, h2⟩, k2⟩

/-! ## faults -/

theorem fault_left (h : SignalsFollowed env f) {a : Option Str} {t : Str}
    (k : Fault env mgr mins (trim X f) (contents env (trim X f)) a t) :
    Fault env mgr mins f (contents env f) a t := by
  cases k with
  | objectName h1 h2 h3 h4 h5 =>
    obtain ⟨y, hy, hl⟩ := S.rel.up h1
    obtain ⟨n, e, _⟩ := hl.node' h2
    rw [hl.core.classpath] at h3 h4
    rw [hl.core.name] at h5
    rw [hl.core.addr]
    exact .objectName hy e h3 h4 h5
  | memberName h1 h2 h3 h4 h5 h6 =>
    obtain ⟨y, hy, hl⟩ := S.rel.up h1
    obtain ⟨n, e, _⟩ := hl.node' h2
    rw [hl.core.classpath] at h3
    rw [hl.core.name] at h6
    obtain ⟨p, hp, hlp, _⟩ := hl.parent' (nexus_of_at h3) h4
    rw [hl.core.addr]
    exact .memberName hy e h3 hp (fun k => h5 ((linked_trim hlp).2 k)) h6
  | attrName h1 h2 h3 h4 =>
    obtain ⟨y, hy, hl⟩ := CarriesAttr.left S h1
    exact .attrName hy h2 (fun k => h3 ((linked_trim hl).2 k)) h4
  | className h1 h2 h3 h4 =>
    obtain ⟨y, hy, hl⟩ := CarriesAttr.left S h1
    exact .className hy h2 h3 h4
  | unusable h1 h2 h3 =>
    obtain ⟨y, hy, hl⟩ := CarriesAttr.left S h1
    exact .unusable hy h2 h3
  | target h1 h2 h3 =>
    obtain ⟨y, hy, hl⟩ := CarriesAttr.left S h1
    exact .target hy h2 fun k => h3 (R.targetOk hy h2 k)
  | signalName h1 h2 h3 h4 =>
    obtain ⟨y, hy, hl⟩ := CarriesAttr.left S h1
    rw [hl.core.obj, trimObj_isGroup] at h2
    exact .signalName hy h2 h3 h4
  | signal h1 h2 h3 h4 h5 =>
    obtain ⟨y, hy, hl⟩ := CarriesAttr.left S h1
    obtain ⟨n, e, rfl⟩ := hl.node' h2
    rw [hl.core.obj, trimObj_isGroup] at h3
    have hg : y.obj.asGroup = some n := by
      rw [e] at h3 ⊢
      cases n with
      | group => rfl
      | dataset => cases h3
      | datatype => cases h3
    obtain ⟨attrs, ha, hka⟩ := hy.attr
    rw [← group_attrs hg ha] at hka
    have hst := R.pointer y hy.mem hy.nexus n hg _ _ _ hka (.inl rfl) h4
    rw [hst.contains S.named (hl.group hg).2] at h5
    exact .signal hy e h3 h4 h5
  | axisName h1 h2 h3 h4 =>
    obtain ⟨y, hy, hl⟩ := CarriesAttr.left S h1
    exact .axisName hy h2 h3 h4
  | axis h1 h2 h3 h4 h5 =>
    obtain ⟨y, hy, hl⟩ := CarriesAttr.left S h1
    obtain ⟨g, hg, rfl, d⟩ := hl.group' h4
    obtain ⟨attrs, ha, hka⟩ := hy.attr
    rw [← group_attrs hg ha] at hka
    have hst := R.axes y hy.mem hy.nexus g hg _ _ _ hka h2 h3
    exact .axis hy h2 h3 hg fun ⟨m, k⟩ => h5 (hst.object m k)
  | unknownClass h1 h2 h3 h4 h5 h6 =>
    obtain ⟨y, hy, hl⟩ := S.rel.up h1
    obtain ⟨g, hg, rfl, d⟩ := hl.group' h2
    rw [groupClass_trim, hl.core.classpath] at h4
    rw [trimNode_name]
    exact .unknownClass hy hg (fun k => h3 (hl.outside.2 k)) h4 h5 h6
  | application h1 h2 h3 h4 h5 h6 =>
    obtain ⟨y, hy, hl⟩ := S.rel.up h1
    obtain ⟨g, hg, rfl, d⟩ := hl.group' h2
    rw [groupClass_trim, hl.core.classpath] at h4
    rw [trimNode_name]
    exact .application hy hg (fun k => h3 (hl.outside.2 k)) h4 h5 h6
  | enumeration h1 h2 h3 h4 h5 h6 h7 h8 h9 =>
    obtain ⟨y, hy, hl⟩ := S.rel.up h1
    obtain ⟨g, hg, rfl, d⟩ := hl.group' h2
    rw [groupClass_trim, hl.core.classpath] at h4
    rw [trimNode_attrs] at h6
    rw [trimNode_name]
    exact .enumeration hy hg (fun k => h3 (hl.outside.2 k)) h4 h5 h6 h7 h8 h9
  | pointer h1 h2 h3 h4 h5 h6 h7 h8 h9 =>
    obtain ⟨y, hy, hl⟩ := S.rel.up h1
    obtain ⟨g, hg, rfl, d⟩ := hl.group' h2
    rw [groupClass_trim, hl.core.classpath] at h4
    rw [trimNode_attrs] at h6
    rw [hl.core.classpath] at h8
    have hc : y.classpath ≠ s%"non-NeXus content" := fun k => h3 (hl.outside.2 k)
    rw [trimNode_name]
    refine .pointer hy hg hc h4 h5 h6 h7 h8 ?_
    rintro ⟨s, k1, k2⟩
    exact h9 ⟨s, k1, (R.pointer y hy hc g hg _ _ _ h6 (h8.imp id (·.1)) k1).link k2⟩
  | unknownDefinition h1 h2 =>
    obtain ⟨g, rfl, d, k⟩ := declaredBy_left S h1
    rw [trimNode_name]
    exact .unknownDefinition k h2
  | noApplication h1 h2 h3 =>
    obtain ⟨g, rfl, d, k⟩ := declaredBy_left S h1
    rw [trimNode_name]
    exact .noApplication k h2 h3
  | missingField h1 h2 =>
    obtain ⟨g, rfl, d, k⟩ := requiredIn_left S h1
    rw [trimNode_name]
    exact .missingField k (((R.fields g _ k).none_iff S.named d).1 h2)
  | wrongValue h1 h2 h3 h4 =>
    obtain ⟨g, rfl, d, k⟩ := requiredIn_left S h1
    obtain ⟨n, e, rfl⟩ := trim_get S.named d h2
    rw [trimNode_name]
    exact .wrongValue k e h3 fun k => h4 ((hasOneOf_trim _ _).2 k)
  | @plotSignal before after x h1 h2 h3 =>
    obtain ⟨_, before', y, after', k1, k2, k3, k4⟩ := scan_transfer (dataSignals_trim S)
      (fun _ _ _ hy hl hc => ⟨(signal_keep R S hy hl hc).1, (signal_keep R S hy hl hc).2.1⟩)
      h before x after h1 h2
    rw [k3.core.addr]
    exact .plotSignal k1 k2 (k4.1 h3)
  | plotMarks h1 h2 =>
    exact .plotMarks (fun k => h1 ((attributePlot_keep R S h).2 k))
      (by rwa [← (marksIn_trim S _).length])
  | noPlot h1 h2 h3 =>
    refine .noPlot (fun k => h1 ((attributePlot_keep R S h).2 k))
      (fun k => h2 ((signalPlot_keep S).2 k)) ?_
    simpa only [PlotRequired, hasClass_trim S] using h3

theorem fault_back (h : SignalsFollowed env f) {a : Option Str} {t : Str}
    (k : Fault env mgr mins f (contents env f) a t) :
    Fault env mgr mins (trim X f) (contents env (trim X f)) a t := by
  cases k with
  | objectName h1 h2 h3 h4 h5 =>
    rcases S.rel.down h1 with ⟨x, hx, hl⟩ | hE
    · rw [← hl.core.addr]
      exact .objectName hx (hl.node h2) (hl.core.classpath ▸ h3)
        (hl.core.classpath ▸ h4) (by rwa [hl.core.name])
    · exact absurd (hE.name _ h2) h5
  | memberName h1 h2 h3 h4 h5 h6 =>
    rcases S.rel.down h1 with ⟨x, hx, hl⟩ | hE
    · obtain ⟨p, hp, hlp, _⟩ := hl.parent (nexus_of_at h3) h4
      rw [← hl.core.addr]
      exact .memberName hx (hl.node h2) (hl.core.classpath ▸ h3) hp
        (fun k => h5 ((linked_trim hlp).1 k)) (by rwa [hl.core.name])
    · exact absurd (hE.name _ h2) h6
  | attrName h1 h2 h3 h4 =>
    rcases CarriesAttr.trim S h1 with ⟨x, hx, hl⟩ | hE
    · exact .attrName hx h2 (fun k => h3 ((linked_trim hl).1 k)) h4
    · exact absurd hE.2 h4
  | className h1 h2 h3 h4 =>
    rcases CarriesAttr.trim S h1 with ⟨x, hx, hl⟩ | hE
    · exact .className hx h2 h3 h4
    · exact (note_class hE.1 h2).elim
  | unusable h1 h2 h3 =>
    rcases CarriesAttr.trim S h1 with ⟨x, hx, hl⟩ | hE
    · exact .unusable hx h2 h3
    · exact (note_other hE.1 (by simp)).elim
  | target h1 h2 h3 =>
    rcases CarriesAttr.trim S h1 with ⟨x, hx, hl⟩ | hE
    · exact .target hx h2 fun k => h3 (targetOk_trim S.named k)
    · exact (note_other hE.1 (by simp)).elim
  | signalName h1 h2 h3 h4 =>
    rcases CarriesAttr.trim S h1 with ⟨x, hx, hl⟩ | hE
    · exact .signalName hx (by rwa [hl.core.obj, trimObj_isGroup]) h3 h4
    · exact (note_other hE.1 (by simp)).elim
  | @signal o a s v g h1 h2 h3 h4 h5 =>
    rcases CarriesAttr.trim S h1 with ⟨x, hx, hl⟩ | hE
    · refine .signal hx (hl.node h2) (by rwa [hl.core.obj, trimObj_isGroup]) h4 ?_
      rw [Bool.eq_false_iff]
      intro k
      have hd : Distinct g := by
        refine hl.core.distinct g ?_
        show o.obj.asGroup = some g
        rw [h2] at h3 ⊢
        cases g with
        | group => rfl
        | dataset => cases h3
        | datatype => cases h3
      rw [trim_contains S.named hd k] at h5
      cases h5
    · exact (note_other hE.1 (by simp)).elim
  | axisName h1 h2 h3 h4 =>
    rcases CarriesAttr.trim S h1 with ⟨x, hx, hl⟩ | hE
    · exact .axisName hx h2 h3 h4
    · exact (note_other hE.1 (by simp)).elim
  | axis h1 h2 h3 h4 h5 =>
    rcases CarriesAttr.trim S h1 with ⟨x, hx, hl⟩ | hE
    · obtain ⟨hg, d⟩ := hl.group h4
      refine .axis hx h2 h3 hg fun ⟨m, k⟩ => ?_
      obtain ⟨n, e, _⟩ := trim_get S.named d k
      exact h5 ⟨n, e⟩
    · exact (note_other hE.1 (by simp)).elim
  | @unknownClass it g c t h1 h2 h3 h4 h5 h6 =>
    rcases S.rel.down h1 with ⟨x, hx, hl⟩ | hE
    · rw [← trimNode_name (X := X) g]
      exact .unknownClass hx (hl.group h2).1 (fun k => h3 (hl.outside.1 k))
        (by rwa [groupClass_trim, hl.core.classpath]) h5 h6
    · exact absurd (hE.group _ h2) h3
  | @application it g c d h1 h2 h3 h4 h5 h6 =>
    rcases S.rel.down h1 with ⟨x, hx, hl⟩ | hE
    · rw [← trimNode_name (X := X) g]
      exact .application hx (hl.group h2).1 (fun k => h3 (hl.outside.1 k))
        (by rwa [groupClass_trim, hl.core.classpath]) h5 h6
    · exact absurd (hE.group _ h2) h3
  | @enumeration it g c k v d spec h1 h2 h3 h4 h5 h6 h7 h8 h9 =>
    rcases S.rel.down h1 with ⟨x, hx, hl⟩ | hE
    · rw [← trimNode_name (X := X) g]
      exact .enumeration hx (hl.group h2).1 (fun k => h3 (hl.outside.1 k))
        (by rwa [groupClass_trim, hl.core.classpath]) h5 (by rwa [trimNode_attrs]) h7 h8 h9
    · exact absurd (hE.group _ h2) h3
  | @pointer it g c k v d spec h1 h2 h3 h4 h5 h6 h7 h8 h9 =>
    rcases S.rel.down h1 with ⟨x, hx, hl⟩ | hE
    · obtain ⟨hg, dg⟩ := hl.group h2
      rw [← trimNode_name (X := X) g]
      refine .pointer hx hg (fun k => h3 (hl.outside.1 k))
        (by rwa [groupClass_trim, hl.core.classpath]) h5 (by rwa [trimNode_attrs]) h7
        (hl.core.classpath ▸ h8) ?_
      rintro ⟨s, k1, k2⟩
      exact h9 ⟨s, k1, trim_contains S.named dg k2⟩
    · exact absurd (hE.group _ h2) h3
  | @unknownDefinition g name h1 h2 =>
    rw [← trimNode_name (X := X) g]
    exact .unknownDefinition (declaredBy_keep R S h1).1 h2
  | @noApplication g name ad h1 h2 h3 =>
    rw [← trimNode_name (X := X) g]
    exact .noApplication (declaredBy_keep R S h1).1 h2 h3
  | @missingField g fld h1 h2 =>
    obtain ⟨k1, d⟩ := requiredIn_keep R S h1
    rw [← trimNode_name (X := X) g]
    exact .missingField k1 (((R.fields g _ h1).none_iff S.named d).2 h2)
  | @wrongValue g n fld h1 h2 h3 h4 =>
    obtain ⟨k1, d⟩ := requiredIn_keep R S h1
    rw [← trimNode_name (X := X) n]
    exact .wrongValue k1 ((R.fields g _ h1).found S.named d h2) h3
      fun k => h4 ((hasOneOf_trim _ _).1 k)
  | @plotSignal before after y h1 h2 h3 =>
    obtain ⟨_, before', x, after', k1, k2, k3, k4⟩ := scan_transfer
      (P := fun y x => TrimRel X x y) (dataSignals_trim S).flip
      (fun _ _ hy _ hl hc => ⟨signal_back R S hy hl hc,
        (signal_keep R S hy hl (signal_back R S hy hl hc)).2.1.symm⟩)
      (signals_keep R S h) before y after h1 h2
    rw [← k3.core.addr]
    exact .plotSignal k1 k2 (k4.1 h3)
  | plotMarks h1 h2 =>
    exact .plotMarks (fun k => h1 ((attributePlot_keep R S h).1 k))
      (by rwa [(marksIn_trim S _).length])
  | noPlot h1 h2 h3 =>
    refine .noPlot (fun k => h1 ((attributePlot_keep R S h).1 k))
      (fun k => h2 ((signalPlot_keep S).1 k)) ?_
    simpa only [PlotRequired, hasClass_trim S] using h3

/-! ## completion -/

theorem validatable_left (v : Validatable env mgr f) : Validatable env mgr (trim X f) := by
  refine ⟨fileReadable_left v.readable, ?_, ?_, ?_, ?_, signals_keep R S v.plot.1, fun h1 h2 => ?_⟩
  · intro x hx hc attrs ha ka hka
    obtain ⟨y, hy, hl⟩ := S.rel.up hx
    have k := v.names y hy (fun e => hc (hl.outside.2 e)) attrs (hl.attrs.symm.trans ha) ka hka
    have hd := hl.dataset
    have hg : (∃ n a ks, x.obj = .node (.group n a ks)) ↔
        ∃ n a ks, y.obj = .node (.group n a ks) := by
      rw [hl.core.obj]
      generalize y.obj = o
      cases o with
      | node n => cases n <;> simp [trimObj, trimNode]
      | file => simp [trimObj]
      | val => simp [trimObj]
      | none => simp [trimObj]
    refine ⟨k.text, fun e h => k.fieldSignal e (hd.1 h), fun e h => k.groupSignal e (hg.1 h),
      k.otherSignal, fun e => ?_⟩
    obtain ⟨names, k1, k2⟩ := k.axes e
    refine ⟨names, k1, k2.imp id fun ⟨⟨g, k3⟩, k4⟩ => ⟨⟨_, (hl.group k3).1⟩, k4⟩⟩
  · intro x hx hc attrs ha ka hka hcl
    obtain ⟨y, hy, hl⟩ := S.rel.up hx
    exact v.classes y hy (fun e => hc (hl.outside.2 e)) attrs (hl.attrs.symm.trans ha) ka hka hcl
  · intro x hx g hg hc
    obtain ⟨y, hy, hl⟩ := S.rel.up hx
    obtain ⟨g', hg', rfl, d⟩ := hl.group' hg
    have hc' : y.classpath ≠ s%"non-NeXus content" := fun e => hc (hl.outside.2 e)
    obtain ⟨k1, k2⟩ := v.groups y hy g' hg' hc'
    refine ⟨fun p hp => ?_, fun c d hcl hd => ?_⟩
    · obtain ⟨p', hp', hlp, _⟩ := hl.parent' hc' hp
      rw [hlp.core.classpath]
      exact k1 p' hp'
    · rw [groupClass_trim, hl.core.classpath] at hcl
      rw [trimNode_attrs, hl.core.classpath]
      exact k2 c d hcl hd
  · intro x hx hi
    obtain ⟨y, hy, hl⟩ := S.rel.up hx
    have hi' : IsDefinition y := by rw [IsDefinition] at hi ⊢; rwa [← hl.core.classpath]
    obtain ⟨p', g', hp', hg', name, hn, hf⟩ := v.definitions y hy hi'
    obtain ⟨p, hp, hlp, _⟩ := hl.parent (isDefinition_at hi').2 hp'
    obtain ⟨hg, d⟩ := hlp.group hg'
    have hd : DeclaredBy env f (contents env f) g' name := ⟨y, hy, hi', p', hp', hg', hn⟩
    refine ⟨p, _, hp, hg, name, ?_, fun ad e => ?_⟩
    · obtain ⟨n, a, dd, e1, e2⟩ := hn
      have := (R.definition g' name hd).found S.named d e1
      rw [trimNode] at this
      exact ⟨n, a, dd, this, e2⟩
    · obtain ⟨gname, entry, more, eg, hfs⟩ := hf ad e
      refine ⟨gname, entry, more, eg, fun fld hfl => ?_⟩
      exact (fieldCheckable_trim S.named d
        (R.fields g' fld ⟨name, ad, gname, entry, more, hd, e, eg, hfl⟩)).2 (hfs fld hfl)
  · exact v.plot.2 (fun k => h1 ((attributePlot_keep R S v.plot.1).2 k))
      fun k => h2 ((signalPlot_keep S).2 k)

theorem validatable_back (hx : OnlyExtras env mgr X f) (v : Validatable env mgr (trim X f)) :
    Validatable env mgr f := by
  have hsig : SignalsFollowed env f := signals_back R S v.plot.1
  refine ⟨fileReadable_trim hx v.readable, ?_, ?_, ?_, ?_, hsig, fun h1 h2 => ?_⟩
  · intro y hy hc attrs ha ka hka
    rcases S.rel.down hy with ⟨x, hx, hl⟩ | hE
    · have k := v.names x hx (fun e => hc (hl.outside.1 e)) attrs (hl.attrs.trans ha) ka hka
      have hd := hl.dataset
      have hg : (∃ n a ks, x.obj = .node (.group n a ks)) ↔
          ∃ n a ks, y.obj = .node (.group n a ks) := by
        rw [hl.core.obj]
        generalize y.obj = o
        cases o with
        | node n => cases n <;> simp [trimObj, trimNode]
        | file => simp [trimObj]
        | val => simp [trimObj]
        | none => simp [trimObj]
      refine ⟨k.text, fun e h => k.fieldSignal e (hd.2 h), fun e h => k.groupSignal e (hg.2 h),
        k.otherSignal, fun e => ?_⟩
      obtain ⟨names, k1, k2⟩ := k.axes e
      refine ⟨names, k1, k2.imp id fun ⟨⟨g, k3⟩, k4⟩ => ⟨?_, k4⟩⟩
      obtain ⟨g', k5, _⟩ := hl.group' k3
      exact ⟨g', k5⟩
    · have hn := (hE.attrs hc attrs ha ka hka).1
      refine ⟨fun k => ?_, fun e => ?_, fun e => ?_, fun e => ?_, fun e => ?_⟩
      · rcases k with e | e | e
        · exact (note_other hn (by simp [e])).elim
        · exact (note_other hn (by simp [e])).elim
        · exact absurd (e.subset (by simp)) hn.1
      all_goals exact (note_other hn (by simp [e])).elim
  · intro y hy hc attrs ha ka hka hcl
    rcases S.rel.down hy with ⟨x, hx, hl⟩ | hE
    · exact v.classes x hx (fun e => hc (hl.outside.1 e)) attrs (hl.attrs.trans ha) ka hka hcl
    · exact (note_class (hE.attrs hc attrs ha ka hka).1 hcl).elim
  · intro y hy g hg hc
    rcases S.rel.down hy with ⟨x, hx, hl⟩ | hE
    · obtain ⟨k1, k2⟩ := v.groups x hx _ (hl.group hg).1 fun e => hc (hl.outside.1 e)
      refine ⟨fun p hp => ?_, fun c d hcl hd => ?_⟩
      · obtain ⟨p', hp', hlp, _⟩ := hl.parent hc hp
        rw [← hlp.core.classpath]
        exact k1 p' hp'
      · have := k2 c d (by rwa [groupClass_trim, hl.core.classpath]) hd
        rwa [trimNode_attrs, hl.core.classpath] at this
    · exact absurd (hE.group g hg) hc
  · intro y hy hi
    rcases S.rel.down hy with ⟨x, hxm, hl⟩ | hE
    · have hi' : IsDefinition x := by rw [IsDefinition] at hi ⊢; rwa [hl.core.classpath]
      obtain ⟨p, g, hp, hg, name, hn, hf⟩ := v.definitions x hxm hi'
      obtain ⟨p', hp', hlp, _⟩ := hl.parent' (isDefinition_at hi).2 hp
      obtain ⟨g', hg', rfl, d⟩ := hlp.group' hg
      have hn' := declares_trim S.named d hn
      have hd : DeclaredBy env f (contents env f) g' name := ⟨y, hy, hi, p', hp', hg', hn'⟩
      refine ⟨p', g', hp', hg', name, hn', fun ad e => ?_⟩
      obtain ⟨gname, entry, more, eg, hfs⟩ := hf ad e
      refine ⟨gname, entry, more, eg, fun fld hfl => ?_⟩
      exact (fieldCheckable_trim S.named d
        (R.fields g' fld ⟨name, ad, gname, entry, more, hd, e, eg, hfl⟩)).1 (hfs fld hfl)
    · exact absurd hi hE.definition
  · exact v.plot.2 (fun k => h1 ((attributePlot_keep R S hsig).1 k))
      fun k => h2 ((signalPlot_keep S).1 k)

end

/-! ## the whole validation -/

/-- The classes of the groups of a file do not end with a slash. -/
theorem noSlash_of_file (h : ∀ it ∈ contents env f, ∀ g, it.obj.asGroup = some g →
    ∀ c, nxClassOf env g.attrs = some c → ¬ s%"/" <:+ c) : NoSlash env (contents env f) :=
  fun it hm g hg _ _ c hc => h it hm g hg c hc

theorem trimFile_of (hw : WellNamedFile f)
    (hsl : ∀ it ∈ contents env f, ∀ g, it.obj.asGroup = some g →
      ∀ c, nxClassOf env g.attrs = some c → ¬ s%"/" <:+ c)
    (hx : OnlyExtras env mgr X f) (h : FileReadable env f) :
    TrimFile env mgr X f (contents env (trim X f)) (contents env f) := by
  refine ⟨contents_trim hw hx (noSlash_left (noSlash_of_file hsl)), ?_, hw⟩
  have hc := (catalog_completes_iff hw).2 h
  rw [← catalog_contents hw hc]
  exact catalog_addresses_nodup_partial hc hw

/-- **C135.** Whether a file has errors or not: where no reference leads to additional content, the
file is validated to the end if and only if it is so without additional content. -/
theorem extras_completion (hw : WellNamedFile f)
    (hsl : ∀ it ∈ contents env f, ∀ g, it.obj.asGroup = some g →
      ∀ c, nxClassOf env g.attrs = some c → ¬ s%"/" <:+ c)
    (hx : OnlyExtras env mgr X f) (hr : ReferencesKept env mgr X f) :
    (validateOpen env mgr mins (trim X f)).res = .ok () ↔
      (validateOpen env mgr mins f).res = .ok () := by
  rw [validation_completes_iff (wellNamedFile_trim hw), validation_completes_iff hw]
  exact ⟨fun v => validatable_back hr (trimFile_of hw hsl hx (fileReadable_trim hx v.readable)) hx v,
    fun v => validatable_left hr (trimFile_of hw hsl hx v.readable) v⟩

/-- **C135.** … and then the same objects and attributes have an ERROR in the same tests. -/
theorem extras_errors (hdig : env.isdigit s%"1" = true) (hw : WellNamedFile f)
    (hnd : ∀ d, Dict.get? mgr.classes s%"NXentry" = some d → (Dict.keys d.groups).Nodup)
    (hsl : ∀ it ∈ contents env f, ∀ g, it.obj.asGroup = some g →
      ∀ c, nxClassOf env g.attrs = some c → ¬ s%"/" <:+ c)
    (hx : OnlyExtras env mgr X f) (hr : ReferencesKept env mgr X f)
    (h : (validateOpen env mgr mins f).res = .ok ()) (a : Option Str) (t : Str) :
    (∃ x ∈ findings (validateOpen env mgr mins (trim X f)).log,
      x.addr = a ∧ x.test = t ∧ x.status = .error) ↔
    ∃ x ∈ findings (validateOpen env mgr mins f).log,
      x.addr = a ∧ x.test = t ∧ x.status = .error := by
  have v := (validation_completes_iff hw).1 h
  have S := trimFile_of hw hsl hx v.readable
  rw [error_iff hdig (wellNamedFile_trim hw) hnd ((extras_completion hw hsl hx hr).2 h),
    error_iff hdig hw hnd h]
  exact ⟨fault_left hr S v.plot.1, fault_back hr S v.plot.1⟩

end Punx

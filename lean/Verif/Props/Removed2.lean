import Verif.Props.Removed

/-!
# C135: additional content can be removed
-/

namespace Punx
open Spec

variable {env : Env} {mgr : Manager} {mins : Dict (Str × Str) Int} {X : Node → Bool} {f : H5File}

theorem Spec.StillThere.found (w : WellNamedFile f) {g : Node} (d : Distinct g) {p : Str} {n : Node}
    (h : StillThere X f g p) (e : h5get f g p = .ok (some n)) :
    h5get (trim X f) (trimNode X g) p = .ok (some (trimNode X n)) := by
  obtain ⟨m, h1⟩ := h.object n e
  obtain ⟨n', e', rfl⟩ := trim_get w d h1
  rw [e] at e'
  cases e'
  exact h1

section
variable (h : Accepted env mgr mins f) (R : ReferencesKept env mgr X f)
  (S : TrimFile env mgr X f (contents env (trim X f)) (contents env f))
include h R S

/-! ## signals -/

/-- The signals of the file can be followed without additional content. -/
theorem Accepted.signal_left {x y : Item} (hy : y ∈ dataSignals (contents env f))
    (hl : TrimRel X x y) :
    ¬ SignalMissing env (trim X f) (contents env (trim X f)) x ∧
    SignalCheckable env (trim X f) (contents env (trim X f)) x ∧
    ((∃ t, PlotField env f (contents env f) y t) →
      ∃ t, PlotField env (trim X f) (contents env (trim X f)) x t) := by
  have hno : ∀ x ∈ dataSignals (contents env f), ¬ SignalMissing env f (contents env f) x := by
    intro x hx hm
    classical
    obtain ⟨before, y, after, e, h1, h2⟩ : ∃ before y after,
        dataSignals (contents env f) = before ++ y :: after ∧
        SignalMissing env f (contents env f) y ∧
        ∀ i ∈ before, ¬ SignalMissing env f (contents env f) i := by
      generalize dataSignals (contents env f) = l at hx
      induction l with
      | nil => cases hx
      | cons z l ih =>
        by_cases hz : SignalMissing env f (contents env f) z
        · exact ⟨[], z, l, rfl, hz, by simp⟩
        · rcases List.mem_cons.1 hx with rfl | hx
          · exact absurd hm hz
          · obtain ⟨before, y, after, e, h1, h2⟩ := ih hx
            refine ⟨z :: before, y, after, by rw [e]; rfl, h1, fun i hi => ?_⟩
            rcases List.mem_cons.1 hi with rfl | hi
            · exact hz
            · exact h2 i hi
    exact h.clean _ _ (.plotSignal e h2 h1)
  have hc : SignalCheckable env f (contents env f) y := by
    obtain ⟨before, after, e⟩ := List.append_of_mem hy
    exact h.valid.plot.1 before y after e fun i hi => hno i (by rw [e]; simp [hi])
  obtain ⟨D', E', R', t, h1, h2, h3, h4, h5, h6⟩ := hc
  have hp : PointsAt env f D' s%"signal" t := by
    by_contra k
    exact hno y hy ⟨D', E', R', t, h1, h5, k⟩
  obtain ⟨_, g', hg', hct⟩ := hp
  obtain ⟨k1, k2, k3, k4⟩ := R.plot y hy D' E' R' t g' h1 h5 hg'
  -- the groups
  have hgr : ∃ D E R, InGroups (contents env (trim X f)) x D E R ∧ TrimRel X D D' ∧
      TrimRel X E E' ∧ TrimRel X R R' := by
    obtain ⟨r, e, d, rest, m1, m2, m3, m4, m5, m6, m7⟩ := h1
    obtain ⟨_, a5⟩ := (itemAt_iff S.once).1 m5
    obtain ⟨_, a6⟩ := (itemAt_iff S.once).1 m6
    obtain ⟨_, a7⟩ := (itemAt_iff S.once).1 m7
    rw [a5] at k2
    rw [a6] at k3
    obtain ⟨D, e5, lD⟩ := itemAt_left S m5 k2
    obtain ⟨E, e6, lE⟩ := itemAt_left S m6 k3
    obtain ⟨R, e7, lR⟩ := itemAt_left S m7 fun _ => ⟨rootOf (trim X f), by rw [contents]; exact List.mem_cons_self .., rfl⟩
    exact ⟨D, E, R, ⟨r, e, d, rest, hl.core.addr.trans m1, m2, m3, m4, e5, e6, e7⟩, lD, lE, lR⟩
  obtain ⟨D, E, R, g1, lD, lE, lR⟩ := hgr
  have hptr : ∀ {i i' : Item} {k : Str}, TrimRel X i i' → Pointer env i' k → Pointer env i k := by
    rintro i i' k l ⟨attrs, p1, p2⟩
    refine ⟨attrs, l.attrs.trans p1, fun v hv => ⟨(p2 v hv).1, ?_⟩⟩
    obtain ⟨g, hg⟩ := (p2 v hv).2
    exact ⟨_, (l.group hg).1⟩
  have hn := (names_trim lD).2 h5
  have hpt : PointsAt env (trim X f) D s%"signal" t := ⟨hn, _, (lD.group hg').1, k1.link hct⟩
  obtain ⟨T', hT'⟩ := h6 ⟨h5, g', hg', hct⟩
  obtain ⟨T, hT, lT⟩ := itemAt_left S hT' k4
  refine ⟨?_, ⟨D, E, R, t, g1, hptr lR h2, hptr lE h3, hptr lD h4, hn, fun _ => ⟨T, hT⟩⟩, ?_⟩
  · rintro ⟨D2, E2, R2, t2, m1, m2, m3⟩
    obtain ⟨rfl, _, _⟩ := inGroups_unique g1 m1
    rw [names_unique m2 hn] at m3
    exact m3 hpt
  · rintro ⟨t2, D2, E2, R2, T2, n, a, v, m1, m2, m3, m4⟩
    obtain ⟨rfl, _, _⟩ := inGroups_unique h1 m1
    have := names_unique m2.1 h5
    subst this
    rw [hT'] at m3
    cases m3
    obtain ⟨n', a', v', e⟩ := lT.dataset.2 ⟨n, a, v, m4⟩
    exact ⟨t2, D, E, R, T, n', a', v', g1, hpt, hT, e⟩

theorem Accepted.attributePlot_left (ha : ∃ a, AttributePlot env f (contents env f) a) :
    ∃ a, AttributePlot env (trim X f) (contents env (trim X f)) a := by
  rw [attributePlot_iff] at ha ⊢
  obtain ⟨_, y, hy, ht⟩ := ha
  constructor
  · rintro ⟨x, hx, hm⟩
    obtain ⟨y, hy, hl⟩ := (PermBy.of_forall₂ (dataSignals_trim S)).mem hx
    exact (h.signal_left R S hy hl).1 hm
  · obtain ⟨x, hx, hl⟩ := (PermBy.of_forall₂ (dataSignals_trim S).flip).mem hy
    exact ⟨x, hx, (h.signal_left R S hy hl).2.2 ht⟩

omit h R in
theorem signalPlot_left (hs : ∃ a, SignalPlot env (contents env f) a) :
    ∃ a, SignalPlot env (contents env (trim X f)) a := by
  obtain ⟨a, before, g, after, it, d, h1, h2, _⟩ := hs
  have hsym : PermBy (fun y x => TrimMark env X x y) (marks env (contents env f))
      (marks env (contents env (trim X f))) :=
    (marks_trim S).symm (S := fun y x => TrimMark env X x y) fun _ _ h => h
  refine (signalPlot_exists ?_).2 ⟨g, ?_, ?_⟩
  · intro x hx d hd
    obtain ⟨y, _, hl, hk⟩ := (marks_trim S).mem hx
    obtain ⟨d', hd', hld, _⟩ := hl.parent' (nexus_of_mark hk) hd
    obtain ⟨_, d'', e, n, a, v, ho⟩ := hk.1
    rw [hd'] at e
    cases e
    exact ⟨_, hld.core.addr.trans (hld.core.there _ ho)⟩
  · have : g ∈ markedGroups env (contents env f) := by rw [h1]; simp
    rw [mem_markedGroups] at this ⊢
    obtain ⟨y, hy, rfl⟩ := this
    obtain ⟨x, hx, hl, hk⟩ := hsym.mem hy
    exact ⟨x, hx, groupOf_trim hl (nexus_of_mark hk)⟩
  · rw [(marksIn_trim S g).length, h2]
    rfl

/-! ## definitions -/

omit h R in
theorem declaredBy_left {g : Node} {name : Str}
    (hd : DeclaredBy env (trim X f) (contents env (trim X f)) g name) :
    ∃ g', g = trimNode X g' ∧ Distinct g' ∧ DeclaredBy env f (contents env f) g' name := by
  obtain ⟨x, hm, hi, p, hp, hg, hn⟩ := hd
  obtain ⟨y, hy, hl⟩ := S.rel.up hm
  have hi' : IsDefinition y := by rw [IsDefinition] at hi ⊢; rwa [← hl.core.classpath]
  obtain ⟨p', hp', hlp, _⟩ := hl.parent' (isDefinition_at hi').2 hp
  obtain ⟨g', hg', rfl, d⟩ := hlp.group' hg
  exact ⟨g', rfl, d, y, hy, hi', p', hp', hg', declares_trim S.named d hn⟩

omit h R in
theorem requiredIn_left {g : Node} {fld : Str × FieldSpec}
    (hr : RequiredIn env mgr (trim X f) (contents env (trim X f)) g fld) :
    ∃ g', g = trimNode X g' ∧ Distinct g' ∧ RequiredIn env mgr f (contents env f) g' fld := by
  obtain ⟨name, ad, gname, entry, more, h1, h2⟩ := hr
  obtain ⟨g', e, d, k⟩ := declaredBy_left S h1
  exact ⟨g', e, d, name, ad, gname, entry, more, k, h2⟩

theorem Accepted.noFaultLeft (a : Option Str) (t : Str) :
    ¬ Fault env mgr mins (trim X f) (contents env (trim X f)) a t := by
  intro k
  cases k with
  | objectName h1 h2 h3 h4 h5 =>
    obtain ⟨y, hy, hl⟩ := S.rel.up h1
    obtain ⟨n, e, _⟩ := hl.node' h2
    rw [hl.core.classpath] at h3 h4
    rw [hl.core.name] at h5
    exact h.clean _ _ (.objectName hy e h3 h4 h5)
  | memberName h1 h2 h3 h4 h5 h6 =>
    obtain ⟨y, hy, hl⟩ := S.rel.up h1
    obtain ⟨n, e, _⟩ := hl.node' h2
    rw [hl.core.classpath] at h3
    rw [hl.core.name] at h6
    obtain ⟨p, hp, hlp, _⟩ := hl.parent' (nexus_of_at h3) h4
    exact h.clean _ _ (.memberName hy e h3 hp (fun k => h5 ((linked_trim hlp).2 k)) h6)
  | attrName h1 h2 h3 h4 =>
    obtain ⟨y, hy, hl⟩ := CarriesAttr.left S h1
    exact h.clean _ _ (.attrName hy h2 (fun k => h3 ((linked_trim hl).2 k)) h4)
  | className h1 h2 h3 h4 =>
    obtain ⟨y, hy, hl⟩ := CarriesAttr.left S h1
    exact h.clean _ _ (.className hy h2 h3 h4)
  | unusable h1 h2 h3 =>
    obtain ⟨y, hy, hl⟩ := CarriesAttr.left S h1
    exact h.clean _ _ (.unusable hy h2 h3)
  | target h1 h2 h3 =>
    obtain ⟨y, hy, hl⟩ := CarriesAttr.left S h1
    exact h.clean _ _ (.target hy h2 fun k => h3 (R.targetOk hy h2 k))
  | signalName h1 h2 h3 h4 =>
    obtain ⟨y, hy, hl⟩ := CarriesAttr.left S h1
    rw [hl.core.obj, trimObj_isGroup] at h2
    exact h.clean _ _ (.signalName hy h2 h3 h4)
  | signal h1 h2 h3 h4 h5 =>
    obtain ⟨y, hy, hl⟩ := CarriesAttr.left S h1
    obtain ⟨n, e, rfl⟩ := hl.node' h2
    rw [hl.core.obj, trimObj_isGroup] at h3
    have hg : y.obj.asGroup = some n := by
      rw [e] at h3 ⊢
      cases n with
      | group => rfl
      | dataset => cases h3
      | datatype => cases h3
    obtain ⟨attrs, ha, hka⟩ := hy.attr
    rw [← group_attrs hg ha] at hka
    have hst := R.pointer y hy.mem hy.nexus n hg _ _ _ hka (.inl rfl) h4
    refine h.clean _ _ (.signal hy e h3 h4 ?_)
    rw [Bool.eq_false_iff]
    intro k
    rw [hst.link k] at h5
    cases h5
  | axisName h1 h2 h3 h4 =>
    obtain ⟨y, hy, hl⟩ := CarriesAttr.left S h1
    exact h.clean _ _ (.axisName hy h2 h3 h4)
  | axis h1 h2 h3 h4 h5 =>
    obtain ⟨y, hy, hl⟩ := CarriesAttr.left S h1
    obtain ⟨g, hg, rfl, d⟩ := hl.group' h4
    obtain ⟨attrs, ha, hka⟩ := hy.attr
    rw [← group_attrs hg ha] at hka
    have hst := R.axes y hy.mem hy.nexus g hg _ _ _ hka h2 h3
    refine h.clean _ _ (.axis hy h2 h3 hg fun ⟨m, k⟩ => h5 ?_)
    exact hst.object m k
  | unknownClass h1 h2 h3 h4 h5 h6 =>
    obtain ⟨y, hy, hl⟩ := S.rel.up h1
    obtain ⟨g, hg, rfl, d⟩ := hl.group' h2
    rw [groupClass_trim, hl.core.classpath] at h4
    exact h.clean _ _ (.unknownClass hy hg (fun k => h3 (hl.outside.2 k)) h4 h5 h6)
  | application h1 h2 h3 h4 h5 h6 =>
    obtain ⟨y, hy, hl⟩ := S.rel.up h1
    obtain ⟨g, hg, rfl, d⟩ := hl.group' h2
    rw [groupClass_trim, hl.core.classpath] at h4
    exact h.clean _ _ (.application hy hg (fun k => h3 (hl.outside.2 k)) h4 h5 h6)
  | enumeration h1 h2 h3 h4 h5 h6 h7 h8 h9 =>
    obtain ⟨y, hy, hl⟩ := S.rel.up h1
    obtain ⟨g, hg, rfl, d⟩ := hl.group' h2
    rw [groupClass_trim, hl.core.classpath] at h4
    rw [trimNode_attrs] at h6
    exact h.clean _ _ (.enumeration hy hg (fun k => h3 (hl.outside.2 k)) h4 h5 h6 h7 h8 h9)
  | pointer h1 h2 h3 h4 h5 h6 h7 h8 h9 =>
    obtain ⟨y, hy, hl⟩ := S.rel.up h1
    obtain ⟨g, hg, rfl, d⟩ := hl.group' h2
    rw [groupClass_trim, hl.core.classpath] at h4
    rw [trimNode_attrs] at h6
    rw [hl.core.classpath] at h8
    have hc : y.classpath ≠ s%"non-NeXus content" := fun k => h3 (hl.outside.2 k)
    refine h.clean _ _ (.pointer hy hg hc h4 h5 h6 h7 h8 ?_)
    rintro ⟨s, k1, k2⟩
    exact h9 ⟨s, k1, (R.pointer y hy hc g hg _ _ _ h6 (h8.imp id (·.1)) k1).link k2⟩
  | unknownDefinition h1 h2 =>
    obtain ⟨g, rfl, d, k⟩ := declaredBy_left S h1
    exact h.clean _ _ (.unknownDefinition k h2)
  | noApplication h1 h2 h3 =>
    obtain ⟨g, rfl, d, k⟩ := declaredBy_left S h1
    exact h.clean _ _ (.noApplication k h2 h3)
  | missingField h1 h2 =>
    obtain ⟨g, rfl, d, k⟩ := requiredIn_left S h1
    obtain ⟨n, k2, _⟩ := h.field k
    rw [(R.fields g _ k).found S.named d k2] at h2
    cases h2
  | wrongValue h1 h2 h3 h4 =>
    obtain ⟨g, rfl, d, k⟩ := requiredIn_left S h1
    obtain ⟨n, k2, _, k3⟩ := h.field k
    rw [(R.fields g _ k).found S.named d k2] at h2
    cases h2
    exact h4 ((hasOneOf_trim _ _).2 (k3 h3).2.2)
  | plotSignal h1 h2 h3 =>
    obtain ⟨y, hy, hl⟩ := (PermBy.of_forall₂ (dataSignals_trim S)).mem
      (show _ ∈ dataSignals _ by rw [h1]; exact List.mem_append_right _ (List.mem_cons_self ..))
    exact (h.signal_left R S hy hl).1 h3
  | plotMarks h1 h2 =>
    exact h.clean _ _ (.plotMarks (fun k => h1 (h.attributePlot_left R S k))
      (by rwa [← (marksIn_trim S _).length]))
  | noPlot h1 h2 h3 =>
    refine h.clean _ _ (.noPlot (fun k => h1 (h.attributePlot_left R S k))
      (fun k => h2 (signalPlot_left S k)) ?_)
    simpa only [PlotRequired, hasClass_trim S] using h3

theorem Accepted.validatableLeft : Validatable env mgr (trim X f) := by
  have v := h.valid
  refine ⟨fileReadable_left v.readable, ?_, ?_, ?_, ?_, ?_⟩
  · intro x hx hc attrs ha ka hka
    obtain ⟨y, hy, hl⟩ := S.rel.up hx
    have k := v.names y hy (fun e => hc (hl.outside.2 e)) attrs (hl.attrs.symm.trans ha) ka hka
    have hd := hl.dataset
    have hg : (∃ n a ks, x.obj = .node (.group n a ks)) ↔
        ∃ n a ks, y.obj = .node (.group n a ks) := by
      rw [hl.core.obj]
      generalize y.obj = o
      cases o with
      | node n => cases n <;> simp [trimObj, trimNode]
      | file => simp [trimObj]
      | val => simp [trimObj]
      | none => simp [trimObj]
    refine ⟨k.text, fun e h => k.fieldSignal e (hd.1 h), fun e h => k.groupSignal e (hg.1 h),
      k.otherSignal, fun e => ?_⟩
    obtain ⟨names, k1, k2⟩ := k.axes e
    refine ⟨names, k1, k2.imp id fun ⟨⟨g, k3⟩, k4⟩ => ⟨⟨_, (hl.group k3).1⟩, k4⟩⟩
  · intro x hx hc attrs ha ka hka hcl
    obtain ⟨y, hy, hl⟩ := S.rel.up hx
    exact v.classes y hy (fun e => hc (hl.outside.2 e)) attrs (hl.attrs.symm.trans ha) ka hka hcl
  · intro x hx g hg hc
    obtain ⟨y, hy, hl⟩ := S.rel.up hx
    obtain ⟨g', hg', rfl, d⟩ := hl.group' hg
    have hc' : y.classpath ≠ s%"non-NeXus content" := fun e => hc (hl.outside.2 e)
    obtain ⟨k1, k2⟩ := v.groups y hy g' hg' hc'
    refine ⟨fun p hp => ?_, fun c d hcl hd => ?_⟩
    · obtain ⟨p', hp', hlp, _⟩ := hl.parent' hc' hp
      rw [hlp.core.classpath]
      exact k1 p' hp'
    · rw [groupClass_trim, hl.core.classpath] at hcl
      rw [trimNode_attrs, hl.core.classpath]
      exact k2 c d hcl hd
  · intro x hx hi
    obtain ⟨y, hy, hl⟩ := S.rel.up hx
    have hi' : IsDefinition y := by rw [IsDefinition] at hi ⊢; rwa [← hl.core.classpath]
    obtain ⟨p', g', hp', hg', name, hn, _⟩ := v.definitions y hy hi'
    obtain ⟨p, hp, hlp, _⟩ := hl.parent (isDefinition_at hi').2 hp'
    obtain ⟨hg, d⟩ := hlp.group hg'
    have hd : DeclaredBy env f (contents env f) g' name := ⟨y, hy, hi', p', hp', hg', hn⟩
    refine ⟨p, _, hp, hg, name, ?_, fun ad e => ?_⟩
    · obtain ⟨n, a, dd, e1, e2⟩ := hn
      have := (R.definition g' name hd).found S.named d e1
      rw [trimNode] at this
      exact ⟨n, a, dd, this, e2⟩
    · obtain ⟨gname, entry, more, eg⟩ := h.entry hd e
      refine ⟨gname, entry, more, eg, fun fld hf => ?_⟩
      have hr : RequiredIn env mgr f (contents env f) g' fld :=
        ⟨name, ad, gname, entry, more, hd, e, eg, hf⟩
      obtain ⟨n, k1, k2, k3⟩ := h.field hr
      refine .inl ⟨_, (R.fields g' fld hr).found S.named d k1, ?_, fun he => ?_⟩
      · have : ItemReadable env (trimNode X n) ↔ ItemReadable env n := by
          cases n <;> simp only [trimNode, ItemReadable, Node.name, NodeClassOk, NodeTargetOk,
            Node.attrs]
        exact this.2 k2
      · obtain ⟨⟨m', a, dd, rfl, s, k4⟩, k5, k6⟩ := k3 he
        exact ⟨⟨m', a, dd, by rw [trimNode], s, k4⟩, k5, fun _ => (hasOneOf_trim _ _).2 k6⟩
  · refine ⟨fun before x after e _ => ?_, fun h1 h2 => ?_⟩
    · obtain ⟨y, hy, hl⟩ := (PermBy.of_forall₂ (dataSignals_trim S)).mem (x := x) (by rw [e]; simp)
      exact (h.signal_left R S hy hl).2.1
    · exact v.plot.2 (fun k => h1 (h.attributePlot_left R S k)) fun k => h2 (signalPlot_left S k)
end

/-! ## the whole validation -/

/-- **C135.** Additional content can be removed: if a file is validated to the end without an ERROR,
then so it is without additional content, unless a reference loses its object. -/
theorem extras_removable (hdig : env.isdigit s%"1" = true) (hw : WellNamedFile f)
    (hnd : ∀ d, Dict.get? mgr.classes s%"NXentry" = some d → (Dict.keys d.groups).Nodup)
    (hcls : ∀ c d, Dict.get? mgr.classes c = some d → ¬ s%"/" <:+ c)
    (hx : OnlyExtras env mgr X f) (hr : ReferencesKept env mgr X f)
    (h : (validateOpen env mgr mins f).res = .ok ())
    (hno : ∀ x ∈ findings (validateOpen env mgr mins f).log, x.status ≠ .error) :
    (validateOpen env mgr mins (trim X f)).res = .ok () ∧
    ∀ x ∈ findings (validateOpen env mgr mins (trim X f)).log, x.status ≠ .error := by
  have hw' : WellNamedFile (trim X f) := wellNamedFile_trim hw
  have ha : Accepted env mgr mins f :=
    ⟨(validation_completes_iff hw).1 h, (no_error_iff hdig hw hnd h).1 hno⟩
  have S : TrimFile env mgr X f (contents env (trim X f)) (contents env f) := by
    refine ⟨contents_trim hw hx (noSlash_left (ha.noSlash hcls)), ?_, hw⟩
    have hc := (catalog_completes_iff hw).2 ha.valid.readable
    rw [← catalog_contents hw hc]
    exact catalog_addresses_nodup_partial hc hw
  have h' := (validation_completes_iff (mins := mins) hw').2 (ha.validatableLeft hr S)
  exact ⟨h', (no_error_iff hdig hw' hnd h').2 (ha.noFaultLeft hr S)⟩

/-- **C135.** Where no reference of the file leads to additional content, the file is accepted if
and only if it is accepted without additional content. -/
theorem extras_irrelevant (hdig : env.isdigit s%"1" = true) (hw : WellNamedFile f)
    (hnd : ∀ d, Dict.get? mgr.classes s%"NXentry" = some d → (Dict.keys d.groups).Nodup)
    (hcls : ∀ c d, Dict.get? mgr.classes c = some d → ¬ s%"/" <:+ c)
    (hx : OnlyExtras env mgr X f) (hr : ReferencesKept env mgr X f) :
    ((validateOpen env mgr mins f).res = .ok () ∧
      ∀ x ∈ findings (validateOpen env mgr mins f).log, x.status ≠ .error) ↔
    ((validateOpen env mgr mins (trim X f)).res = .ok () ∧
      ∀ x ∈ findings (validateOpen env mgr mins (trim X f)).log, x.status ≠ .error) :=
  ⟨fun h => extras_removable hdig hw hnd hcls hx hr h.1 h.2,
    fun h => extras_accepted hdig hw hnd hcls hx h.1 h.2⟩

end Punx

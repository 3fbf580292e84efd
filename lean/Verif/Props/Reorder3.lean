import Verif.Props.Reorder2

/-!
# C107: the order of members and attributes, lines on the default plot
-/

namespace Punx
open Spec

variable {env : Env} {mgr : Manager} {mins : Dict (Str × Str) Int} {f f' : H5File}
  {items items' : List Item}

/-! ## items by address -/

/-- `LikeFile`, and no address occurs twice. -/
structure LikeAddr (f f' : H5File) (is is' : List Item) : Prop extends LikeFile f f' is is' where
  once : (is.filterMap (·.addr)).Nodup

theorem PermBy.addresses (h : PermBy LikeItem items items') :
    (items.filterMap (·.addr)).Perm (items'.filterMap (·.addr)) := by
  have e : ∀ l : List Item, l.filterMap (·.addr) = (l.map (·.addr)).filterMap id := by
    intro l
    rw [List.filterMap_map]
    rfl
  rw [e, e]
  exact (h.map fun _ _ h => h.core.addr).filterMap id

theorem LikeAddr.symm (S : LikeAddr f f' items items') : LikeAddr f' f items' items :=
  ⟨S.toLikeFile.symm, S.items.addresses.nodup_iff.1 S.once⟩

theorem itemAt_iff (h : (items.filterMap (·.addr)).Nodup) {a : Str} {it : Item} :
    itemAt items a = some it ↔ it ∈ items ∧ it.addr = some a := by
  rw [itemAt]
  constructor
  · intro e
    have := List.mem_filter.1 (List.mem_of_getLast? e)
    exact ⟨this.1, of_decide_eq_true this.2⟩
  · rintro ⟨hm, ha⟩
    rw [filter_of_nodup_addr h hm ha]
    rfl

theorem itemAt_like (S : LikeAddr f f' items items') {a : Str} {it : Item}
    (h : itemAt items a = some it) : ∃ it', itemAt items' a = some it' ∧ LikeItem it it' := by
  obtain ⟨hm, ha⟩ := (itemAt_iff S.once).1 h
  obtain ⟨it', hm', hl⟩ := S.items.mem hm
  exact ⟨it', (itemAt_iff S.symm.once).2 ⟨hm', hl.core.addr ▸ ha⟩, hl⟩

theorem InGroups.like (S : LikeAddr f f' items items') {it it' D E R : Item} (hi : LikeItem it it')
    (h : InGroups items it D E R) : ∃ D' E' R', InGroups items' it' D' E' R' ∧
      LikeItem D D' ∧ LikeItem E E' ∧ LikeItem R R' := by
  obtain ⟨r, e, d, rest, h1, h2, h3, h4, hD, hE, hR⟩ := h
  obtain ⟨D', hD', lD⟩ := itemAt_like S hD
  obtain ⟨E', hE', lE⟩ := itemAt_like S hE
  obtain ⟨R', hR', lR⟩ := itemAt_like S hR
  exact ⟨D', E', R', ⟨r, e, d, rest, hi.core.addr ▸ h1, h2, h3, h4, hD', hE', hR'⟩, lD, lE, lR⟩

theorem Names.like {i i' : Item} (h : LikeItem i i') {k t : Str} (hn : Names env i k t) :
    Names env i' k t := by
  obtain ⟨n, attrs, v, s, h1, h2, h3, h4, h5⟩ := hn
  obtain ⟨attrs', k1, _, k3⟩ := h.core.obj.attrs? h2
  exact ⟨n, attrs', v, s, h.core.obj.name? ▸ h1, k1, k3 k ▸ h3, h4, h5⟩

theorem PointsAt.like (hf : Like f.root f'.root) {i i' : Item} (h : LikeItem i i') {k t : Str}
    (hp : PointsAt env f i k t) : PointsAt env f' i' k t := by
  obtain ⟨h1, g, h2, h3⟩ := hp
  obtain ⟨g', k2, hg⟩ := h.core.obj.asGroup h2
  exact ⟨Names.like h h1, g', k2, by rwa [← h5contains_like hf hg]⟩

theorem SignalMissing.like (S : LikeAddr f f' items items') {it it' : Item} (hi : LikeItem it it')
    (h : SignalMissing env f items it) : SignalMissing env f' items' it' := by
  obtain ⟨D, E, R, t, h1, h2, h3⟩ := h
  obtain ⟨D', E', R', k1, lD, lE, lR⟩ := InGroups.like S hi h1
  exact ⟨D', E', R', t, k1, Names.like lD h2, fun h => h3 (PointsAt.like S.root.symm lD.symm h)⟩

theorem PlotField.like (S : LikeAddr f f' items items') {it it' : Item} (hi : LikeItem it it')
    {t : Str} (h : PlotField env f items it t) : PlotField env f' items' it' t := by
  obtain ⟨D, E, R, T, n, a, v, h1, h2, h3, h4⟩ := h
  obtain ⟨D', E', R', k1, lD, lE, lR⟩ := InGroups.like S hi h1
  obtain ⟨T', hT', lT⟩ := itemAt_like S h3
  obtain ⟨m, e, lm⟩ := (h4 ▸ lT.core.obj).node_inv
  obtain ⟨a', rfl⟩ := lm.dataset_inv
  exact ⟨D', E', R', T', n, a', v, k1, PointsAt.like S.root lD h2, hT', e⟩

theorem Niac.like (S : LikeAddr f f' items items') {it it' : Item} (hi : LikeItem it it')
    (h : Niac env f items it) : Niac env f' items' it' := by
  obtain ⟨⟨D, E, R, e, d, h1, h2, h3, h4, h5⟩, t, h6⟩ := h
  obtain ⟨D', E', R', k1, lD, lE, lR⟩ := InGroups.like S hi h1
  exact ⟨⟨D', E', R', e, d, k1, lE.core.addr ▸ h2, lD.core.addr ▸ h3, PointsAt.like S.root lR h4,
    PointsAt.like S.root lE h5⟩, t, PlotField.like S hi h6⟩

theorem dataSignals_like (S : LikeFile f f' items items') :
    PermBy LikeItem (dataSignals items) (dataSignals items') := by
  rw [dataSignals, dataSignals, withClasspath, withClasspath]
  refine S.items.filter fun x y h => ?_
  rw [h.core.classpath]

theorem niacPaths_like (S : LikeAddr f f' items items') :
    PermBy LikeItem (niacPaths env f items) (niacPaths env f' items') := by
  rw [niacPaths, niacPaths]
  refine (dataSignals_like S.toLikeFile).filter fun x y h => ?_
  exact decide_eq_decide.2 ⟨Niac.like S h, Niac.like S.symm h.symm⟩

theorem missing_like (S : LikeAddr f f' items items')
    (h : ∃ it ∈ dataSignals items, SignalMissing env f items it) :
    ∃ it ∈ dataSignals items', SignalMissing env f' items' it := by
  obtain ⟨it, hm, hs⟩ := h
  obtain ⟨it', hm', hl⟩ := (dataSignals_like S.toLikeFile).mem hm
  exact ⟨it', hm', SignalMissing.like S hl hs⟩

theorem PermBy.singleton {a b : List Item} (h : PermBy LikeItem a b) {x : Item} (e : a = [x]) :
    ∃ y, b = [y] ∧ LikeItem x y := by
  have hl := h.length
  subst e
  obtain ⟨y, rfl⟩ := List.length_eq_one_iff.1 hl.symm
  obtain ⟨z, hz, hR⟩ := h.mem (List.mem_singleton.2 rfl)
  rw [List.mem_singleton.1 hz] at hR
  exact ⟨y, rfl, hR⟩

theorem niacLines_iff {l : Line} : l ∈ niacLines env f items ↔
    (¬ ∃ it ∈ dataSignals items, SignalMissing env f items it) ∧
      ∃ it, niacPaths env f items = [it] ∧
        l = (it.addr, s%"NeXus default plot v3 NIAC2014", .ok) := by
  rw [niacLines]
  split
  · rename_i h; simp [h]
  · rename_i h
    split
    · rename_i it e
      simp only [h, not_false_eq_true, true_and, List.mem_singleton]
      rw [e]
      simp
    · rename_i he
      simp only [List.not_mem_nil, false_iff, not_and, not_exists]
      intro _ it e
      exact absurd e (he it)

theorem niacLines_like (S : LikeAddr f f' items items') {l : Line}
    (h : l ∈ niacLines env f items) : l ∈ niacLines env f' items' := by
  obtain ⟨h1, it, e, rfl⟩ := niacLines_iff.1 h
  obtain ⟨it', e', hl⟩ := (niacPaths_like S).singleton e
  exact niacLines_iff.2 ⟨fun h => h1 (missing_like S.symm h), it', e', by rw [hl.core.addr]⟩

/-! ## plots by attributes -/

theorem last_with {α : Type} {P : α → Prop} {l : List α} (h : ∃ x ∈ l, P x) :
    ∃ before y after, l = before ++ y :: after ∧ P y ∧ ∀ z ∈ after, ¬ P z := by
  induction l with
  | nil => obtain ⟨x, hx, _⟩ := h; cases hx
  | cons a l ih =>
    by_cases h2 : ∃ z ∈ l, P z
    · obtain ⟨b, y, af, e, h3, h4⟩ := ih h2
      exact ⟨a :: b, y, af, by rw [e]; rfl, h3, h4⟩
    · obtain ⟨x, hx, hp⟩ := h
      rcases List.mem_cons.1 hx with rfl | hx
      · exact ⟨[], x, l, rfl, hp, fun z hz hpz => h2 ⟨z, hz, hpz⟩⟩
      · exact absurd ⟨x, hx, hp⟩ h2

theorem PlotField.addr {it : Item} {t : Str} (h : PlotField env f items it t) :
    ∃ a, it.addr = some a := by
  obtain ⟨D, E, R, T, n, a, v, ⟨r, e, d, rest, h1, _⟩, _⟩ := h
  exact ⟨_, h1⟩

theorem attributePlot_iff : (∃ a, AttributePlot env f items a) ↔
    (¬ ∃ it ∈ dataSignals items, SignalMissing env f items it) ∧
      ∃ it ∈ dataSignals items, ∃ t, PlotField env f items it t := by
  classical
  constructor
  · rintro ⟨a, h1, h2⟩
    refine ⟨fun ⟨it, hm, hs⟩ => h1 it hm hs, ?_⟩
    rcases h2 with ⟨it, e, ha⟩ | ⟨_, before, it, after, e, hp, _⟩
    · have : it ∈ niacPaths env f items := by rw [e]; simp
      rw [niacPaths, List.mem_filter] at this
      exact ⟨it, this.1, (of_decide_eq_true this.2).2⟩
    · exact ⟨it, by rw [e]; simp, a, hp⟩
  · rintro ⟨h1, h2⟩
    have h1 : ∀ it ∈ dataSignals items, ¬ SignalMissing env f items it :=
      fun it hm hs => h1 ⟨it, hm, hs⟩
    by_cases hl : (niacPaths env f items).length = 1
    · obtain ⟨it, e⟩ := List.length_eq_one_iff.1 hl
      have : it ∈ niacPaths env f items := by rw [e]; simp
      rw [niacPaths, List.mem_filter] at this
      obtain ⟨t, ht⟩ := (of_decide_eq_true this.2).2
      obtain ⟨a, ha⟩ := PlotField.addr ht
      exact ⟨a, h1, .inl ⟨it, e, ha⟩⟩
    · obtain ⟨b, it, af, e, ⟨t, ht⟩, h3⟩ := last_with h2
      exact ⟨t, h1, .inr ⟨hl, b, it, af, e, ht, h3⟩⟩

theorem attributePlot_like (S : LikeAddr f f' items items')
    (h : ∃ a, AttributePlot env f items a) : ∃ a, AttributePlot env f' items' a := by
  obtain ⟨h1, it, hm, t, hp⟩ := attributePlot_iff.1 h
  obtain ⟨it', hm', hl⟩ := (dataSignals_like S.toLikeFile).mem hm
  exact attributePlot_iff.2 ⟨fun h => h1 (missing_like S.symm h), it', hm', t, PlotField.like S hl hp⟩

/-! ## plots by signal=1 -/

theorem perm_flatMap_filter {α κ : Type} [DecidableEq κ] (k : α → κ) :
    (ks : List κ) → (l : List α) → ks.Nodup → (∀ x ∈ l, k x ∈ ks) →
    (ks.flatMap fun c => l.filter fun x => k x = c).Perm l
  | [], l, _, h => by
    cases l with
    | nil => exact .refl _
    | cons x l => exact absurd (h x (by simp)) (by simp)
  | c :: ks, l, hn, h => by
    rw [List.nodup_cons] at hn
    rw [List.flatMap_cons]
    have ih := perm_flatMap_filter k ks (l.filter fun x => !decide (k x = c)) hn.2 (fun x hx => by
      rw [List.mem_filter] at hx
      have := h x hx.1
      have hc : k x ≠ c := by simpa using hx.2
      simpa [hc] using this)
    have e : (ks.flatMap fun c' => (l.filter fun x => !decide (k x = c)).filter fun x => k x = c') =
        ks.flatMap fun c' => l.filter fun x => k x = c' := by
      rw [List.flatMap_def, List.flatMap_def]
      congr 1
      refine List.map_congr_left fun c' hc' => ?_
      rw [List.filter_filter]
      refine List.filter_congr fun x _ => ?_
      by_cases hx : k x = c'
      · have : c' ≠ c := fun e => hn.1 (e ▸ hc')
        simp [hx, this]
      · simp [hx]
    rw [e] at ih
    exact (ih.append_left _).trans (List.filter_append_perm (fun x => decide (k x = c)) l)

theorem byClasspath_perm (items : List Item) : (byClasspath items).Perm items := by
  rw [byClasspath]
  refine perm_flatMap_filter (·.classpath) _ items (eraseDups_nodup _) fun x hx => ?_
  rw [List.mem_eraseDups]
  exact List.mem_map.2 ⟨x, hx, rfl⟩

theorem FieldSignal.like {it it' : Item} (h : LikeItem it it') (hs : FieldSignal it) :
    FieldSignal it' := by
  obtain ⟨h1, d, h2, n, a, v, h3⟩ := hs
  obtain ⟨d', k2, hd⟩ := h.parent h2
  obtain ⟨m, e, lm⟩ := (h3 ▸ hd.core.obj).node_inv
  obtain ⟨a', rfl⟩ := lm.dataset_inv
  exact ⟨h.core.classpath ▸ h1, d', k2, n, a', v, e⟩

theorem Mark.like {it it' : Item} (h : LikeItem it it') (hm : Mark env it) : Mark env it' := by
  obtain ⟨h1, v, h2, h3⟩ := hm
  refine ⟨FieldSignal.like h h1, v, ?_, h3⟩
  have := h.core.obj
  rw [h2] at this
  generalize it'.obj = o at *
  cases this
  rfl

theorem mark_iff_like {it it' : Item} (h : LikeItem it it') : Mark env it ↔ Mark env it' :=
  ⟨Mark.like h, Mark.like h.symm⟩

theorem groupOf_like {it it' : Item} (h : LikeItem it it') : groupOf it = groupOf it' := by
  have h2 := h.ancestors
  rw [groupOf, groupOf, Item.parent, Item.parent]
  generalize it.ancestors = l at *
  generalize it'.ancestors = l' at *
  cases h2 with
  | nil => rfl
  | cons x k =>
    cases k with
    | nil => rfl
    | cons y k => exact y.addr

theorem marks_like (S : LikeFile f f' items items') :
    PermBy LikeItem (marks env items) (marks env items') := by
  rw [marks, marks]
  refine PermBy.filter (fun x y h => decide_eq_decide.2 (mark_iff_like h)) ?_
  exact .perm_left (byClasspath_perm items) (S.items.perm_right (byClasspath_perm items').symm)

theorem mem_markedGroups {g : Option Str} :
    g ∈ markedGroups env items ↔ ∃ it ∈ marks env items, groupOf it = g := by
  rw [markedGroups, List.mem_eraseDups, List.mem_map]

theorem markedGroups_like (S : LikeFile f f' items items') {g : Option Str}
    (h : g ∈ markedGroups env items) : g ∈ markedGroups env items' := by
  obtain ⟨it, hm, e⟩ := mem_markedGroups.1 h
  obtain ⟨it', hm', hl⟩ := (marks_like S).mem hm
  exact mem_markedGroups.2 ⟨it', hm', (groupOf_like hl).symm.trans e⟩

theorem marksIn_like (S : LikeFile f f' items items') (g : Option Str) :
    PermBy LikeItem (marksIn env items g) (marksIn env items' g) := by
  rw [marksIn, marksIn]
  refine (marks_like S).filter fun x y h => ?_
  rw [groupOf_like h]

theorem groupLine_like (S : LikeFile f f' items items') (g : Option Str) :
    groupLine env items g = groupLine env items' g := by
  have h := marksIn_like (env := env) S g
  rw [groupLine, groupLine]
  split
  · rename_i it e
    obtain ⟨it', e', hl⟩ := h.singleton e
    rw [e']
    simp only [hl.core.addr]
  · rename_i he
    split
    · rename_i it' e'
      obtain ⟨it, e, _⟩ := (h.symm fun _ _ h => h.symm).singleton e'
      exact absurd e (he it)
    · rfl

theorem signalLines_like {it it' : Item} (h : LikeItem it it') :
    signalLines env it = signalLines env it' := by
  have h1 : Mark env it ↔ Mark env it' := mark_iff_like h
  have h2 : FieldSignal it ↔ FieldSignal it' := ⟨FieldSignal.like h, FieldSignal.like h.symm⟩
  rw [signalLines, signalLines, h.core.addr]
  by_cases hm : Mark env it
  · rw [if_pos hm, if_pos (h1.1 hm)]
  · rw [if_neg hm, if_neg fun k => hm (h1.2 k)]
    by_cases hs : FieldSignal it
    · rw [if_pos hs, if_pos (h2.1 hs)]
    · rw [if_neg hs, if_neg fun k => hs (h2.2 k)]

theorem signalPlot_there (S : LikeFile f f' items items') : (∃ a, SignalPlot env items a) ↔
    ∃ g ∈ markedGroups env items, (marksIn env items g).length = 1 := by
  classical
  constructor
  · rintro ⟨a, before, g, after, it, d, h1, h2, _⟩
    exact ⟨g, by rw [h1]; simp, by rw [h2]; rfl⟩
  · intro h
    obtain ⟨before, g, after, e, h1, h2⟩ := last_with h
    obtain ⟨it, hit⟩ := List.length_eq_one_iff.1 h1
    have hm : it ∈ marksIn env items g := by rw [hit]; simp
    rw [marksIn, List.mem_filter] at hm
    have hm := hm.1
    have hmk : Mark env it := by
      rw [marks, List.mem_filter] at hm
      exact of_decide_eq_true hm.2
    obtain ⟨it', _, hl⟩ := (marks_like S).mem hm
    obtain ⟨d, hd, n, a, v, ho⟩ := hmk.1.2
    obtain ⟨d', _, hld⟩ := hl.parent hd
    exact ⟨_, before, g, after, it, d, e, hit, hd, hld.core.there _ ho, h2⟩

theorem signalPlot_like (S : LikeFile f f' items items') (h : ∃ a, SignalPlot env items a) :
    ∃ a, SignalPlot env items' a := by
  obtain ⟨g, h1, h2⟩ := (signalPlot_there S).1 h
  exact (signalPlot_there S.symm).2 ⟨g, markedGroups_like S h1, (marksIn_like S g).length ▸ h2⟩

/-! ## verdict -/

theorem HasClass.like (S : LikeFile f f' items items') {c : Str} (h : HasClass env items c) :
    HasClass env items' c := by
  obtain ⟨it, hm, g, hg, hc, hcl⟩ := h
  obtain ⟨it', hm', hl⟩ := S.items.mem hm
  obtain ⟨g', hg', hgl⟩ := hl.core.obj.asGroup hg
  exact ⟨it', hm', g', hg', hl.core.classpath ▸ hc, GroupClass.like hgl (hl.core.classpath ▸ hcl)⟩

theorem hasClass_iff_like (S : LikeFile f f' items items') {c : Str} :
    HasClass env items c ↔ HasClass env items' c := ⟨HasClass.like S, HasClass.like S.symm⟩

theorem plotRequired_like (S : LikeFile f f' items items') {classes : Dict Str ClassDef} :
    PlotRequired env classes mins items ↔ PlotRequired env classes mins items' := by
  rw [PlotRequired, PlotRequired]
  simp only [hasClass_iff_like S]

theorem PlotVerdict.like (S : LikeAddr f f' items items') {classes : Dict Str ClassDef}
    {st : Status} (h : ∃ c, PlotVerdict env classes mins f items items st c) :
    ∃ c, PlotVerdict env classes mins f' items' items' st c := by
  obtain ⟨c, h⟩ := h
  have hA : (∃ a, AttributePlot env f items a) ↔ ∃ a, AttributePlot env f' items' a :=
    ⟨attributePlot_like S, attributePlot_like S.symm⟩
  have hB : (∃ a, SignalPlot env items a) ↔ ∃ a, SignalPlot env items' a :=
    ⟨signalPlot_like S.toLikeFile, signalPlot_like S.toLikeFile.symm⟩
  cases h with
  | byAttribute a ha =>
    obtain ⟨b, hb⟩ := hA.1 ⟨a, ha⟩
    exact ⟨_, .byAttribute b hb⟩
  | bySignal a ha hs =>
    obtain ⟨b, hb⟩ := hB.1 ⟨a, hs⟩
    exact ⟨_, .bySignal b (fun h => ha (hA.2 h)) hb⟩
  | required ha hs hr =>
    exact ⟨_, .required (fun h => ha (hA.2 h)) (fun h => hs (hB.2 h))
      ((plotRequired_like S.toLikeFile).1 hr)⟩
  | optional ha hs hr =>
    exact ⟨_, .optional (fun h => ha (hA.2 h)) (fun h => hs (hB.2 h))
      (fun h => hr ((plotRequired_like S.toLikeFile).2 h))⟩

/-! ## lines on the signals of NXdata groups -/

theorem dataLines_test {l : List Item} {x : Line} (h : x ∈ dataLines env f items l) :
    x.2.1 = s%"NeXus default plot v3, NXdata@signal" := by
  induction l with
  | nil => cases h
  | cons it l ih =>
    rw [dataLines] at h
    split at h
    · rw [List.mem_singleton.1 h]
    · split at h
      · rcases List.mem_cons.1 h with rfl | h
        · rfl
        · exact ih h
      · exact ih h

theorem dataLines_iff {l : List Item} (h : ∀ it ∈ l, ¬ SignalMissing env f items it) {x : Line} :
    x ∈ dataLines env f items l ↔ ∃ it ∈ l, (∃ t, PlotField env f items it t) ∧
      x = (it.addr, s%"NeXus default plot v3, NXdata@signal", .ok) := by
  induction l with
  | nil => simp [dataLines]
  | cons it l ih =>
    have ih := ih fun i hi => h i (List.mem_cons_of_mem _ hi)
    rw [dataLines, if_neg (h it (by simp))]
    split
    · rename_i hp
      rw [List.mem_cons, ih]
      simp only [List.mem_cons, exists_eq_or_imp, hp, true_and]
    · rename_i hp
      rw [ih]
      simp only [List.mem_cons, exists_eq_or_imp, hp, false_and, false_or]

theorem dataLines_like (S : LikeAddr f f' items items')
    (h : ∀ it ∈ dataSignals items, ¬ SignalMissing env f items it) {x : Line}
    (hx : x ∈ dataLines env f items (dataSignals items)) :
    x ∈ dataLines env f' items' (dataSignals items') := by
  obtain ⟨it, hm, ⟨t, hp⟩, rfl⟩ := (dataLines_iff h).1 hx
  obtain ⟨it', hm', hl⟩ := (dataSignals_like S.toLikeFile).mem hm
  refine (dataLines_iff fun i hi hs => ?_).2 ⟨it', hm', ⟨t, PlotField.like S hl hp⟩, by
    rw [hl.core.addr]⟩
  obtain ⟨j, hj, hjs⟩ := missing_like S.symm ⟨i, hi, hs⟩
  exact h j hj hjs

theorem searchLines_like (S : LikeAddr f f' items items') {x : Line}
    (hx : x ∈ searchLines env f items)
    (ht : x.2.1 ≠ s%"NeXus default plot v3, NXdata@signal" ∨
      ∀ it ∈ dataSignals items, ¬ SignalMissing env f items it) :
    x ∈ searchLines env f' items' := by
  rw [searchLines, List.mem_append, List.mem_append] at hx ⊢
  rcases hx with (hx | hx) | hx
  · rcases ht with ht | ht
    · exact absurd (dataLines_test hx) ht
    · exact .inl (.inl (dataLines_like S ht hx))
  · exact .inl (.inr (niacLines_like S hx))
  · right
    split at hx
    · cases hx
    · rename_i ha
      rw [if_neg fun h => ha (attributePlot_like S.symm h)]
      rw [List.mem_append] at hx ⊢
      rcases hx with hx | hx
      · left
        obtain ⟨it, hm, hx⟩ := List.mem_flatMap.1 hx
        obtain ⟨it', hm', hl⟩ := S.items.mem (mem_byClasspath.1 hm)
        exact List.mem_flatMap.2 ⟨it', mem_byClasspath.2 hm', signalLines_like hl ▸ hx⟩
      · right
        obtain ⟨g, hg, rfl⟩ := List.mem_map.1 hx
        exact List.mem_map.2 ⟨g, markedGroups_like S.toLikeFile hg,
          (groupLine_like S.toLikeFile g).symm⟩

theorem Expected.like (S : LikeAddr f f' items items') {x : Line}
    (hx : Expected env mgr mins f items x)
    (ht : x.2.1 ≠ s%"NeXus default plot v3, NXdata@signal" ∨
      ∀ it ∈ dataSignals items, ¬ SignalMissing env f items it) :
    Expected env mgr mins f' items' x := by
  rcases hx with hx | hx | hx | hx | hx
  · exact .inl (NameLine.like S.toLikeFile hx)
  · exact .inr (.inl (ValueLine.like S.toLikeFile hx))
  · exact .inr (.inr (.inl (GroupLine.like S.toLikeFile hx)))
  · exact .inr (.inr (.inr (.inl (DefinitionLine.like S.toLikeFile hx))))
  · refine .inr (.inr (.inr (.inr ?_)))
    cases hx with
    | search hx => exact .search (searchLines_like S hx ht)
    | verdict hv =>
      obtain ⟨c, hv⟩ := PlotVerdict.like S ⟨_, hv⟩
      exact .verdict hv

end Punx

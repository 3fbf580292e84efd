import Verif.Props.Reorder3
import Verif.Props.Completes5

/-!
# C107: the order of members and attributes, validations that complete
-/

namespace Punx
open Spec

variable {env : Env} {mgr : Manager} {mins : Dict (Str × Str) Int} {f f' : H5File}
  {items items' : List Item}

/-! ## the tree -/

mutual
theorem wellNamed_like {p : Str} : {n n' : Node} → SameNode n n' → WellNamed p n → WellNamed p n'
  | _, _, .dataset h, w => by
    rw [WellNamed] at w ⊢
    exact ⟨w.1, (h.map _).nodup_iff.1 w.2⟩
  | _, _, .datatype h, w => by
    rw [WellNamed] at w ⊢
    exact ⟨w.1, (h.map _).nodup_iff.1 w.2⟩
  | _, _, .group h k, w => by
    rw [WellNamed] at w ⊢
    exact ⟨w.1, (h.map _).nodup_iff.1 w.2.1, k.names.nodup_iff.1 w.2.2.1,
      wellNamedKids_like k w.2.2.2⟩
theorem wellNamedKids_like {p : Str} : {ks ks' : Kids} → SameKids ks ks' → WellNamedKids p ks →
    WellNamedKids p ks'
  | _, _, .nil, w => w
  | _, _, .cons h k, w => by
    rw [WellNamedKids] at w ⊢
    exact ⟨w.1, w.2.1, w.2.2.1, wellNamed_like h w.2.2.2.1, wellNamedKids_like k w.2.2.2.2⟩
  | _, _, .broken k, w => by
    rw [WellNamedKids] at w ⊢
    exact wellNamedKids_like k w
  | _, _, .swap (o := o) (o' := o'), w => by
    cases o <;> cases o' <;> simp only [linkTo, WellNamedKids] at w ⊢ <;> tauto
  | _, _, .trans h k, w => wellNamedKids_like k (wellNamedKids_like h w)
end

theorem wellNamedFile_like (h : SameFile f f') (w : WellNamedFile f) : WellNamedFile f' :=
  ⟨(h.attrs.map _).nodup_iff.1 w.1, h.kids.names.nodup_iff.1 w.2.1, wellNamedKids_like h.kids w.2.2⟩

mutual
theorem intact_like : {n n' : Node} → SameNode n n' → Intact n → Intact n'
  | _, _, .dataset _, w => w
  | _, _, .datatype _, w => w
  | _, _, .group _ k, w => by
    rw [Intact] at w ⊢
    exact intactKids_like k w
theorem intactKids_like : {ks ks' : Kids} → SameKids ks ks' → IntactKids ks → IntactKids ks'
  | _, _, .nil, w => w
  | _, _, .cons h k, w => by
    rw [IntactKids] at w ⊢
    exact ⟨intact_like h w.1, intactKids_like k w.2⟩
  | _, _, .broken k, w => by
    rw [IntactKids] at w
    exact w.elim
  | _, _, .swap (o := o) (o' := o'), w => by
    cases o <;> cases o' <;> simp only [linkTo, IntactKids] at w ⊢ <;> tauto
  | _, _, .trans h k, w => intactKids_like k (intactKids_like h w)
end

mutual
theorem allNodes_like {P : Node → Prop} (hP : ∀ n n', Like n n' → P n → P n') :
    {n n' : Node} → SameNode n n' → Distinct n → AllNodes P n → AllNodes P n'
  | _, _, .dataset h, d, w => by
    rw [AllNodes] at w ⊢
    exact hP _ _ ⟨.dataset h, d⟩ w
  | _, _, .datatype h, d, w => by
    rw [AllNodes] at w ⊢
    exact hP _ _ ⟨.datatype h, d⟩ w
  | _, _, .group h k, d, w => by
    rw [AllNodes] at w ⊢
    refine ⟨hP _ _ ⟨.group h k, d⟩ w.1, ?_⟩
    rw [Distinct] at d
    exact allKids_like hP k d.2.2 w.2
theorem allKids_like {P : Node → Prop} (hP : ∀ n n', Like n n' → P n → P n') :
    {ks ks' : Kids} → SameKids ks ks' → DistinctKids ks → AllKids P ks → AllKids P ks'
  | _, _, .nil, _, w => w
  | _, _, .cons h k, d, w => by
    rw [AllKids] at w ⊢
    rw [DistinctKids] at d
    exact ⟨allNodes_like hP h d.1 w.1, allKids_like hP k d.2 w.2⟩
  | _, _, .broken k, d, w => by
    rw [AllKids] at w ⊢
    rw [DistinctKids] at d
    exact allKids_like hP k d w
  | _, _, .swap (o := o) (o' := o'), _, w => by
    cases o <;> cases o' <;> simp only [linkTo, AllKids] at w ⊢ <;> tauto
  | _, _, .trans h k, d, w => allKids_like hP k (h.distinct d) (allKids_like hP h d w)
end

theorem below_congr {a a' : List (Str × Val)} (h : nxClassOf env a = nxClassOf env a') (p : Place) :
    p.below env a = p.below env a' := by
  cases p with
  | nexus => simp only [Place.below, h]
  | slash => rfl
  | outside => rfl

mutual
theorem classesReadable_like : {n n' : Node} → SameNode n n' → Distinct n → ∀ {p : Place},
    ClassesReadable env p n → ClassesReadable env p n'
  | _, _, .dataset h, d, _, w => by
    rw [ClassesReadable]
    · trivial
    · intro _ _ _ e; cases e
  | _, _, .datatype h, d, _, w => by
    rw [ClassesReadable]
    · trivial
    · intro _ _ _ e; cases e
  | _, _, .group h k, d, p, w => by
    rw [ClassesReadable] at w ⊢
    have hl : Like _ _ := ⟨.group h k, d⟩
    have h1 := hl.lookup s%"NX_class"
    have h2 := nxClassOf_like (env := env) hl
    simp only [Node.attrs] at h1 h2
    rw [Distinct] at d
    refine ⟨h1 ▸ w.1, ?_⟩
    rw [← below_congr h2]
    exact classesReadableKids_like k d.2.2 w.2
theorem classesReadableKids_like : {ks ks' : Kids} → SameKids ks ks' → DistinctKids ks →
    ∀ {p : Place}, ClassesReadableKids env p ks → ClassesReadableKids env p ks'
  | _, _, .nil, _, _, w => w
  | _, _, .cons h k, d, _, w => by
    rw [ClassesReadableKids] at w ⊢
    rw [DistinctKids] at d
    exact ⟨classesReadable_like h d.1 w.1, classesReadableKids_like k d.2 w.2⟩
  | _, _, .broken k, d, _, w => by
    rw [ClassesReadableKids] at w ⊢
    rw [DistinctKids] at d
    exact classesReadableKids_like k d w
  | _, _, .swap (o := o) (o' := o'), _, _, w => by
    cases o <;> cases o' <;> simp only [linkTo, ClassesReadableKids] at w ⊢ <;> tauto
  | _, _, .trans h k, d, _, w =>
    classesReadableKids_like k (h.distinct d) (classesReadableKids_like h d w)
end

theorem NodeTargetOk.like {n n' : Node} (h : Like n n') (w : NodeTargetOk env n) :
    NodeTargetOk env n' := by
  have hl := h.lookup s%"target"
  cases h.same with
  | datatype => trivial
  | dataset =>
    simp only [NodeTargetOk] at w ⊢
    rwa [← hl]
  | group =>
    simp only [NodeTargetOk] at w ⊢
    rwa [← hl]

theorem NodeClassOk.like {n n' : Node} (h : Like n n') (w : NodeClassOk env n) :
    NodeClassOk env n' := by
  have hl := h.lookup s%"NX_class"
  cases h.same with
  | datatype => trivial
  | dataset => trivial
  | group =>
    simp only [NodeClassOk] at w ⊢
    simp only [Node.attrs] at hl
    rwa [← hl]

theorem FileReadable.like (h : SameFile f f') (hw : WellNamedFile f) (w : FileReadable env f) :
    FileReadable env f' where
  intact := intactKids_like h.kids w.intact
  rootTarget := by rw [← lookup_perm h.attrs hw.1]; exact w.rootTarget
  targets := allKids_like (fun _ _ => NodeTargetOk.like) h.kids hw.2.2.distinct w.targets
  classes := classesReadableKids_like h.kids hw.2.2.distinct w.classes

/-! ## items -/

theorem AttrCheckable.like {o o' : H5Obj} (h : LikeObj o o') {k : Str} {v : Val}
    (w : AttrCheckable env o k v) : AttrCheckable env o' k v where
  text := w.text
  fieldSignal := fun hk ⟨n, a, d, e⟩ => w.fieldSignal hk (by
    obtain ⟨m, e', hl⟩ := (e ▸ h).symm.node_inv
    obtain ⟨a', rfl⟩ := hl.dataset_inv
    exact ⟨n, a', d, e'⟩)
  groupSignal := fun hk ⟨n, a, d, e⟩ => w.groupSignal hk (by
    obtain ⟨m, e', hl⟩ := (e ▸ h).symm.node_inv
    cases hl.same with
    | group => exact ⟨_, _, _, e'⟩)
  otherSignal := w.otherSignal
  axes := fun hk => by
    obtain ⟨names, h1, h2⟩ := w.axes hk
    refine ⟨names, h1, h2.imp_right fun ⟨⟨g, hg⟩, h3⟩ => ⟨?_, h3⟩⟩
    obtain ⟨g', hg', _⟩ := h.asGroup hg
    exact ⟨g', hg'⟩

theorem NamesCheckable.like (S : LikeFile f f' items items') (w : NamesCheckable env items) :
    NamesCheckable env items' := by
  intro it' hm' hc attrs' ha' ka hka
  obtain ⟨it, hm, hl⟩ := S.symm.items.mem hm'
  obtain ⟨attrs, ha, hp, _⟩ := hl.core.obj.attrs? ha'
  exact AttrCheckable.like hl.core.obj.symm
    (w it hm (hl.core.classpath ▸ hc) attrs ha ka (hp.mem_iff.1 hka))

theorem ClassesMatched.like (S : LikeFile f f' items items') (w : ClassesMatched mgr items) :
    ClassesMatched mgr items' := by
  intro it' hm' hc attrs' ha' ka hka
  obtain ⟨it, hm, hl⟩ := S.symm.items.mem hm'
  obtain ⟨attrs, ha, hp, _⟩ := hl.core.obj.attrs? ha'
  exact w it hm (hl.core.classpath ▸ hc) attrs ha ka (hp.mem_iff.1 hka)

theorem GroupCheckable.like {cp : Str} {a a' : List (Str × Val)} (h : a.Perm a') {d : ClassDef}
    (w : GroupCheckable env cp a d) : GroupCheckable env cp a' d where
  single := w.single
  decode := fun ka hka => w.decode ka (h.mem_iff.2 hka)
  text := fun ka hka => w.text ka (h.mem_iff.2 hka)
  target := fun ka hka => w.target ka (h.mem_iff.2 hka)
  occurs := w.occurs

theorem GroupsCheckable.like (S : LikeFile f f' items items') {classes : Dict Str ClassDef}
    (w : GroupsCheckable env classes items) : GroupsCheckable env classes items' := by
  intro it' hm' g' hg' hc
  obtain ⟨it, hm, hl⟩ := S.symm.items.mem hm'
  obtain ⟨g, hg, hgl⟩ := hl.core.obj.asGroup hg'
  obtain ⟨h1, h2⟩ := w it hm g hg (hl.core.classpath ▸ hc)
  refine ⟨fun p' hp' => ?_, fun c d hcl hd => ?_⟩
  · obtain ⟨p, hp, hpl⟩ := hl.parent hp'
    rw [hpl.core.classpath]
    exact h1 p hp
  · have := h2 c d (GroupClass.like hgl (hl.core.classpath ▸ hcl)) hd
    rw [hl.core.classpath]
    exact GroupCheckable.like hgl.attrs.symm this

theorem FieldCheckable.like (hf : Like f.root f'.root) {g g' : Node} (h : Like g g')
    {fld : Str × FieldSpec} (w : FieldCheckable env mgr f g fld) :
    FieldCheckable env mgr f' g' fld := by
  rcases w with ⟨n, h1, h2, h3⟩ | ⟨h1, h2⟩
  · obtain ⟨n', k1, hl⟩ := h5get_like hf h h1
    refine .inl ⟨n', k1, ⟨hl.name ▸ h2.1.imp_right (NodeClassOk.like hl),
      NodeTargetOk.like hl h2.2⟩, fun he => ?_⟩
    obtain ⟨⟨m, a, d, rfl, hs⟩, hm, ho⟩ := h3 he
    refine ⟨?_, hm, fun hn => HasOneOf.like hl (ho hn)⟩
    obtain ⟨a', rfl⟩ := hl.dataset_inv
    exact ⟨m, a', d, rfl, hs⟩
  · exact .inr ⟨h5get_none_like hf h h1, h2⟩

theorem DefinitionsCheckable.like (S : LikeFile f f' items items')
    (w : DefinitionsCheckable env mgr f items) : DefinitionsCheckable env mgr f' items' := by
  intro it' hm' hi
  obtain ⟨it, hm, hl⟩ := S.symm.items.mem hm'
  obtain ⟨p, g, hp, hg, name, hd, hall⟩ := w it hm (by
    rw [IsDefinition] at hi ⊢
    rwa [← hl.core.classpath])
  obtain ⟨p', hp', hpl⟩ := hl.symm.parent hp
  obtain ⟨g', hg', hgl⟩ := hpl.core.obj.asGroup hg
  refine ⟨p', g', hp', hg', name, Declares.like S.root hgl hd, fun ad had => ?_⟩
  obtain ⟨gn, entry, more, h1, h2⟩ := hall ad had
  exact ⟨gn, entry, more, h1, fun fld hfld => FieldCheckable.like S.root hgl (h2 fld hfld)⟩

theorem Pointer.like {i i' : Item} (h : LikeItem i i') {k : Str} (w : Pointer env i k) :
    Pointer env i' k := by
  obtain ⟨attrs, h1, h2⟩ := w
  obtain ⟨attrs', k1, _, k3⟩ := h.core.obj.attrs? h1
  refine ⟨attrs', k1, fun v hv => ?_⟩
  obtain ⟨h3, g, hg⟩ := h2 v (k3 k ▸ hv)
  obtain ⟨g', hg', _⟩ := h.core.obj.asGroup hg
  exact ⟨h3, g', hg'⟩

theorem SignalCheckable.like (S : LikeAddr f f' items items') {it it' : Item} (hi : LikeItem it it')
    (w : SignalCheckable env f items it) : SignalCheckable env f' items' it' := by
  obtain ⟨D, E, R, t, h1, h2, h3, h4, h5, h6⟩ := w
  obtain ⟨D', E', R', k1, lD, lE, lR⟩ := InGroups.like S hi h1
  refine ⟨D', E', R', t, k1, Pointer.like lR h2, Pointer.like lE h3, Pointer.like lD h4,
    Names.like lD h5, fun hp => ?_⟩
  obtain ⟨T, hT⟩ := h6 (PointsAt.like S.root.symm lD.symm hp)
  obtain ⟨T', hT', _⟩ := itemAt_like S hT
  exact ⟨T', hT'⟩

theorem PlotCheckable.like (S : LikeAddr f f' items items') {classes : Dict Str ClassDef}
    (hno : ∀ it ∈ dataSignals items, ¬ SignalMissing env f items it)
    (w : PlotCheckable env f classes items) : PlotCheckable env f' classes items' := by
  refine ⟨fun before it' after e _ => ?_, fun h1 h2 => ?_⟩
  · obtain ⟨it, hm, hl⟩ := (dataSignals_like S.toLikeFile.symm).mem
      (show it' ∈ dataSignals items' by rw [e]; simp)
    obtain ⟨b, a, e'⟩ := List.append_of_mem hm
    exact SignalCheckable.like S hl.symm (w.1 b it a e' fun i hi => hno i (by rw [e']; simp [hi]))
  · exact w.2 (fun h => h1 (attributePlot_like S h)) (fun h => h2 (signalPlot_like S.toLikeFile h))

/-! ## the whole validation -/

theorem likeAddr_contents (h : SameFile f f') (hw : WellNamedFile f) (w : FileReadable env f) :
    LikeAddr f f' (contents env f) (contents env f') := by
  refine ⟨⟨h.root hw, contents_like h hw⟩, ?_⟩
  have hc := (catalog_completes_iff hw).2 w
  rw [← catalog_contents hw hc]
  exact catalog_addresses_nodup_partial hc hw

theorem Validatable.like (h : SameFile f f') (hw : WellNamedFile f)
    (hno : ∀ it ∈ dataSignals (contents env f), ¬ SignalMissing env f (contents env f) it)
    (w : Validatable env mgr f) : Validatable env mgr f' :=
  have S := likeAddr_contents h hw w.readable
  ⟨FileReadable.like h hw w.readable, NamesCheckable.like S.toLikeFile w.names,
    ClassesMatched.like S.toLikeFile w.classes, GroupsCheckable.like S.toLikeFile w.groups,
    DefinitionsCheckable.like S.toLikeFile w.definitions, PlotCheckable.like S hno w.plot⟩

theorem reports_missing_iff (hdig : env.isdigit s%"1" = true) (hw : WellNamedFile f)
    (hnd : ∀ d, Dict.get? mgr.classes s%"NXentry" = some d → (Dict.keys d.groups).Nodup)
    (h : (validateOpen env mgr mins f).res = .ok ()) :
    (∃ a, (a, s%"NeXus default plot v3, NXdata@signal", Status.error) ∈
      report (validateOpen env mgr mins f).log) ↔
    ∃ it ∈ dataSignals (contents env f), SignalMissing env f (contents env f) it := by
  classical
  constructor
  · rintro ⟨a, ha⟩
    rw [report_iff hdig hw hnd h, expected_error_iff] at ha
    cases ha with
    | plotSignal e _ hs => exact ⟨_, by rw [e]; simp, hs⟩
    | unknownClass _ _ _ _ _ ht => rcases ht with ht | ht <;> exact absurd ht (by decide)
  · rintro ⟨it, hm, hs⟩
    obtain ⟨b, y, af, e, h1, h2⟩ := last_with (l := (dataSignals (contents env f)).reverse)
      (P := SignalMissing env f (contents env f)) ⟨it, List.mem_reverse.2 hm, hs⟩
    have e' : dataSignals (contents env f) = af.reverse ++ y :: b.reverse := by
      rw [← List.reverse_reverse (dataSignals _), e]; simp
    refine ⟨y.addr, ?_⟩
    rw [report_iff hdig hw hnd h, expected_error_iff]
    exact .plotSignal e' (fun i hi => h2 i (List.mem_reverse.1 hi)) h1

/-- C107: the order of members and attributes does not matter for a file whose validation completes
and reports no missing signal of an NXdata group: after a change of the order, the validation also
completes, with the same lines.

Partial: of several missing signals only the first one is reported, and the search for a default
plot stops there (`order_matters`); so what follows for files with missing signals is
`order_irrelevant_lines`. -/
theorem order_irrelevant_partial (hdig : env.isdigit s%"1" = true) (hs : SameFile f f')
    (hw : WellNamedFile f)
    (hnd : ∀ d, Dict.get? mgr.classes s%"NXentry" = some d → (Dict.keys d.groups).Nodup)
    (h : (validateOpen env mgr mins f).res = .ok ())
    (hno : ∀ a, (a, s%"NeXus default plot v3, NXdata@signal", Status.error) ∉
      report (validateOpen env mgr mins f).log) :
    (validateOpen env mgr mins f').res = .ok () ∧
    ∀ l, l ∈ report (validateOpen env mgr mins f).log ↔
      l ∈ report (validateOpen env mgr mins f').log := by
  have hno' : ∀ it ∈ dataSignals (contents env f), ¬ SignalMissing env f (contents env f) it :=
    fun it hm hx => by
      obtain ⟨a, ha⟩ := (reports_missing_iff hdig hw hnd h).2 ⟨it, hm, hx⟩
      exact hno a ha
  have w := (validation_completes_iff hw).1 h
  have hw' := wellNamedFile_like hs hw
  have h' : (validateOpen env mgr mins f').res = .ok () :=
    (validation_completes_iff hw').2 (Validatable.like hs hw hno' w)
  refine ⟨h', fun l => ?_⟩
  have S := likeAddr_contents hs hw w.readable
  rw [report_iff hdig hw hnd h, report_iff hdig hw' hnd h']
  refine ⟨fun hl => Expected.like S hl (.inr hno'), fun hl => Expected.like S.symm hl (.inr ?_)⟩
  intro it hm hx
  obtain ⟨j, hj, hjs⟩ := missing_like S.symm ⟨it, hm, hx⟩
  exact hno' j hj hjs

/-- C107: if the validation completes before and after a change of the order of members and
attributes, then all lines but those on the signals of NXdata groups are the same. -/
theorem order_irrelevant_lines (hdig : env.isdigit s%"1" = true) (hs : SameFile f f')
    (hw : WellNamedFile f)
    (hnd : ∀ d, Dict.get? mgr.classes s%"NXentry" = some d → (Dict.keys d.groups).Nodup)
    (h : (validateOpen env mgr mins f).res = .ok ())
    (h' : (validateOpen env mgr mins f').res = .ok ()) {l : Line}
    (hl : l.2.1 ≠ s%"NeXus default plot v3, NXdata@signal") :
    l ∈ report (validateOpen env mgr mins f).log ↔
      l ∈ report (validateOpen env mgr mins f').log := by
  have S := likeAddr_contents hs hw ((validation_completes_iff hw).1 h).readable
  rw [report_iff hdig hw hnd h, report_iff hdig (wellNamedFile_like hs hw) hnd h']
  exact ⟨fun hx => Expected.like S hx (.inl hl), fun hx => Expected.like S.symm hx (.inl hl)⟩

/-- C107: whether a signal is reported as missing does not depend on the order. -/
theorem order_irrelevant_missing (hdig : env.isdigit s%"1" = true) (hs : SameFile f f')
    (hw : WellNamedFile f)
    (hnd : ∀ d, Dict.get? mgr.classes s%"NXentry" = some d → (Dict.keys d.groups).Nodup)
    (h : (validateOpen env mgr mins f).res = .ok ())
    (h' : (validateOpen env mgr mins f').res = .ok ()) :
    (∃ a, (a, s%"NeXus default plot v3, NXdata@signal", Status.error) ∈
      report (validateOpen env mgr mins f).log) ↔
    ∃ a, (a, s%"NeXus default plot v3, NXdata@signal", Status.error) ∈
      report (validateOpen env mgr mins f').log := by
  have S := likeAddr_contents hs hw ((validation_completes_iff hw).1 h).readable
  rw [reports_missing_iff hdig hw hnd h, reports_missing_iff hdig (wellNamedFile_like hs hw) hnd h']
  exact ⟨missing_like S, missing_like S.symm⟩

end Punx

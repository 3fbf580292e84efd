import Verif.Props.Stored2
import Verif.Props.Expected3
import Verif.Props.Reorder4

/-!
# C126: how texts are stored, the whole validation
-/

namespace Punx
open Spec

variable {env : Env} {mgr : Manager} {mins : Dict (Str × Str) Int} {f f' : H5File}
  {items items' : List Item}

/-! ## the tree -/

theorem alikeKids_names {ks ks' : Kids} (h : AlikeKids env ks ks') :
    ks.toList.map (·.1) = ks'.toList.map (·.1) := by
  have := alike_toList h
  generalize ks.toList = l at *
  generalize ks'.toList = l' at *
  induction this with
  | nil => rfl
  | cons r _ ih => rw [List.map_cons, List.map_cons, r.1, ih]

mutual
theorem wellNamed_alike {n n' : Node} : AlikeNode env n n' → ∀ {p : Str}, WellNamed p n →
    WellNamed p n'
  | .dataset ha _, p, w => by
    rw [WellNamed] at w ⊢
    rwa [← alikeAttrs_keys ha]
  | .datatype ha, p, w => by
    rw [WellNamed] at w ⊢
    rwa [← alikeAttrs_keys ha]
  | .group ha hk, p, w => by
    rw [WellNamed] at w ⊢
    rw [← alikeAttrs_keys ha, ← alikeKids_names hk]
    exact ⟨w.1, w.2.1, w.2.2.1, wellNamedKids_alike hk w.2.2.2⟩
theorem wellNamedKids_alike {ks ks' : Kids} : AlikeKids env ks ks' → ∀ {p : Str},
    WellNamedKids p ks → WellNamedKids p ks'
  | .nil, p, w => w
  | .cons hn hr, p, w => by
    rw [WellNamedKids] at w ⊢
    exact ⟨w.1, w.2.1, w.2.2.1, wellNamed_alike hn w.2.2.2.1, wellNamedKids_alike hr w.2.2.2.2⟩
  | .broken hr, p, w => by
    rw [WellNamedKids] at w ⊢
    exact wellNamedKids_alike hr w
end

theorem wellNamedFile_alike (h : StoredAlike env f f') (w : WellNamedFile f) : WellNamedFile f' :=
  ⟨alikeAttrs_keys h.attrs ▸ w.1, alikeKids_names h.kids ▸ w.2.1, wellNamedKids_alike h.kids w.2.2⟩

mutual
theorem intact_alike {n n' : Node} : AlikeNode env n n' → Intact n → Intact n'
  | .dataset _ _, _ => by simp only [Intact]
  | .datatype _, _ => by simp only [Intact]
  | .group _ hk, w => by
    rw [Intact] at w ⊢
    exact intactKids_alike hk w
theorem intactKids_alike {ks ks' : Kids} : AlikeKids env ks ks' → IntactKids ks → IntactKids ks'
  | .nil, w => w
  | .cons hn hr, w => by
    rw [IntactKids] at w ⊢
    exact ⟨intact_alike hn w.1, intactKids_alike hr w.2⟩
  | .broken _, w => by
    rw [IntactKids] at w
    exact w.elim
end

mutual
theorem allNodes_alike {P : Node → Prop} (hP : ∀ n n', AlikeNode env n n' → P n → P n')
    {n n' : Node} : AlikeNode env n n' → AllNodes P n → AllNodes P n'
  | .dataset ha hd, w => by
    rw [AllNodes] at w ⊢
    exact hP _ _ (.dataset ha hd) w
  | .datatype ha, w => by
    rw [AllNodes] at w ⊢
    exact hP _ _ (.datatype ha) w
  | .group ha hk, w => by
    rw [AllNodes] at w ⊢
    exact ⟨hP _ _ (.group ha hk) w.1, allKids_alike hP hk w.2⟩
theorem allKids_alike {P : Node → Prop} (hP : ∀ n n', AlikeNode env n n' → P n → P n')
    {ks ks' : Kids} : AlikeKids env ks ks' → AllKids P ks → AllKids P ks'
  | .nil, w => w
  | .cons hn hr, w => by
    rw [AllKids] at w ⊢
    exact ⟨allNodes_alike hP hn w.1, allKids_alike hP hr w.2⟩
  | .broken hr, w => by
    rw [AllKids] at w ⊢
    exact allKids_alike hP hr w
end

mutual
theorem classesReadable_alike {n n' : Node} : AlikeNode env n n' → ∀ {p : Place},
    ClassesReadable env p n → ClassesReadable env p n'
  | .dataset _ _, p, _ => by simp only [ClassesReadable]
  | .datatype _, p, _ => by simp only [ClassesReadable]
  | .group ha hk, p, w => by
    rw [ClassesReadable] at w ⊢
    rw [← alike_classReadable ha, ← below_congr (alike_nxClass ha)]
    exact ⟨w.1, classesReadableKids_alike hk w.2⟩
theorem classesReadableKids_alike {ks ks' : Kids} : AlikeKids env ks ks' → ∀ {p : Place},
    ClassesReadableKids env p ks → ClassesReadableKids env p ks'
  | .nil, p, w => w
  | .cons hn hr, p, w => by
    rw [ClassesReadableKids] at w ⊢
    exact ⟨classesReadable_alike hn w.1, classesReadableKids_alike hr w.2⟩
  | .broken hr, p, w => by
    rw [ClassesReadableKids] at w ⊢
    exact classesReadableKids_alike hr w
end

theorem nodeTargetOk_alike {n n' : Node} (h : AlikeNode env n n') (w : NodeTargetOk env n) :
    NodeTargetOk env n' := by
  cases h with
  | dataset ha _ => exact (alike_targetReadable ha _).1 w
  | datatype => exact w
  | group ha _ => exact (alike_targetReadable ha _).1 w

theorem nodeClassOk_alike {n n' : Node} (h : AlikeNode env n n') (w : NodeClassOk env n) :
    NodeClassOk env n' := by
  cases h with
  | dataset => exact w
  | datatype => exact w
  | group ha _ => exact (alike_classReadable ha _).1 w

theorem fileReadable_alike (h : StoredAlike env f f') (w : FileReadable env f) :
    FileReadable env f' :=
  ⟨intactKids_alike h.kids w.intact, (alike_targetReadable h.attrs _).1 w.rootTarget,
    allKids_alike (fun _ _ => nodeTargetOk_alike) h.kids w.targets,
    classesReadableKids_alike h.kids w.classes⟩

/-! ## checks -/

theorem attrCheckable_alike {o o' : H5Obj} (ho : AlikeObj env o o') {k : Str} {v v' : Val}
    (hv : SameText env v v') (w : AttrCheckable env o k v) : AttrCheckable env o' k v' := by
  have ht : (∃ s, TextOf env v s) → ∃ s, TextOf env v' s := fun ⟨s, h⟩ => ⟨s, same_textOf hv h⟩
  refine ⟨fun h => ht (w.text h), fun e h => ?_, fun e h => ht (w.groupSignal e ?_),
    fun e => (same_classReadable hv).1 (w.otherSignal e), fun e => ?_⟩
  · obtain ⟨n, a, d, e'⟩ := h
    obtain ⟨a', d', e'', _⟩ := (alikeObj_symm ho).dataset e'
    exact (same_fieldSignalOk hv).1 (w.fieldSignal e ⟨n, a', d', e''⟩)
  · obtain ⟨n, a, ks, e'⟩ := h
    obtain ⟨g, e'', hg⟩ := (alikeObj_symm ho).toNode e'
    cases hg with
    | group => exact ⟨_, _, _, e''⟩
  · obtain ⟨names, h1, h2⟩ := w.axes e
    refine ⟨names, (same_axes hv _).1 h1, h2.imp id fun ⟨⟨g, hg⟩, h⟩ => ?_⟩
    obtain ⟨g', hg', _⟩ := ho.group hg
    exact ⟨⟨g', hg'⟩, h⟩

theorem namesCheckable_alike (S : StoredPair env f f' items items')
    (w : NamesCheckable env items) : NamesCheckable env items' := by
  intro y hy hc attrs ha ka hka
  obtain ⟨x, hx, hl⟩ := S.symm.mem hy
  obtain ⟨b, hb, hab⟩ := hl.core.obj.attrs ha
  obtain ⟨v', h1, h2⟩ := alikeAttrs_mem hab (k := ka.1) (v := ka.2) hka
  exact attrCheckable_alike (alikeObj_symm hl.core.obj) (sameText_symm h2)
    (w x hx (hl.outside hc) b hb _ h1)

theorem classesMatched_alike (S : StoredPair env f f' items items')
    (w : ClassesMatched mgr items) : ClassesMatched mgr items' := by
  intro y hy hc attrs ha ka hka hcl
  obtain ⟨x, hx, hl⟩ := S.symm.mem hy
  obtain ⟨b, hb, hab⟩ := hl.core.obj.attrs ha
  obtain ⟨v', h1, h2⟩ := alikeAttrs_mem hab (k := ka.1) (v := ka.2) hka
  exact w x hx (hl.outside hc) b hb _ h1 hcl

theorem groupCheckable_alike {K : Str → Prop} {a a' : List (Str × Val)} (h : AlikeAttrs env K a a')
    {cp : Str} {d : ClassDef} (w : GroupCheckable env cp a d) : GroupCheckable env cp a' d := by
  have key : ∀ ka ∈ a', ∃ v, (ka.1, v) ∈ a ∧ SameText env v ka.2 := fun ka hka => by
    obtain ⟨v, h1, h2⟩ := alikeAttrs_mem (alikeAttrs_symm h) (k := ka.1) (v := ka.2) hka
    exact ⟨v, h1, sameText_symm h2⟩
  refine ⟨w.single, fun ka hka => ?_, fun ka hka spec hs hp => ?_, fun ka hka e => ?_, w.occurs⟩ <;>
    obtain ⟨v, h1, h2⟩ := key ka hka
  · exact (same_classReadable h2).1 (w.decode _ h1)
  · obtain ⟨s, hs⟩ := w.text _ h1 spec hs hp
    exact ⟨s, same_textOf h2 hs⟩
  · exact w.target (ka.1, v) h1 e

theorem groupsCheckable_alike (S : StoredPair env f f' items items') {classes : Dict Str ClassDef}
    (w : GroupsCheckable env classes items) : GroupsCheckable env classes items' := by
  intro y hy g hg hc
  obtain ⟨x, hx, hl⟩ := S.symm.mem hy
  obtain ⟨g', hg', hn⟩ := hl.core.obj.group hg
  obtain ⟨h1, h2⟩ := w x hx g' hg' (hl.outside hc)
  refine ⟨fun p hp => ?_, fun c d hcl hd => ?_⟩
  · obtain ⟨p', hp', hlp⟩ := parent_alike hl.ancestors hp
    rw [hlp.classpath]
    exact h1 p' hp'
  · rw [groupClass_alike (alike_attrs hn), hl.core.classpath] at hcl
    rw [hl.core.classpath]
    exact groupCheckable_alike (alikeAttrs_symm (alike_attrs hn)) (h2 c d hcl hd)

theorem fieldCheckable_alike (h : StoredAlike env f f') {g g' : Node} (hg : AlikeNode env g g')
    {fld : Str × FieldSpec} (w : FieldCheckable env mgr f g fld) :
    FieldCheckable env mgr f' g' fld := by
  rcases w with ⟨n, h1, h2, h3⟩ | ⟨h1, h2⟩
  · obtain ⟨n', h1', hn⟩ := alike_get_some h hg h1
    refine .inl ⟨n', h1', ⟨h2.1.imp (alike_name hn ▸ id) (nodeClassOk_alike hn),
      nodeTargetOk_alike hn h2.2⟩, fun he => ?_⟩
    obtain ⟨⟨m, a, d, rfl, s, hs⟩, h4, h5⟩ := h3 he
    refine ⟨?_, h4, fun k => hasOneOf_alike hn (h5 k)⟩
    cases hn with
    | dataset _ hd =>
      exact ⟨_, _, _, rfl, s, by rwa [← same_holdsText hd, ← same_holdsOther hd]⟩
  · exact .inr ⟨alike_get_none h hg h1, h2⟩

theorem definitionsCheckable_alike (S : StoredPair env f f' items items')
    (w : DefinitionsCheckable env mgr f items) : DefinitionsCheckable env mgr f' items' := by
  intro y hy hi
  obtain ⟨x, hx, hl⟩ := S.symm.mem hy
  obtain ⟨p, g, hp, hg, name, h1, h2⟩ := w x hx (by rw [IsDefinition] at hi ⊢; rwa [← hl.core.classpath])
  obtain ⟨p', hp', hlp⟩ := parent_alike hl.symm.ancestors hp
  obtain ⟨g', hg', hn⟩ := hlp.obj.group hg
  refine ⟨p', g', hp', hg', name, declares_alike S.file hn h1, fun ad had => ?_⟩
  obtain ⟨gname, entry, more, e, h3⟩ := h2 ad had
  exact ⟨gname, entry, more, e, fun fld hf => fieldCheckable_alike S.file hn (h3 fld hf)⟩

theorem pointer_alike {x y : Item} (h : AlikeItem env x y) {k : Str} (w : Pointer env x k) :
    Pointer env y k := by
  obtain ⟨attrs, h1, h2⟩ := w
  obtain ⟨b, h3, h4⟩ := h.core.obj.attrs h1
  refine ⟨b, h3, fun v' e => ?_⟩
  have := alikeAttrs_lookup h4 k
  rw [e] at this
  generalize ha : attrs.lookup k = o at *
  cases this with
  | some r =>
    obtain ⟨⟨s, hs⟩, g, hg⟩ := h2 _ rfl
    obtain ⟨g', hg', _⟩ := h.core.obj.group hg
    exact ⟨⟨s, same_textOf r hs⟩, g', hg'⟩

theorem signalCheckable_alike (S : StoredPair env f f' items items') {x y : Item}
    (h : AlikeItem env x y) (w : SignalCheckable env f items x) :
    SignalCheckable env f' items' y := by
  obtain ⟨D, E, R, t, h1, h2, h3, h4, h5, h6⟩ := w
  obtain ⟨D', E', R', h7, lD, lE, lR⟩ := inGroups_alike S h h1
  refine ⟨D', E', R', t, h7, pointer_alike lR h2, pointer_alike lE h3, pointer_alike lD h4,
    pointer_names_alike lD h5, fun hp => ?_⟩
  obtain ⟨T, hT⟩ := h6 (pointsAt_alike S.symm lD.symm hp)
  obtain ⟨T', hT', _⟩ := itemAt_some S hT
  exact ⟨T', hT'⟩

theorem split_alike' {l l' : List Item} (h : List.Forall₂ (AlikeItem env) l l')
    {before after : List Item} {x : Item} (e : l = before ++ x :: after) :
    ∃ before' y after', l' = before' ++ y :: after' ∧ AlikeItem env x y ∧
      List.Forall₂ (AlikeItem env) before before' := by
  induction before generalizing l l' with
  | nil =>
    subst e
    cases h with
    | cons hx ha => exact ⟨[], _, _, rfl, hx, .nil⟩
  | cons z zs ih =>
    subst e
    cases h with
    | cons hx ha =>
      obtain ⟨b, y, c, e, h1, h2⟩ := ih ha rfl
      exact ⟨_ :: b, y, c, by rw [e]; rfl, h1, .cons hx h2⟩

theorem plotCheckable_alike (S : StoredPair env f f' items items') {classes : Dict Str ClassDef}
    (w : PlotCheckable env f classes items) : PlotCheckable env f' classes items' := by
  refine ⟨fun before y after e hb => ?_, fun h1 h2 => ?_⟩
  · obtain ⟨b', x, c', e', hl, hb'⟩ := split_alike' (withClasspath_alike S.symm _) e
    refine signalCheckable_alike S hl.symm (w.1 b' x c' e' fun i hi k => ?_)
    obtain ⟨j, hj, r⟩ := forall₂_mem (alikeItems_symm hb') hi
    exact hb j hj (signalMissing_alike S r k)
  · exact w.2 ((attributePlot_alike_iff S).not.2 h1) ((signalPlot_alike_iff S).not.2 h2)

/-! ## the whole validation -/

theorem validatable_alike (h : StoredAlike env f f') (w : Validatable env mgr f) :
    Validatable env mgr f' := by
  have S := StoredPair.of h
  exact ⟨fileReadable_alike h w.readable, namesCheckable_alike S w.names,
    classesMatched_alike S w.classes, groupsCheckable_alike S w.groups,
    definitionsCheckable_alike S w.definitions, plotCheckable_alike S w.plot⟩

/-- C126: if two files hold the same texts, stored in different ways (the attributes `signal` of
fields aside), the validation of one completes if and only if that of the other does. -/
theorem stored_completes_iff_partial (h : StoredAlike env f f') (hw : WellNamedFile f) :
    (validateOpen env mgr mins f).res = .ok () ↔ (validateOpen env mgr mins f').res = .ok () := by
  rw [validation_completes_iff hw, validation_completes_iff (wellNamedFile_alike h hw)]
  exact ⟨validatable_alike h, validatable_alike (storedAlike_symm h)⟩

/-- C126: if two files hold the same texts, stored in different ways (the attributes `signal` of
fields aside), the reports on them have the same lines. -/
theorem stored_report_partial (h : StoredAlike env f f') (hdig : env.isdigit s%"1" = true)
    (hw : WellNamedFile f)
    (hnd : ∀ d, Dict.get? mgr.classes s%"NXentry" = some d → (Dict.keys d.groups).Nodup)
    (hc : (validateOpen env mgr mins f).res = .ok ()) (l : Line) :
    l ∈ report (validateOpen env mgr mins f).log ↔ l ∈ report (validateOpen env mgr mins f').log := by
  have S := StoredPair.of h
  rw [report_iff hdig hw hnd hc, report_iff hdig (wellNamedFile_alike h hw) hnd
    ((stored_completes_iff_partial h hw).1 hc)]
  exact ⟨expected_alike S, expected_alike S.symm⟩

end Punx

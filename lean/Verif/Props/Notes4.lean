import Verif.Props.Notes3
import Verif.Props.Reorder4
import Verif.Props.Expected3

/-!
# C123: attributes that are notes do not change anything else
-/

namespace Punx
open Spec

variable {env : Env} {mgr : Manager} {mins : Dict (Str × Str) Int} {N : Str → Bool} {f : H5File}
  {items items' : List Item}

/-! ## the tree -/

theorem filter_keys_nodup {a : List (Str × Val)} (h : (a.map (·.1)).Nodup) :
    ((a.filter fun ka => !N ka.1).map (·.1)).Nodup :=
  h.sublist (List.filter_sublist.map _)

theorem withoutKids_names (ks : Kids) :
    (withoutKids N ks).toList.map (·.1) = ks.toList.map (·.1) := by
  rw [withoutKids_toList, List.map_map]
  rfl

mutual
theorem wellNamed_without {p : Str} : (n : Node) → WellNamed p n → WellNamed p (withoutNode N n)
  | .dataset .., w => by
    rw [withoutNode]
    rw [WellNamed] at w ⊢
    exact ⟨w.1, filter_keys_nodup w.2⟩
  | .datatype .., w => by
    rw [withoutNode]
    rw [WellNamed] at w ⊢
    exact ⟨w.1, filter_keys_nodup w.2⟩
  | .group n a ks, w => by
    rw [withoutNode]
    rw [WellNamed] at w ⊢
    rw [withoutKids_names]
    exact ⟨w.1, filter_keys_nodup w.2.1, w.2.2.1, wellNamedKids_without ks w.2.2.2⟩
theorem wellNamedKids_without {p : Str} : (ks : Kids) → WellNamedKids p ks →
    WellNamedKids p (withoutKids N ks)
  | .nil, w => by rw [withoutKids]; exact w
  | .cons l k n r, w => by
    rw [withoutKids]
    rw [WellNamedKids] at w ⊢
    exact ⟨w.1, w.2.1, w.2.2.1, wellNamed_without n w.2.2.2.1, wellNamedKids_without r w.2.2.2.2⟩
  | .broken l k r, w => by
    rw [withoutKids]
    rw [WellNamedKids] at w ⊢
    exact wellNamedKids_without r w
end

theorem wellNamedFile_without (w : WellNamedFile f) : WellNamedFile (without N f) := by
  refine ⟨filter_keys_nodup w.1, ?_, wellNamedKids_without _ w.2.2⟩
  show ((withoutKids N f.kids).toList.map _).Nodup
  rw [withoutKids_names]
  exact w.2.1

mutual
theorem intact_without : (n : Node) → (Intact (withoutNode N n) ↔ Intact n)
  | .dataset .. => by rw [withoutNode, Intact, Intact]; all_goals (intros; simp_all)
  | .datatype .. => by rw [withoutNode, Intact, Intact]; all_goals (intros; simp_all)
  | .group n a ks => by
    rw [withoutNode, Intact, Intact]
    exact intactKids_without ks
theorem intactKids_without : (ks : Kids) → (IntactKids (withoutKids N ks) ↔ IntactKids ks)
  | .nil => by rw [withoutKids]
  | .cons l k n r => by
    rw [withoutKids, IntactKids, IntactKids, intact_without n, intactKids_without r]
  | .broken .. => by rw [withoutKids, IntactKids, IntactKids]
end

mutual
theorem allNodes_without {P : Node → Prop} (hP : ∀ n, P (withoutNode N n) ↔ P n) :
    (n : Node) → (AllNodes P (withoutNode N n) ↔ AllNodes P n)
  | .dataset n a d => by
    have := hP (.dataset n a d)
    rw [withoutNode] at this ⊢
    rw [AllNodes, AllNodes]
    exact this
  | .datatype n a => by
    have := hP (.datatype n a)
    rw [withoutNode] at this ⊢
    rw [AllNodes, AllNodes]
    exact this
  | .group n a ks => by
    have := hP (.group n a ks)
    rw [withoutNode] at this ⊢
    rw [AllNodes, AllNodes, this, allKids_without hP ks]
theorem allKids_without {P : Node → Prop} (hP : ∀ n, P (withoutNode N n) ↔ P n) :
    (ks : Kids) → (AllKids P (withoutKids N ks) ↔ AllKids P ks)
  | .nil => by rw [withoutKids]
  | .cons l k n r => by
    rw [withoutKids, AllKids, AllKids, allNodes_without hP n, allKids_without hP r]
  | .broken l k r => by
    rw [withoutKids, AllKids, AllKids, allKids_without hP r]
end

mutual
theorem classesReadable_without (hN : OnlyNotes N) : (n : Node) → ∀ {p : Place},
    (ClassesReadable env p (withoutNode N n) ↔ ClassesReadable env p n)
  | .dataset .., p => by simp [withoutNode, ClassesReadable]
  | .datatype .., p => by simp [withoutNode, ClassesReadable]
  | .group n a ks, p => by
    rw [withoutNode, ClassesReadable, ClassesReadable, lookup_filter (hN.other (by simp)),
      below_congr (nxClassOf_without hN a), classesReadableKids_without hN ks]
theorem classesReadableKids_without (hN : OnlyNotes N) : (ks : Kids) → ∀ {p : Place},
    (ClassesReadableKids env p (withoutKids N ks) ↔ ClassesReadableKids env p ks)
  | .nil, p => by rw [withoutKids]
  | .cons l k n r, p => by
    rw [withoutKids, ClassesReadableKids, ClassesReadableKids, classesReadable_without hN n,
      classesReadableKids_without hN r]
  | .broken l k r, p => by
    rw [withoutKids, ClassesReadableKids, ClassesReadableKids, classesReadableKids_without hN r]
end

theorem nodeTargetOk_without (hN : OnlyNotes N) (n : Node) :
    NodeTargetOk env (withoutNode N n) ↔ NodeTargetOk env n := by
  have h : N s%"target" = false := hN.other (by simp)
  cases n <;> simp only [withoutNode, NodeTargetOk, Node.attrs, lookup_filter h]

theorem nodeClassOk_without (hN : OnlyNotes N) (n : Node) :
    NodeClassOk env (withoutNode N n) ↔ NodeClassOk env n := by
  have h : N s%"NX_class" = false := hN.other (by simp)
  cases n <;> simp only [withoutNode, NodeClassOk, lookup_filter h]

theorem fileReadable_without (hN : OnlyNotes N) :
    FileReadable env (without N f) ↔ FileReadable env f := by
  have h : ∀ g : H5File, FileReadable env g ↔ IntactKids g.kids ∧
      targetReadable env (g.attrs.lookup s%"target") ∧ AllKids (NodeTargetOk env) g.kids ∧
      ClassesReadableKids env .nexus g.kids :=
    fun g => ⟨fun ⟨a, b, c, d⟩ => ⟨a, b, c, d⟩, fun ⟨a, b, c, d⟩ => ⟨a, b, c, d⟩⟩
  rw [h, h]
  simp only [without, intactKids_without, lookup_filter (hN.other (k := s%"target") (by simp)),
    allKids_without (nodeTargetOk_without hN), classesReadableKids_without hN]

/-! ## checks -/

theorem attrCheckable_note {o : H5Obj} {k : Str} {v : Val} :
    AttrCheckable env (withoutObj N o) k v ↔ AttrCheckable env o k v := by
  have h1 : (∃ n a d, withoutObj N o = .node (.dataset n a d)) ↔
      ∃ n a d, o = .node (.dataset n a d) := by
    cases o with
    | node n => cases n <;> simp [withoutObj, withoutNode]
    | file => simp [withoutObj]
    | val => simp [withoutObj]
    | none => simp [withoutObj]
  have h2 : (∃ n a d, withoutObj N o = .node (.group n a d)) ↔
      ∃ n a d, o = .node (.group n a d) := by
    cases o with
    | node n => cases n <;> simp [withoutObj, withoutNode]
    | file => simp [withoutObj]
    | val => simp [withoutObj]
    | none => simp [withoutObj]
  have h3 : (∃ g, (withoutObj N o).asGroup = some g) ↔ ∃ g, o.asGroup = some g := by
    rw [withoutObj_asGroup]
    cases o.asGroup <;> simp
  have key : ∀ o : H5Obj, AttrCheckable env o k v ↔
      (k = s%"NX_class" ∨ k = s%"target" ∨ s%"@NX_class" <:+ k → ∃ s, TextOf env v s) ∧
      (k = s%"signal" → (∃ n a d, o = .node (.dataset n a d)) → FieldSignalOk env v) ∧
      (k = s%"signal" → (∃ n a ks, o = .node (.group n a ks)) → ∃ s, TextOf env v s) ∧
      (k = s%"signal" → classReadable env (some v)) ∧
      (k = s%"axes" → ∃ names, AxesOf env v names ∧
        (names = [] ∨ (∃ g, o.asGroup = some g) ∧ [] ∉ names)) :=
    fun o => ⟨fun ⟨a, b, c, d, e⟩ => ⟨a, b, c, d, e⟩, fun ⟨a, b, c, d, e⟩ => ⟨a, b, c, d, e⟩⟩
  rw [key, key, h1, h2, h3]

theorem attrCheckable_of_note {o : H5Obj} {k : Str} {v : Val} (hN : OnlyNotes N)
    (hk : N k = true) : AttrCheckable env o k v := by
  have hn := hN k hk
  have h1 : k ≠ s%"signal" := fun e => hn.2 (by simp [e])
  have h2 : k ≠ s%"axes" := fun e => hn.2 (by simp [e])
  refine ⟨fun h => ?_, fun e => absurd e h1, fun e => absurd e h1, fun e => absurd e h1,
    fun e => absurd e h2⟩
  rcases h with e | e | e
  · exact absurd (by simp [e]) hn.2
  · exact absurd (by simp [e]) hn.2
  · exact absurd (e.subset (by simp)) hn.1

theorem namesCheckable_note (S : NoteFile N items items') :
    NamesCheckable env items ↔ NamesCheckable env items' := by
  constructor
  · intro w y hy hc attrs ha ka hka
    by_cases hk : N ka.1 = true
    · exact attrCheckable_of_note S.only hk
    · obtain ⟨x, hx, hl⟩ := S.down hy (noteItem_attrs ha)
      have := w x hx (fun e => hc (hl.outside.1 e)) _ (hl.attrs ha) ka
        (List.mem_filter.2 ⟨hka, by simpa using hk⟩)
      rwa [hl.core.obj, attrCheckable_note] at this
  · intro w x hx hc attrs ha ka hka
    obtain ⟨y, hy, hl, _⟩ := S.up hx
    obtain ⟨b, e, rfl⟩ := hl.attrs' ha
    rw [hl.core.obj, attrCheckable_note]
    exact w y hy (fun e => hc (hl.outside.2 e)) _ e ka (List.mem_filter.1 hka).1

theorem classesMatched_note (S : NoteFile N items items') :
    ClassesMatched mgr items ↔ ClassesMatched mgr items' := by
  constructor
  · intro w y hy hc attrs ha ka hka hcl
    obtain ⟨x, hx, hl⟩ := S.down hy (noteItem_attrs ha)
    exact w x hx (fun e => hc (hl.outside.1 e)) _ (hl.attrs ha) ka
      (List.mem_filter.2 ⟨hka, by rw [S.only.namesClass hcl]; rfl⟩) hcl
  · intro w x hx hc attrs ha ka hka
    obtain ⟨y, hy, hl, _⟩ := S.up hx
    obtain ⟨b, e, rfl⟩ := hl.attrs' ha
    exact w y hy (fun e => hc (hl.outside.2 e)) _ e ka (List.mem_filter.1 hka).1

theorem groupCheckable_note (hN : OnlyNotes N) {cp : Str} {a : List (Str × Val)} {d : ClassDef} :
    GroupCheckable env cp a d ↔ GroupCheckable env cp (a.filter fun ka => !N ka.1) d ∧
      ∀ k v, (k, v) ∈ a → N k = true → classReadable env (some v) ∧
        ∀ spec, Dict.get? d.attrs k = some spec → spec.enums ≠ [] → ∃ s, TextOf env v s := by
  constructor
  · intro w
    refine ⟨⟨w.single, fun ka h => w.decode ka (List.mem_filter.1 h).1,
      fun ka h => w.text ka (List.mem_filter.1 h).1,
      fun ka h => w.target ka (List.mem_filter.1 h).1, w.occurs⟩, fun k v h _ => ?_⟩
    exact ⟨w.decode _ h, fun spec hs he => w.text _ h spec hs (.inl he)⟩
  · rintro ⟨w, hn⟩
    have hf : ∀ ka ∈ a, N ka.1 = false → ka ∈ a.filter fun ka => !N ka.1 :=
      fun ka h e => List.mem_filter.2 ⟨h, by rw [e]; rfl⟩
    refine ⟨w.single, fun ka h => ?_, fun ka h spec hs hp => ?_, fun ka h e => ?_, w.occurs⟩
    · cases e : N ka.1 with
      | false => exact w.decode _ (hf ka h e)
      | true => exact (hn _ _ h e).1
    · cases e : N ka.1 with
      | false => exact w.text _ (hf ka h e) spec hs hp
      | true =>
        refine (hn _ _ h e).2 spec hs (hp.resolve_right ?_)
        rintro (k | ⟨k, _⟩) <;> exact absurd (by simp [k]) (hN _ e).2
    · exact w.target _ (hf ka h (by rw [e]; exact hN.other (by simp))) e

theorem groupsCheckable_note (S : NoteFile N items items') :
    GroupsCheckable env mgr.classes items' ↔
      GroupsCheckable env mgr.classes items ∧ NotesReadable env mgr N items' := by
  constructor
  · intro w
    refine ⟨fun x hx g hg hc => ?_, ?_⟩
    · obtain ⟨y, hy, hl, _⟩ := S.up hx
      obtain ⟨g', e, rfl⟩ := hl.group' hg
      have hc' : y.classpath ≠ s%"non-NeXus content" := fun k => hc (hl.outside.2 k)
      obtain ⟨h1, h2⟩ := w y hy g' e hc'
      refine ⟨fun p hp => ?_, fun c d hcl hd => ?_⟩
      · obtain ⟨p', hp', hlp, _⟩ := hl.parent' hc' hp
        rw [hlp.core.classpath]
        exact h1 p' hp'
      · rw [groupClass_without S.only, hl.core.classpath] at hcl
        rw [hl.core.classpath, withoutNode_attrs]
        exact ((groupCheckable_note S.only).1 (h2 c d hcl hd)).1
    · rintro g d k v ⟨y, hy, hg, hc, c, hcl, hd, hk⟩ hn
      exact ((groupCheckable_note S.only).1 ((w y hy g hg hc).2 c d hcl hd)).2 k v hk hn
  · rintro ⟨w, hn⟩ y hy g hg hc
    obtain ⟨x, hx, hl⟩ := S.down hy (noteItem_group hg)
    obtain ⟨h1, h2⟩ := w x hx _ (hl.group hg) (fun k => hc (hl.outside.1 k))
    refine ⟨fun p hp => ?_, fun c d hcl hd => ?_⟩
    · obtain ⟨p', hp', hlp, _⟩ := hl.parent hc hp
      rw [← hlp.core.classpath]
      exact h1 p' hp'
    · have := h2 c d (by rwa [groupClass_without S.only, hl.core.classpath]) hd
      rw [hl.core.classpath, withoutNode_attrs] at this
      exact (groupCheckable_note S.only).2
        ⟨this, fun k v hk => hn g d k v ⟨y, hy, hg, hc, c, hcl, hd, hk⟩⟩

theorem fieldCheckable_note (hN : OnlyNotes N) {g : Node} {fld : Str × FieldSpec} :
    FieldCheckable env mgr (without N f) (withoutNode N g) fld ↔ FieldCheckable env mgr f g fld := by
  have hr : ∀ n, ItemReadable env (withoutNode N n) ↔ ItemReadable env n := by
    intro n
    rw [ItemReadable, ItemReadable, withoutNode_name, nodeClassOk_without hN,
      nodeTargetOk_without hN]
  have hd : ∀ n, (∃ m a d, withoutNode N n = .dataset m a d ∧
      ∃ s, HoldsText env d.value s ∨ HoldsOther env d.value s) ↔
      ∃ m a d, n = .dataset m a d ∧ ∃ s, HoldsText env d.value s ∨ HoldsOther env d.value s := by
    intro n
    cases n <;> simp [withoutNode]
  rw [FieldCheckable, FieldCheckable, get_none_up]
  refine or_congr ⟨?_, ?_⟩ Iff.rfl
  · rintro ⟨m, h1, h2, h3⟩
    obtain ⟨n, e, rfl⟩ := get_up h1
    rw [hd, hasOneOf_without] at h3
    exact ⟨n, e, (hr n).1 h2, h3⟩
  · rintro ⟨n, h1, h2, h3⟩
    refine ⟨_, get_down h1, (hr n).2 h2, ?_⟩
    rwa [hd, hasOneOf_without]

theorem definitionsCheckable_note (S : NoteFile N items items') :
    DefinitionsCheckable env mgr (without N f) items ↔ DefinitionsCheckable env mgr f items' := by
  have hd : ∀ g, DefinitionCheckable env mgr (without N f) (withoutNode N g) ↔
      DefinitionCheckable env mgr f g := by
    intro g
    simp only [DefinitionCheckable, declares_without, fieldCheckable_note S.only]
  constructor
  · intro w y hy hi
    obtain ⟨x, hx, hl⟩ := S.down hy (noteItem_definition S hy hi)
    obtain ⟨p, g, hp, hg, h⟩ := w x hx (by rw [IsDefinition] at hi ⊢; rwa [hl.core.classpath])
    obtain ⟨p', hp', hlp, _⟩ := hl.parent' (isDefinition_at hi).2 hp
    obtain ⟨g', hg', rfl⟩ := hlp.group' hg
    exact ⟨p', g', hp', hg', (hd g').1 h⟩
  · intro w x hx hi
    obtain ⟨y, hy, hl, _⟩ := S.up hx
    have hi' : IsDefinition y := by rw [IsDefinition] at hi ⊢; rwa [← hl.core.classpath]
    obtain ⟨p, g, hp, hg, h⟩ := w y hy hi'
    obtain ⟨p', hp', hlp, _⟩ := hl.parent (isDefinition_at hi').2 hp
    exact ⟨p', _, hp', hlp.group hg, (hd g).2 h⟩

theorem pointer_note {x y : Item} (h : NoteRel N x y) {k : Str} (hk : N k = false) :
    Pointer env x k ↔ Pointer env y k := by
  have hg : (∃ g, x.obj.asGroup = some g) ↔ ∃ g, y.obj.asGroup = some g := by
    rw [h.core.obj, withoutObj_asGroup]
    cases y.obj.asGroup <;> simp
  constructor
  · rintro ⟨attrs, h1, h2⟩
    obtain ⟨b, e, rfl⟩ := h.attrs' h1
    rw [lookup_filter hk, hg] at h2
    exact ⟨b, e, h2⟩
  · rintro ⟨attrs, h1, h2⟩
    refine ⟨_, h.attrs h1, ?_⟩
    rwa [lookup_filter hk, hg]

theorem signalCheckable_note (S : NoteAddr N f items items') {x y : Item} (h : NoteRel N x y) :
    SignalCheckable env (without N f) items x ↔ SignalCheckable env f items' y := by
  have key : ∀ {is : List Item} {i : Item} {f : H5File}, SignalCheckable env f is i ↔
      ∃ D E R, InGroups is i D E R ∧ ∃ t, Pointer env R s%"default" ∧ Pointer env E s%"default" ∧
        Pointer env D s%"signal" ∧ Names env D s%"signal" t ∧
        (PointsAt env f D s%"signal" t → ∃ T, itemAt is t = some T ∧ True) := by
    intro is i f
    simp only [and_true]
    exact ⟨fun ⟨D, E, R, t, h1, h2⟩ => ⟨D, E, R, h1, t, h2⟩,
      fun ⟨D, E, R, h1, t, h2⟩ => ⟨D, E, R, t, h1, h2⟩⟩
  have h1 : N s%"signal" = false := S.only.other (by simp)
  have h2 : N s%"default" = false := S.only.other (by simp)
  rw [key, key]
  refine inGroups_note S h fun D D' E E' R R' lD lE lR ⟨w, aD⟩ => exists_congr fun t => ?_
  rw [pointer_note lR h2, pointer_note lE h2, pointer_note lD h1, pointer_names_note lD h1,
    pointsAt_note lD h1]
  refine and_congr Iff.rfl <| and_congr Iff.rfl <| and_congr Iff.rfl <| and_congr Iff.rfl <|
    imp_congr_right fun hp => ?_
  exact itemAt_note S (pointsAt_at S lD aD hp) fun T T' _ _ => Iff.rfl

theorem upTo_note {l l' : List Item} (h : List.Forall₂ (NoteRel N) l l') {P Q C D : Item → Prop}
    (hP : ∀ x y, NoteRel N x y → (P x ↔ Q y)) (hC : ∀ x y, NoteRel N x y → (C x ↔ D y)) :
    (∀ before it after, l = before ++ it :: after → (∀ i ∈ before, ¬ P i) → C it) ↔
      ∀ before it after, l' = before ++ it :: after → (∀ i ∈ before, ¬ Q i) → D it := by
  have key : ∀ {l l' : List Item} {R : Item → Item → Prop} {P Q C D : Item → Prop},
      List.Forall₂ R l l' → (∀ x y, R x y → (P x ↔ Q y)) → (∀ x y, R x y → (C x ↔ D y)) →
      (∀ before it after, l = before ++ it :: after → (∀ i ∈ before, ¬ P i) → C it) →
      ∀ before it after, l' = before ++ it :: after → (∀ i ∈ before, ¬ Q i) → D it := by
    intro l l' R P Q C D h hP hC w before it after e hq
    subst e
    have h1 := List.forall₂_take_append _ _ _ h
    have h2 := List.forall₂_drop_append _ _ _ h
    have h3 : l.take before.length ++ l.drop before.length = l := List.take_append_drop _ _
    generalize l.take before.length = b at *
    generalize l.drop before.length = r at *
    cases h2 with
    | @cons x _ a _ hx ha =>
      refine (hC x it hx).1 (w b x a h3.symm fun i hi hp => ?_)
      obtain ⟨y, hy, hr⟩ := (PermBy.of_forall₂ h1).mem hi
      exact hq y hy ((hP i y hr).1 hp)
  exact ⟨key h hP hC, key h.flip (fun x y r => (hP y x r).symm) fun x y r => (hC y x r).symm⟩

theorem plotCheckable_note (S : NoteAddr N f items items') {classes : Dict Str ClassDef} :
    PlotCheckable env (without N f) classes items ↔ PlotCheckable env f classes items' := by
  rw [PlotCheckable, PlotCheckable, attributePlot_note S, signalPlot_note S.toNoteFile]
  refine and_congr ?_ Iff.rfl
  exact upTo_note (dataSignals_note S.toNoteFile) (fun x y h => signalMissing_note S h)
    fun x y h => signalCheckable_note S h

/-! ## the whole validation -/

theorem noteAddr_contents (hN : OnlyNotes N) (hw : WellNamedFile f) (w : FileReadable env f) :
    NoteAddr N f (contents env (without N f)) (contents env f) := by
  refine ⟨⟨hN, contents_note hN hw, fun it hm hx => contents_at hm hx⟩, ?_, hw, w.intact⟩
  have hc := (catalog_completes_iff hw).2 w
  rw [← catalog_contents hw hc]
  exact catalog_addresses_nodup_partial hc hw

theorem validatable_note (hN : OnlyNotes N) (hw : WellNamedFile f) :
    Validatable env mgr f ↔
      Validatable env mgr (without N f) ∧ NotesReadable env mgr N (contents env f) := by
  constructor
  · intro w
    have S := noteAddr_contents hN hw w.readable
    obtain ⟨h1, h2⟩ := (groupsCheckable_note S.toNoteFile).1 w.groups
    exact ⟨⟨(fileReadable_without hN).2 w.readable, (namesCheckable_note S.toNoteFile).2 w.names,
      (classesMatched_note S.toNoteFile).2 w.classes, h1,
      (definitionsCheckable_note S.toNoteFile).2 w.definitions,
      (plotCheckable_note S).2 w.plot⟩, h2⟩
  · rintro ⟨w, hn⟩
    have hr := (fileReadable_without hN).1 w.readable
    have S := noteAddr_contents hN hw hr
    exact ⟨hr, (namesCheckable_note S.toNoteFile).1 w.names,
      (classesMatched_note S.toNoteFile).1 w.classes,
      (groupsCheckable_note S.toNoteFile).2 ⟨w.groups, hn⟩,
      (definitionsCheckable_note S.toNoteFile).1 w.definitions, (plotCheckable_note S).1 w.plot⟩

/-- C123: whether the validation of a file completes does not depend on notes that can be read: it
completes if and only if that of the file without the notes does, and the notes of groups can be
decoded (and are text where their values are enumerated). -/
theorem notes_completes_iff (hN : ∀ k, N k = true → IsNote k) (hw : WellNamedFile f) :
    (validateOpen env mgr mins f).res = .ok () ↔
      (validateOpen env mgr mins (without N f)).res = .ok () ∧
        NotesReadable env mgr N (contents env f) := by
  rw [validation_completes_iff hw, validation_completes_iff (wellNamedFile_without hw),
    validatable_note hN hw]

/-- C123: the lines of the report on a file are those of the report on the file without its notes,
and the lines on the notes themselves. -/
theorem notes_report_iff (hN : ∀ k, N k = true → IsNote k) (hdig : env.isdigit s%"1" = true)
    (hw : WellNamedFile f)
    (hnd : ∀ d, Dict.get? mgr.classes s%"NXentry" = some d → (Dict.keys d.groups).Nodup)
    (h : (validateOpen env mgr mins f).res = .ok ()) (l : Line) :
    l ∈ report (validateOpen env mgr mins f).log ↔
      l ∈ report (validateOpen env mgr mins (without N f)).log ∨
        NoteLine env mgr N (contents env f) l := by
  have h' := ((notes_completes_iff (mins := mins) (mgr := mgr) (env := env) hN hw).1 h).1
  have S := noteAddr_contents hN hw ((validation_completes_iff hw).1 h).readable
  rw [report_iff hdig hw hnd h, report_iff hdig (wellNamedFile_without hw) hnd h', expected_note S]

/-- C123: the errors in a file are those in the file without its notes, names of notes that are no
valid names, and notes whose value is not among those enumerated. -/
theorem notes_errors_iff (hN : ∀ k, N k = true → IsNote k) (hdig : env.isdigit s%"1" = true)
    (hw : WellNamedFile f)
    (hnd : ∀ d, Dict.get? mgr.classes s%"NXentry" = some d → (Dict.keys d.groups).Nodup)
    (h : (validateOpen env mgr mins f).res = .ok ()) (a : Option Str) (t : Str) :
    (a, t, Status.error) ∈ report (validateOpen env mgr mins f).log ↔
      (a, t, Status.error) ∈ report (validateOpen env mgr mins (without N f)).log ∨
      (∃ o b k v, CarriesAttr (contents env f) o b k v ∧ N k = true ∧ ¬ Linked env o ∧
        ¬ NameOk env mgr k ∧ a = some (b ++ '@' :: k) ∧ t = s%"validItemName") ∨
      ∃ g d k v spec, GroupAttr env mgr (contents env f) g d k v ∧ N k = true ∧
        Dict.get? d.attrs k = some spec ∧ spec.enums ≠ [] ∧ ¬ Enumerated env spec.enums v ∧
        a = some (g.name ++ '@' :: k) ∧ t = s%"attribute value enumeration" := by
  rw [notes_report_iff hN hdig hw hnd h]
  refine or_congr Iff.rfl ⟨fun hl => ?_, ?_⟩
  · generalize e : (a, t, Status.error) = l at hl
    cases hl with
    | name hc hn hx hr =>
      cases e
      exact .inl ⟨_, _, _, _, hc, hn, hx, AttrNameRule.error_iff.1 hr, rfl, rfl⟩
    | value => cases e
    | known => cases e
    | @enumeration g d k v spec hg hn hs he =>
      injection e with e1 e2
      injection e2 with e2 e3
      refine .inr ⟨g, d, k, v, spec, hg, hn, hs, he, fun hv => ?_, e1, e2⟩
      rw [okIf, if_pos hv] at e3
      cases e3
    | todo => injection e with _ e; injection e with _ e; cases e
  · rintro (⟨o, b, k, v, hc, hn, hx, hr, rfl, rfl⟩ | ⟨g, d, k, v, spec, hg, hn, hs, he, hv, rfl, rfl⟩)
    · exact .name hc hn hx (AttrNameRule.error_iff.2 hr)
    · have := NoteLine.enumeration hg hn hs he
      rwa [okIf, if_neg hv] at this

end Punx

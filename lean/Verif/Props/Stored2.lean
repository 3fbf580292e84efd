import Verif.Props.Stored

/-!
# C126: how texts are stored, the lines of the report
-/

namespace Punx
open Spec

variable {env : Env} {mgr : Manager} {mins : Dict (Str × Str) Int} {f f' : H5File}
  {items items' : List Item}

/-- Two files that hold the same texts, and their items. -/
structure StoredPair (env : Env) (f f' : H5File) (items items' : List Item) : Prop where
  file : StoredAlike env f f'
  rel : List.Forall₂ (AlikeItem env) items items'

theorem StoredPair.symm (S : StoredPair env f f' items items') : StoredPair env f' f items' items :=
  ⟨storedAlike_symm S.file, alikeItems_symm S.rel⟩

theorem StoredPair.of (h : StoredAlike env f f') :
    StoredPair env f f' (contents env f) (contents env f') := ⟨h, contents_alike h⟩

theorem StoredPair.mem (S : StoredPair env f f' items items') {x : Item} (hx : x ∈ items) :
    ∃ y ∈ items', AlikeItem env x y := forall₂_mem S.rel hx

/-! ## objects of items -/

theorem AlikeObj.attrs {o o' : H5Obj} (h : AlikeObj env o o') {a : List (Str × Val)}
    (e : o.attrs? = some a) :
    ∃ a', o'.attrs? = some a' ∧ AlikeAttrs env (fun _ => False) a a' := by
  cases h with
  | file h => cases e; exact ⟨_, rfl, h.attrs⟩
  | node h => cases e; exact ⟨_, rfl, alike_attrs h⟩
  | val => cases e
  | none => cases e

theorem AlikeObj.group {o o' : H5Obj} (h : AlikeObj env o o') {g : Node}
    (e : o.asGroup = some g) : ∃ g', o'.asGroup = some g' ∧ AlikeNode env g g' := by
  cases h with
  | file h => cases e; exact ⟨_, rfl, alike_root h⟩
  | node h =>
    cases h with
    | dataset => cases e
    | datatype => cases e
    | group h k => cases e; exact ⟨_, rfl, .group h k⟩
  | val => cases e
  | none => cases e

theorem AlikeObj.toNode {o o' : H5Obj} (h : AlikeObj env o o') {n : Node} (e : o = .node n) :
    ∃ n', o' = .node n' ∧ AlikeNode env n n' := by
  subst e
  cases h with
  | node h => exact ⟨_, rfl, h⟩

theorem AlikeObj.name {o o' : H5Obj} (h : AlikeObj env o o') : o.name? = o'.name? := by
  cases h with
  | file => rfl
  | node h => exact congrArg some (alike_name h)
  | val => rfl
  | none => rfl

theorem AlikeObj.isGroup {o o' : H5Obj} (h : AlikeObj env o o') :
    isHdf5Group o = isHdf5Group o' := by
  cases h with
  | node h => cases h <;> rfl
  | _ => rfl

theorem AlikeObj.isDataset {o o' : H5Obj} (h : AlikeObj env o o') :
    isHdf5Dataset o = isHdf5Dataset o' := by
  cases h with
  | node h => cases h <;> rfl
  | _ => rfl

theorem AlikeItem.outside {x y : Item} (h : AlikeItem env x y)
    (e : x.classpath ≠ s%"non-NeXus content") : y.classpath ≠ s%"non-NeXus content" := by
  rwa [← h.core.classpath]

/-! ## names and values -/

theorem linked_alike {x y : Item} (h : AlikeCore env x.toCore y.toCore) (k : Linked env x) :
    Linked env y := by
  obtain ⟨attrs, a, h1, h2, h3⟩ := k
  obtain ⟨b, h4, h5⟩ := h.obj.attrs h1
  exact ⟨b, a, h4, h.addr ▸ h2, (alike_targetElsewhere h5 _).1 h3⟩

theorem carries_alike (S : StoredPair env f f' items items') {x : Item} {a k : Str} {v : Val}
    (h : CarriesAttr items x a k v) :
    ∃ y v', CarriesAttr items' y a k v' ∧ AlikeItem env x y ∧ SameText env v v' := by
  obtain ⟨y, hm, hr⟩ := S.mem h.mem
  obtain ⟨attrs, h1, h2⟩ := h.attr
  obtain ⟨b, h3, h4⟩ := hr.core.obj.attrs h1
  obtain ⟨v', h5, h6⟩ := alikeAttrs_mem h4 h2
  exact ⟨y, v', ⟨hm, hr.outside h.nexus, hr.core.addr ▸ h.addr, b, h3, h5⟩, hr, h6⟩

theorem nameLine_alike (S : StoredPair env f f' items items') {l : Line}
    (h : NameLine env mgr items l) : NameLine env mgr items' l := by
  cases h with
  | object hm hn hc hr =>
    obtain ⟨y, hy, hl⟩ := S.mem hm
    obtain ⟨n, e, _⟩ := hl.core.obj.toNode hn
    rw [hl.core.addr]
    exact .object hy e (hl.core.classpath ▸ hc) (by rwa [← hl.core.classpath, ← hl.core.name])
  | member hm hn hc hp hx hr =>
    obtain ⟨y, hy, hl⟩ := S.mem hm
    obtain ⟨n, e, _⟩ := hl.core.obj.toNode hn
    obtain ⟨p', hp', hlp⟩ := parent_alike hl.ancestors hp
    rw [hl.core.addr]
    exact .member hy e (hl.core.classpath ▸ hc) hp' (fun k => hx (linked_alike hlp.symm k))
      (by rwa [← hl.core.name])
  | attr hc hn hx hr =>
    obtain ⟨y, v', hc', hl, _⟩ := carries_alike S hc
    exact .attr hc' hn (fun k => hx (linked_alike hl.core.symm k)) hr
  | cls hc hn ht =>
    obtain ⟨y, v', hc', hl, hv⟩ := carries_alike S hc
    exact .cls hc' hn (same_textOf hv ht)

theorem targetOk_alike (h : StoredAlike env f f') (t : Str) :
    TargetOk env mgr f t ↔ TargetOk env mgr f' t := by
  simp only [TargetOk, PathOk, alike_contains h (alike_root h)]

theorem get_iff_alike (h : StoredAlike env f f') {g g' : Node} (hg : AlikeNode env g g') (p : Str) :
    (∃ m, h5get f g p = .ok (some m)) ↔ ∃ m, h5get f' g' p = .ok (some m) := by
  constructor
  · rintro ⟨m, e⟩
    obtain ⟨n, e', _⟩ := alike_get_some h hg e
    exact ⟨n, e'⟩
  · rintro ⟨m, e⟩
    obtain ⟨n, e', _⟩ := alike_get_some (storedAlike_symm h) (alikeNode_symm hg) e
    exact ⟨n, e'⟩

theorem valueLine_alike (S : StoredPair env f f' items items') {l : Line}
    (h : ValueLine env mgr f items l) : ValueLine env mgr f' items' l := by
  cases h with
  | cls hc ht =>
    obtain ⟨y, v', hc', hl, hv⟩ := carries_alike S hc
    exact .cls hc' (same_textOf hv ht)
  | target hc ht =>
    obtain ⟨y, v', hc', hl, hv⟩ := carries_alike S hc
    rw [okIf_congr (targetOk_alike S.file _)]
    exact .target hc' (same_textOf hv ht)
  | signalName hc hg ht hr =>
    obtain ⟨y, v', hc', hl, hv⟩ := carries_alike S hc
    exact .signalName hc' (by rwa [← hl.core.obj.isGroup]) (same_textOf hv ht) hr
  | signal hc ho hg ht =>
    obtain ⟨y, v', hc', hl, hv⟩ := carries_alike S hc
    obtain ⟨g', e, hn⟩ := hl.core.obj.toNode ho
    rw [alike_contains S.file hn]
    exact .signal hc' e (by rwa [← hl.core.obj.isGroup]) (same_textOf hv ht)
  | fieldSignal hc hd =>
    obtain ⟨y, v', hc', hl, hv⟩ := carries_alike S hc
    rw [okIf_congr (same_marksOne hv)]
    exact .fieldSignal hc' (by rwa [← hl.core.obj.isDataset])
  | otherSignal hc hd hg =>
    obtain ⟨y, v', hc', hl, hv⟩ := carries_alike S hc
    exact .otherSignal hc' (by rwa [← hl.core.obj.isDataset]) (by rwa [← hl.core.obj.isGroup])
  | axisName hc ha hn hr =>
    obtain ⟨y, v', hc', hl, hv⟩ := carries_alike S hc
    exact .axisName hc' ((same_axes hv _).1 ha) hn hr
  | axis hc ha hn hg =>
    obtain ⟨y, v', hc', hl, hv⟩ := carries_alike S hc
    obtain ⟨g', e, hg'⟩ := hl.core.obj.group hg
    rw [okIf_congr (get_iff_alike S.file hg' _)]
    exact .axis hc' ((same_axes hv _).1 ha) hn e
  | axes hc =>
    obtain ⟨y, v', hc', hl, hv⟩ := carries_alike S hc
    exact .axes hc'
  | other hc hk =>
    obtain ⟨y, v', hc', hl, hv⟩ := carries_alike S hc
    exact .other hc' hk

/-! ## groups -/

theorem groupClass_alike {K : Str → Prop} {a a' : List (Str × Val)} (h : AlikeAttrs env K a a')
    (cp c : Str) : GroupClass env cp a c ↔ GroupClass env cp a' c := by
  rw [GroupClass, GroupClass, alike_nxClass h]

theorem attrLines_alike (h : StoredAlike env f f') {g g' : Node} (hg : AlikeNode env g g')
    (a cp : Str) (d : ClassDef) {ka kb : Str × Val} (hk : ka.1 = kb.1)
    (hv : SameText env ka.2 kb.2) :
    attrLines env f g a cp d ka = attrLines env f' g' a cp d kb := by
  have h1 : ∀ enums, Enumerated env enums ka.2 ↔ Enumerated env enums kb.2 := fun enums => by
    simp only [Enumerated, same_textOf_iff hv]
  have h2 : NamesMember env f g ka.2 ↔ NamesMember env f' g' kb.2 := by
    simp only [NamesMember, same_textOf_iff hv, alike_contains h hg]
  rw [attrLines, attrLines, hk, okIf_congr h2]
  simp only [okIf_congr (h1 _)]

theorem flatMap_alike {α β γ : Type} {R : α → β → Prop} {l : List α} {l' : List β}
    (h : List.Forall₂ R l l') {F : α → List γ} {G : β → List γ} (hFG : ∀ x y, R x y → F x = G y) :
    l.flatMap F = l'.flatMap G := by
  induction h with
  | nil => rfl
  | cons r _ ih => rw [List.flatMap_cons, List.flatMap_cons, hFG _ _ r, ih]

theorem members_alike {g g' : Node} (h : AlikeNode env g g') :
    (members g).map memberLine = (members g').map memberLine := by
  have hm : ∀ {n n' : Node}, AlikeNode env n n' → memberLine n = memberLine n' := by
    intro n n' h; cases h <;> rfl
  cases h with
  | dataset => rfl
  | datatype => rfl
  | group _ hk =>
    rw [members, members]
    have := alike_toList hk
    generalize Kids.toList _ = l at *
    generalize Kids.toList _ = l' at *
    induction this with
    | nil => rfl
    | @cons x y _ _ r _ ih =>
      obtain ⟨l, o⟩ := x
      obtain ⟨l', o'⟩ := y
      obtain ⟨_, r⟩ := r
      cases r with
      | none => exact ih
      | some r =>
        simp only [List.filterMap_cons, List.map_cons]
        rw [hm r, ih]

theorem groupLines_alike (h : StoredAlike env f f') {g g' : Node} (hg : AlikeNode env g g')
    (classes : Dict Str ClassDef) (a cp c : Str) :
    groupLines env f classes g a cp c = groupLines env f' classes g' a cp c := by
  rw [groupLines, groupLines]
  cases Dict.get? classes c with
  | none => rfl
  | some d =>
    simp only []
    rw [flatMap_alike (alikeAttrs_sorted (alike_attrs hg))
      fun x y r => attrLines_alike h hg a cp d r.1 r.2.1, members_alike hg]
    simp only [definedLines, alike_contains h hg]

theorem groupLineOf_alike (S : StoredPair env f f' items items') {l : Line}
    (h : GroupLine env mgr f items l) : GroupLine env mgr f' items' l := by
  cases h with
  | nonNexus hm hg hc =>
    obtain ⟨y, hy, hl⟩ := S.mem hm
    obtain ⟨g', e, hn⟩ := hl.core.obj.group hg
    rw [alike_name hn]
    exact .nonNexus hy e (hl.core.classpath ▸ hc)
  | nexus hm hg hc hcl hx =>
    obtain ⟨y, hy, hl⟩ := S.mem hm
    obtain ⟨g', e, hn⟩ := hl.core.obj.group hg
    rw [groupLines_alike S.file hn, alike_name hn, hl.core.classpath] at hx
    rw [groupClass_alike (alike_attrs hn), hl.core.classpath] at hcl
    exact .nexus hy e (hl.outside hc) hcl hx

/-! ## application definitions -/

theorem declares_alike (h : StoredAlike env f f') {g g' : Node} (hg : AlikeNode env g g')
    {name : Str} (k : Declares env f g name) : Declares env f' g' name := by
  obtain ⟨n, a, d, e, hv⟩ := k
  obtain ⟨m, e', hm⟩ := alike_get_some h hg e
  cases hm with
  | dataset _ hd =>
    exact ⟨_, _, _, e', by rwa [← same_holdsText hd, ← same_holdsOther hd]⟩

theorem hasOneOf_alike {n n' : Node} (h : AlikeNode env n n') {ts : List (Option Str)}
    (k : HasOneOf env n ts) : HasOneOf env n' ts := by
  obtain ⟨m, a, d, rfl, t, ht, hv⟩ := k
  cases h with
  | dataset _ hd => exact ⟨_, _, _, rfl, t, ht, (same_holdsText hd t).1 hv⟩

theorem hasOneOf_alike_iff {n n' : Node} (h : AlikeNode env n n') (ts : List (Option Str)) :
    HasOneOf env n ts ↔ HasOneOf env n' ts :=
  ⟨hasOneOf_alike h, hasOneOf_alike (alikeNode_symm h)⟩

theorem declaredBy_alike (S : StoredPair env f f' items items') {g : Node} {name : Str}
    (h : DeclaredBy env f items g name) :
    ∃ g', DeclaredBy env f' items' g' name ∧ AlikeNode env g g' := by
  obtain ⟨it, hm, hi, p, hp, hg, hd⟩ := h
  obtain ⟨y, hy, hl⟩ := S.mem hm
  obtain ⟨p', hp', hlp⟩ := parent_alike hl.ancestors hp
  obtain ⟨g', hg', hn⟩ := hlp.obj.group hg
  exact ⟨g', ⟨y, hy, by rw [IsDefinition] at hi ⊢; rwa [← hl.core.classpath], p', hp', hg',
    declares_alike S.file hn hd⟩, hn⟩

theorem requiredIn_alike (S : StoredPair env f f' items items') {g : Node} {fld : Str × FieldSpec}
    (h : RequiredIn env mgr f items g fld) :
    ∃ g', RequiredIn env mgr f' items' g' fld ∧ AlikeNode env g g' := by
  obtain ⟨name, ad, gname, entry, more, h1, h2⟩ := h
  obtain ⟨g', h1', hl⟩ := declaredBy_alike S h1
  exact ⟨g', ⟨name, ad, gname, entry, more, h1', h2⟩, hl⟩

theorem definitionLine_alike (S : StoredPair env f f' items items') {l : Line}
    (h : DefinitionLine env mgr f items l) : DefinitionLine env mgr f' items' l := by
  cases h with
  | known hd =>
    obtain ⟨g', hd', hn⟩ := declaredBy_alike S hd
    rw [alike_name hn]
    exact .known hd'
  | category hd hc =>
    obtain ⟨g', hd', hn⟩ := declaredBy_alike S hd
    rw [alike_name hn]
    exact .category hd' hc
  | todo hd hc =>
    obtain ⟨g', hd', hn⟩ := declaredBy_alike S hd
    rw [alike_name hn]
    exact .todo hd' hc
  | there hr hg =>
    obtain ⟨g', hr', hn⟩ := requiredIn_alike S hr
    obtain ⟨n, e, hm⟩ := alike_get_some S.file hn hg
    rw [alike_name hm]
    exact .there hr' e
  | missing hr hg =>
    obtain ⟨g', hr', hn⟩ := requiredIn_alike S hr
    rw [alike_name hn]
    exact .missing hr' (alike_get_none S.file hn hg)
  | value hr hg he =>
    obtain ⟨g', hr', hn⟩ := requiredIn_alike S hr
    obtain ⟨n, e, hm⟩ := alike_get_some S.file hn hg
    rw [alike_name hm, okIf_congr (hasOneOf_alike_iff hm _)]
    exact .value hr' e he

/-! ## default plot -/

theorem itemAt_alike (S : StoredPair env f f' items items') (a : Str) :
    Option.Rel (AlikeItem env) (itemAt items a) (itemAt items' a) := by
  rw [itemAt, itemAt]
  exact getLast_alike (forall₂_filter (fun x y h => by rw [h.core.addr]) S.rel)

theorem itemAt_some (S : StoredPair env f f' items items') {a : Str} {x : Item}
    (h : itemAt items a = some x) : ∃ y, itemAt items' a = some y ∧ AlikeItem env x y := by
  have := itemAt_alike S a
  rw [h] at this
  generalize itemAt items' a = o at *
  cases this with
  | some r => exact ⟨_, rfl, r⟩

theorem inGroups_alike (S : StoredPair env f f' items items') {x y : Item} (h : AlikeItem env x y)
    {D E R : Item} (k : InGroups items x D E R) : ∃ D' E' R', InGroups items' y D' E' R' ∧
      AlikeItem env D D' ∧ AlikeItem env E E' ∧ AlikeItem env R R' := by
  obtain ⟨r, e, d, rest, h1, h2, h3, h4, h5, h6, h7⟩ := k
  obtain ⟨D', h5', lD⟩ := itemAt_some S h5
  obtain ⟨E', h6', lE⟩ := itemAt_some S h6
  obtain ⟨R', h7', lR⟩ := itemAt_some S h7
  exact ⟨D', E', R', ⟨r, e, d, rest, h.core.addr ▸ h1, h2, h3, h4, h5', h6', h7'⟩, lD, lE, lR⟩

theorem pointer_names_alike {x y : Item} (h : AlikeItem env x y) {k t : Str}
    (hn : Names env x k t) : Names env y k t := by
  obtain ⟨n, attrs, v, s, h1, h2, h3, h4, h5⟩ := hn
  obtain ⟨b, h6, h7⟩ := h.core.obj.attrs h2
  have := alikeAttrs_lookup h7 k
  rw [h3] at this
  generalize hb : b.lookup k = o at *
  cases this with
  | some r => exact ⟨n, b, _, s, h.core.obj.name ▸ h1, h6, hb, same_textOf r h4, h5⟩

theorem pointsAt_alike (S : StoredPair env f f' items items') {x y : Item} (h : AlikeItem env x y)
    {k t : Str} (hp : PointsAt env f x k t) : PointsAt env f' y k t := by
  obtain ⟨h1, g, h2, h3⟩ := hp
  obtain ⟨g', h4, h5⟩ := h.core.obj.group h2
  exact ⟨pointer_names_alike h h1, g', h4, alike_contains S.file h5 t ▸ h3⟩

theorem signalMissing_alike (S : StoredPair env f f' items items') {x y : Item}
    (h : AlikeItem env x y) (k : SignalMissing env f items x) : SignalMissing env f' items' y := by
  obtain ⟨D, E, R, t, h1, h2, h3⟩ := k
  obtain ⟨D', E', R', h4, lD, _, _⟩ := inGroups_alike S h h1
  exact ⟨D', E', R', t, h4, pointer_names_alike lD h2,
    fun w => h3 (pointsAt_alike S.symm lD.symm w)⟩

theorem plotField_alike (S : StoredPair env f f' items items') {x y : Item}
    (h : AlikeItem env x y) {t : Str} (k : PlotField env f items x t) :
    PlotField env f' items' y t := by
  obtain ⟨D, E, R, T, n, a, v, h1, h2, h3, h4⟩ := k
  obtain ⟨D', E', R', h5, lD, _, _⟩ := inGroups_alike S h h1
  obtain ⟨T', h6, lT⟩ := itemAt_some S h3
  obtain ⟨a', v', h7, _⟩ := lT.core.obj.dataset h4
  exact ⟨D', E', R', T', n, a', v', h5, pointsAt_alike S lD h2, h6, h7⟩

theorem niac_alike (S : StoredPair env f f' items items') {x y : Item} (h : AlikeItem env x y)
    (k : Niac env f items x) : Niac env f' items' y := by
  obtain ⟨⟨D, E, R, e, d, h1, h2, h3, h4, h5⟩, t, h6⟩ := k
  obtain ⟨D', E', R', h7, lD, lE, lR⟩ := inGroups_alike S h h1
  exact ⟨⟨D', E', R', e, d, h7, lE.core.addr ▸ h2, lD.core.addr ▸ h3, pointsAt_alike S lR h4,
    pointsAt_alike S lE h5⟩, t, plotField_alike S h h6⟩

theorem signalMissing_alike_iff (S : StoredPair env f f' items items') {x y : Item}
    (h : AlikeItem env x y) : SignalMissing env f items x ↔ SignalMissing env f' items' y :=
  ⟨signalMissing_alike S h, signalMissing_alike S.symm h.symm⟩

theorem plotField_alike_iff (S : StoredPair env f f' items items') {x y : Item}
    (h : AlikeItem env x y) (t : Str) : PlotField env f items x t ↔ PlotField env f' items' y t :=
  ⟨plotField_alike S h, plotField_alike S.symm h.symm⟩

theorem niac_alike_iff (S : StoredPair env f f' items items') {x y : Item}
    (h : AlikeItem env x y) : Niac env f items x ↔ Niac env f' items' y :=
  ⟨niac_alike S h, niac_alike S.symm h.symm⟩

theorem withClasspath_alike (S : StoredPair env f f' items items') (k : Str) :
    List.Forall₂ (AlikeItem env) (withClasspath items k) (withClasspath items' k) :=
  forall₂_filter (fun x y h => by rw [h.core.classpath]) S.rel

theorem byClasspath_alike (S : StoredPair env f f' items items') :
    List.Forall₂ (AlikeItem env) (byClasspath items) (byClasspath items') := by
  have e : items.map (·.classpath) = items'.map (·.classpath) := by
    have h := S.rel
    clear S
    induction h with
    | nil => rfl
    | cons r _ ih => simp only [List.map_cons, r.core.classpath, ih]
  rw [byClasspath, byClasspath, e]
  induction (items'.map (·.classpath)).eraseDups with
  | nil => exact .nil
  | cons k ks ih => exact List.rel_append (withClasspath_alike S k) ih

theorem missing_alike (S : StoredPair env f f' items items') :
    (∃ it ∈ dataSignals items, SignalMissing env f items it) →
      ∃ it ∈ dataSignals items', SignalMissing env f' items' it := by
  rintro ⟨x, hx, h⟩
  obtain ⟨y, hy, hl⟩ := forall₂_mem (withClasspath_alike S _) hx
  exact ⟨y, hy, signalMissing_alike S hl h⟩

theorem missing_alike_iff (S : StoredPair env f f' items items') :
    (∃ it ∈ dataSignals items, SignalMissing env f items it) ↔
      ∃ it ∈ dataSignals items', SignalMissing env f' items' it :=
  ⟨missing_alike S, missing_alike S.symm⟩

theorem niacPaths_alike (S : StoredPair env f f' items items') :
    List.Forall₂ (AlikeItem env) (niacPaths env f items) (niacPaths env f' items') := by
  classical
  rw [niacPaths, niacPaths]
  exact forall₂_filter (fun x y h => decide_eq_decide.2 (niac_alike_iff S h))
    (withClasspath_alike S _)

theorem split_alike {l l' : List Item} (h : List.Forall₂ (AlikeItem env) l l')
    {before after : List Item} {x : Item} (e : l = before ++ x :: after) :
    ∃ before' y after', l' = before' ++ y :: after' ∧ AlikeItem env x y ∧
      List.Forall₂ (AlikeItem env) after after' := by
  induction before generalizing l l' with
  | nil =>
    subst e
    cases h with
    | cons hx ha => exact ⟨[], _, _, rfl, hx, ha⟩
  | cons z zs ih =>
    subst e
    cases h with
    | cons hx ha =>
      obtain ⟨b, y, c, e, h1, h2⟩ := ih ha rfl
      exact ⟨_ :: b, y, c, by rw [e]; rfl, h1, h2⟩

theorem attributePlot_alike (S : StoredPair env f f' items items') {a : Str}
    (h : AttributePlot env f items a) : AttributePlot env f' items' a := by
  obtain ⟨h1, h2⟩ := h
  have hm : ¬ ∃ it ∈ dataSignals items', SignalMissing env f' items' it := fun k => by
    obtain ⟨x, hx, h⟩ := missing_alike S.symm k
    exact h1 x hx h
  refine ⟨fun y hy k => hm ⟨y, hy, k⟩, ?_⟩
  have hn := niacPaths_alike S
  rcases h2 with ⟨x, e, ha⟩ | ⟨hl, before, x, after, e, hp, hx⟩
  · left
    rw [e] at hn
    generalize niacPaths env f' items' = l at *
    cases hn with
    | cons r t =>
      cases t
      exact ⟨_, rfl, r.core.addr ▸ ha⟩
  · right
    obtain ⟨b', y, c', e', hy, hc⟩ := split_alike (withClasspath_alike S _) e
    refine ⟨hn.length_eq ▸ hl, b', y, c', e', plotField_alike S hy hp, ?_⟩
    rintro z hz ⟨t, k⟩
    obtain ⟨w, hw, r⟩ := forall₂_mem (alikeItems_symm hc) hz
    exact hx w hw ⟨t, plotField_alike S.symm r k⟩

theorem attributePlot_alike_iff (S : StoredPair env f f' items items') :
    (∃ a, AttributePlot env f items a) ↔ ∃ a, AttributePlot env f' items' a :=
  ⟨fun ⟨a, h⟩ => ⟨a, attributePlot_alike S h⟩, fun ⟨a, h⟩ => ⟨a, attributePlot_alike S.symm h⟩⟩

theorem niacLines_alike (S : StoredPair env f f' items items') :
    niacLines env f items = niacLines env f' items' := by
  classical
  have h := niacPaths_alike S
  rw [niacLines, niacLines]
  simp only [missing_alike_iff S]
  generalize niacPaths env f items = l at *
  generalize niacPaths env f' items' = l' at *
  cases h with
  | nil => rfl
  | cons a k =>
    cases k with
    | nil => simp only [a.core.addr]
    | cons b k => rfl

theorem dataLines_alike (S : StoredPair env f f' items items') {l l' : List Item}
    (h : List.Forall₂ (AlikeItem env) l l') :
    dataLines env f items l = dataLines env f' items' l' := by
  classical
  induction h with
  | nil => rfl
  | @cons x y _ _ h _ ih =>
    rw [dataLines, dataLines, h.core.addr, ih]
    exact if_congr (signalMissing_alike_iff S h) rfl
      (if_congr (exists_congr fun t => plotField_alike_iff S h t) rfl rfl)

/-! ## marks -/

theorem mark_alike {x y : Item} (h : AlikeItem env x y) (k : Mark env x) : Mark env y := by
  obtain ⟨hs, v, e, hr⟩ := k
  exact ⟨h.fieldSignal hs, v, h.mark hs v e, hr⟩

theorem mark_alike_iff {x y : Item} (h : AlikeItem env x y) : Mark env x ↔ Mark env y :=
  ⟨mark_alike h, mark_alike h.symm⟩

theorem fieldSignal_alike_iff {x y : Item} (h : AlikeItem env x y) :
    FieldSignal x ↔ FieldSignal y := ⟨h.fieldSignal, h.symm.fieldSignal⟩

theorem groupOf_alike {x y : Item} (h : AlikeItem env x y) : groupOf x = groupOf y := by
  have h2 := h.ancestors
  rw [groupOf, groupOf, Item.parent, Item.parent]
  generalize x.ancestors = l at *
  generalize y.ancestors = l' at *
  cases h2 with
  | nil => rfl
  | cons x k =>
    cases k with
    | nil => rfl
    | cons y k => exact y.addr

theorem marks_alike (S : StoredPair env f f' items items') :
    List.Forall₂ (AlikeItem env) (marks env items) (marks env items') := by
  classical
  rw [marks, marks]
  exact forall₂_filter (fun x y h => decide_eq_decide.2 (mark_alike_iff h)) (byClasspath_alike S)

theorem markedGroups_alike (S : StoredPair env f f' items items') :
    markedGroups env items = markedGroups env items' := by
  have h := marks_alike S
  rw [markedGroups, markedGroups]
  generalize marks env items = l at *
  generalize marks env items' = l' at *
  congr 1
  induction h with
  | nil => rfl
  | cons r _ ih => rw [List.map_cons, List.map_cons, groupOf_alike r, ih]

theorem marksIn_alike (S : StoredPair env f f' items items') (g : Option Str) :
    List.Forall₂ (AlikeItem env) (marksIn env items g) (marksIn env items' g) :=
  forall₂_filter (fun x y h => by rw [groupOf_alike h]) (marks_alike S)

theorem groupLine_alike (S : StoredPair env f f' items items') (g : Option Str) :
    groupLine env items g = groupLine env items' g := by
  have h := marksIn_alike S g
  rw [groupLine, groupLine]
  generalize marksIn env items g = l at *
  generalize marksIn env items' g = l' at *
  cases h with
  | nil => rfl
  | cons a k =>
    cases k with
    | nil => simp only [a.core.addr]
    | cons b k => rfl

theorem signalPlot_alike (S : StoredPair env f f' items items') {a : Str}
    (h : SignalPlot env items a) : SignalPlot env items' a := by
  obtain ⟨before, g, after, it, d, h1, h2, h3, h4, h5⟩ := h
  have hm := marksIn_alike S g
  rw [h2] at hm
  generalize he : marksIn env items' g = l at *
  cases hm with
  | cons r t =>
    cases t
    obtain ⟨d', h6, h7⟩ := parent_alike r.ancestors h3
    exact ⟨before, g, after, _, d', markedGroups_alike S ▸ h1, he, h6, h7.addr ▸ h4,
      fun g' hg => (marksIn_alike S g').length_eq ▸ h5 g' hg⟩

theorem signalPlot_alike_iff (S : StoredPair env f f' items items') :
    (∃ a, SignalPlot env items a) ↔ ∃ a, SignalPlot env items' a :=
  ⟨fun ⟨a, h⟩ => ⟨a, signalPlot_alike S h⟩, fun ⟨a, h⟩ => ⟨a, signalPlot_alike S.symm h⟩⟩

theorem signalLines_alike {x y : Item} (h : AlikeItem env x y) :
    signalLines env x = signalLines env y := by
  classical
  rw [signalLines, signalLines, h.core.addr]
  exact if_congr (mark_alike_iff h) rfl (if_congr (fieldSignal_alike_iff h) rfl rfl)

theorem searchLines_alike (S : StoredPair env f f' items items') :
    searchLines env f items = searchLines env f' items' := by
  classical
  rw [searchLines, searchLines, dataLines_alike S (show List.Forall₂ _ (dataSignals items)
      (dataSignals items') from withClasspath_alike S _), niacLines_alike S,
    flatMap_alike (byClasspath_alike S) fun x y h => signalLines_alike h, markedGroups_alike S,
    show groupLine env items = groupLine env items' from funext (groupLine_alike S)]
  congr 1
  exact if_congr (attributePlot_alike_iff S) rfl rfl

/-! ## verdict -/

theorem hasClass_alike (S : StoredPair env f f' items items') {c : Str}
    (h : HasClass env items c) : HasClass env items' c := by
  obtain ⟨x, hm, g, hg, hc, hcl⟩ := h
  obtain ⟨y, hy, hl⟩ := S.mem hm
  obtain ⟨g', e, hn⟩ := hl.core.obj.group hg
  rw [groupClass_alike (alike_attrs hn), hl.core.classpath] at hcl
  exact ⟨y, hy, g', e, hl.outside hc, hcl⟩

theorem plotRequired_alike (S : StoredPair env f f' items items') {classes : Dict Str ClassDef} :
    PlotRequired env classes mins items ↔ PlotRequired env classes mins items' := by
  have h : ∀ c, HasClass env items c ↔ HasClass env items' c :=
    fun c => ⟨hasClass_alike S, hasClass_alike S.symm⟩
  simp only [PlotRequired, h]

theorem plotVerdict_alike (S : StoredPair env f f' items items') {classes : Dict Str ClassDef}
    {st : Status} {c : Str} (h : PlotVerdict env classes mins f items items st c) :
    PlotVerdict env classes mins f' items' items' st c := by
  have hA := attributePlot_alike_iff S
  have hB := signalPlot_alike_iff S
  have hC := plotRequired_alike (mins := mins) (classes := classes) S
  cases h with
  | byAttribute a ha => exact .byAttribute a (attributePlot_alike S ha)
  | bySignal a ha hs => exact .bySignal a (hA.not.1 ha) (signalPlot_alike S hs)
  | required ha hs hr => exact .required (hA.not.1 ha) (hB.not.1 hs) (hC.1 hr)
  | optional ha hs hr => exact .optional (hA.not.1 ha) (hB.not.1 hs) (hC.not.1 hr)

theorem expected_alike (S : StoredPair env f f' items items') {l : Line}
    (h : Expected env mgr mins f items l) : Expected env mgr mins f' items' l := by
  rcases h with h | h | h | h | h
  · exact .inl (nameLine_alike S h)
  · exact .inr (.inl (valueLine_alike S h))
  · exact .inr (.inr (.inl (groupLineOf_alike S h)))
  · exact .inr (.inr (.inr (.inl (definitionLine_alike S h))))
  · refine .inr (.inr (.inr (.inr ?_)))
    cases h with
    | search h => exact .search (searchLines_alike S ▸ h)
    | verdict h => exact .verdict (plotVerdict_alike S h)

end Punx

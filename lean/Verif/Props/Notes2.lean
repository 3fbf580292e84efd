import Verif.Props.Notes

/-!
# C123: attributes that are notes, lines on names, values, groups and definitions
-/

namespace Punx
open Spec

variable {env : Env} {mgr : Manager} {N : Str → Bool} {f : H5File} {items items' : List Item}

/-! ## notes among the items -/

/-- The class path and the address of a note. -/
def NoteAt (it : Item) : Prop :=
  (it.classpath = s%"non-NeXus content" ∨ ∃ cp, it.classpath = cp ++ '@' :: it.name) ∧
  ∀ a, it.addr = some a → '@' ∈ a

theorem attributeItem_at (o : Item) (j : Nat) (ka : Str × Val) : NoteAt (attributeItem o j ka) := by
  by_cases h : o.classpath = s%"non-NeXus content"
  · refine ⟨.inl ?_, fun a e => ?_⟩
    · rw [attributeItem]; simp only [h, if_true]
    · rw [attributeItem] at e; simp only [h, if_true] at e; cases e
  · refine ⟨.inr ⟨o.classpath, ?_⟩, fun a e => ?_⟩
    · rw [attributeItem]; simp only [h, if_false]
    · rw [attributeItem] at e
      simp only [h, if_false] at e
      obtain ⟨b, _, rfl⟩ := Option.map_eq_some_iff.1 e
      simp

theorem attributeItems_at {o x : Item} {l : List (Str × Val)} {j : Nat}
    (h : x ∈ attributeItems o j l) : NoteAt x := by
  obtain ⟨i, ka, _, rfl⟩ := mem_attributeItems_note h
  exact attributeItem_at o i ka

mutual
theorem contentsNode_at : (n : Node) → ∀ {c x : Item} {pos : List Nat},
    x ∈ contentsNode env c pos n → noteItem N x = true → NoteAt x
  | .group n a ks, c, x, pos, h, hx => by
    rw [contentsNode] at h
    rcases List.mem_cons.1 h with rfl | h
    · cases hx
    · rcases List.mem_append.1 h with h | h
      · exact attributeItems_at h
      · exact contentsKids_at ks h hx
  | .dataset n a v, c, x, pos, h, hx => by
    rw [contentsNode] at h
    rcases List.mem_cons.1 h with rfl | h
    · cases hx
    · exact attributeItems_at h
  | .datatype n a, c, x, pos, h, hx => by
    rw [contentsNode] at h
    rcases List.mem_cons.1 h with rfl | h
    · cases hx
    · exact attributeItems_at h
theorem contentsKids_at : (ks : Kids) → ∀ {c x : Item} {pos : List Nat} {i : Nat},
    x ∈ contentsKids env c pos i ks → noteItem N x = true → NoteAt x
  | .nil, _, _, _, _, h, _ => by rw [contentsKids] at h; cases h
  | .cons _ _ n r, _, _, _, _, h, hx => by
    rw [contentsKids] at h
    rcases List.mem_append.1 h with h | h
    · exact contentsNode_at n h hx
    · exact contentsKids_at r h hx
  | .broken _ _ r, _, _, _, _, h, hx => by
    rw [contentsKids] at h
    exact contentsKids_at r h hx
end

theorem contents_at {x : Item} (h : x ∈ contents env f) (hx : noteItem N x = true) : NoteAt x := by
  rw [contents] at h
  rcases List.mem_cons.1 h with rfl | h
  · cases hx
  · rcases List.mem_append.1 h with h | h
    · exact attributeItems_at h
    · exact contentsKids_at _ h hx

/-! ## files with and without notes -/

/-- The items of a file without notes, and of the file. -/
structure NoteFile (N : Str → Bool) (items items' : List Item) : Prop where
  only : OnlyNotes N
  rel : List.Forall₂ (NoteRel N) items (items'.filter fun it => !noteItem N it)
  notes : ∀ it ∈ items', noteItem N it = true → NoteAt it

theorem NoteFile.up (S : NoteFile N items items') {x : Item} (hx : x ∈ items) :
    ∃ y ∈ items', NoteRel N x y ∧ noteItem N y = false := by
  obtain ⟨y, hy, hr⟩ := (PermBy.of_forall₂ S.rel).mem hx
  rw [List.mem_filter] at hy
  exact ⟨y, hy.1, hr, by simpa using hy.2⟩

theorem NoteFile.down (S : NoteFile N items items') {y : Item} (hy : y ∈ items')
    (hn : noteItem N y = false) : ∃ x ∈ items, NoteRel N x y := by
  have h : y ∈ items'.filter fun it => !noteItem N it := List.mem_filter.2 ⟨hy, by rw [hn]; rfl⟩
  exact (PermBy.of_forall₂ S.rel.flip).mem h

theorem noteItem_attrs {y : Item} {a : List (Str × Val)} (h : y.obj.attrs? = some a) :
    noteItem N y = false := by
  rw [noteItem]
  generalize y.obj = o at *
  cases o <;> first | rfl | cases h

theorem noteItem_node {y : Item} {n : Node} (h : y.obj = .node n) : noteItem N y = false := by
  rw [noteItem, h]

theorem noteItem_group {y : Item} {g : Node} (h : y.obj.asGroup = some g) :
    noteItem N y = false := by
  rw [noteItem]
  generalize y.obj = o at *
  cases o <;> first | rfl | cases h

/-! ## objects of items -/

theorem withoutObj_attrs (o : H5Obj) :
    (withoutObj N o).attrs? = o.attrs?.map fun a => a.filter fun ka => !N ka.1 := by
  cases o with
  | file f => rfl
  | node n => exact congrArg some (withoutNode_attrs n)
  | val => rfl
  | none => rfl

theorem withoutObj_name (o : H5Obj) : (withoutObj N o).name? = o.name? := by
  cases o with
  | file f => rfl
  | node n => exact congrArg some (withoutNode_name n)
  | val => rfl
  | none => rfl

theorem withoutObj_asGroup (o : H5Obj) :
    (withoutObj N o).asGroup = o.asGroup.map (withoutNode N) := by
  cases o with
  | file f => exact congrArg some (without_root f)
  | node n => cases n <;> simp [withoutObj, withoutNode, H5Obj.asGroup]
  | val => rfl
  | none => rfl

theorem withoutObj_isGroup (o : H5Obj) : isHdf5Group (withoutObj N o) = isHdf5Group o := by
  cases o with
  | file f => rfl
  | node n => cases n <;> simp [withoutObj, withoutNode, isHdf5Group]
  | val => rfl
  | none => rfl

theorem withoutObj_isDataset (o : H5Obj) : isHdf5Dataset (withoutObj N o) = isHdf5Dataset o := by
  cases o with
  | file f => rfl
  | node n => cases n <;> simp [withoutObj, withoutNode, isHdf5Dataset]
  | val => rfl
  | none => rfl

theorem withoutObj_node {o : H5Obj} {m : Node} (h : withoutObj N o = .node m) :
    ∃ n, o = .node n ∧ m = withoutNode N n := by
  cases o with
  | node n => cases h; exact ⟨n, rfl, rfl⟩
  | file => cases h
  | val => cases h
  | none => cases h

theorem NoteRel.attrs {x y : Item} (h : NoteRel N x y) {a : List (Str × Val)}
    (e : y.obj.attrs? = some a) : x.obj.attrs? = some (a.filter fun ka => !N ka.1) := by
  rw [h.core.obj, withoutObj_attrs, e]
  rfl

theorem NoteRel.attrs' {x y : Item} (h : NoteRel N x y) {a : List (Str × Val)}
    (e : x.obj.attrs? = some a) :
    ∃ b, y.obj.attrs? = some b ∧ a = b.filter fun ka => !N ka.1 := by
  rw [h.core.obj, withoutObj_attrs] at e
  obtain ⟨b, e1, rfl⟩ := Option.map_eq_some_iff.1 e
  exact ⟨b, e1, rfl⟩

theorem NoteRel.group {x y : Item} (h : NoteRel N x y) {g : Node}
    (e : y.obj.asGroup = some g) : x.obj.asGroup = some (withoutNode N g) := by
  rw [h.core.obj, withoutObj_asGroup, e]
  rfl

theorem NoteRel.group' {x y : Item} (h : NoteRel N x y) {g : Node}
    (e : x.obj.asGroup = some g) : ∃ g', y.obj.asGroup = some g' ∧ g = withoutNode N g' := by
  rw [h.core.obj, withoutObj_asGroup] at e
  obtain ⟨b, e1, rfl⟩ := Option.map_eq_some_iff.1 e
  exact ⟨b, e1, rfl⟩

theorem NoteRel.node {x y : Item} (h : NoteRel N x y) {n : Node} (e : y.obj = .node n) :
    x.obj = .node (withoutNode N n) := by
  rw [h.core.obj, e]
  rfl

theorem NoteRel.node' {x y : Item} (h : NoteRel N x y) {m : Node} (e : x.obj = .node m) :
    ∃ n, y.obj = .node n ∧ m = withoutNode N n := withoutObj_node (h.core.obj ▸ e)

theorem NoteRel.outside {x y : Item} (h : NoteRel N x y) :
    x.classpath = s%"non-NeXus content" ↔ y.classpath = s%"non-NeXus content" := by
  rw [h.core.classpath]

/-! ## names and values -/

theorem linked_note (hN : OnlyNotes N) {x y : Item} (h : NoteRel N x y) :
    Linked env x ↔ Linked env y := by
  have ht : ∀ a : List (Str × Val), ∀ s, TargetElsewhere env (a.filter fun ka => !N ka.1) s ↔
      TargetElsewhere env a s := by
    intro a s
    rw [TargetElsewhere, TargetElsewhere, lookup_filter (hN.other (by simp))]
  constructor
  · rintro ⟨attrs, a, h1, h2, h3⟩
    obtain ⟨b, k1, rfl⟩ := h.attrs' h1
    exact ⟨b, a, k1, h.core.addr ▸ h2, (ht _ _).1 h3⟩
  · rintro ⟨attrs, a, h1, h2, h3⟩
    exact ⟨_, a, h.attrs h1, h.core.addr ▸ h2, (ht _ _).2 h3⟩

theorem CarriesAttr.up (S : NoteFile N items items') {x : Item} {a k : Str} {v : Val}
    (h : CarriesAttr items x a k v) :
    ∃ y, CarriesAttr items' y a k v ∧ NoteRel N x y ∧ N k = false := by
  obtain ⟨y, hm, hr, _⟩ := S.up h.mem
  obtain ⟨attrs, h1, h2⟩ := h.attr
  obtain ⟨b, k1, rfl⟩ := hr.attrs' h1
  rw [mem_filter_note] at h2
  exact ⟨y, ⟨hm, fun e => h.nexus (hr.outside.2 e), hr.core.addr ▸ h.addr, b, k1, h2.1⟩, hr, h2.2⟩

theorem CarriesAttr.down (S : NoteFile N items items') {y : Item} {a k : Str} {v : Val}
    (h : CarriesAttr items' y a k v) (hk : N k = false) :
    ∃ x, CarriesAttr items x a k v ∧ NoteRel N x y := by
  obtain ⟨attrs, h1, h2⟩ := h.attr
  obtain ⟨x, hm, hr⟩ := S.down h.mem (noteItem_attrs h1)
  exact ⟨x, ⟨hm, fun e => h.nexus (hr.outside.1 e), hr.core.addr ▸ h.addr, _, hr.attrs h1,
    mem_filter_note.2 ⟨h2, hk⟩⟩, hr⟩

theorem nexus_of_at {s : Str} (h : '@' ∈ s) : s ≠ s%"non-NeXus content" := by
  rintro rfl
  simp at h

theorem NameLine.up (S : NoteFile N items items') {l : Line} (h : NameLine env mgr items l) :
    NameLine env mgr items' l := by
  cases h with
  | object hm hn hc hr =>
    obtain ⟨y, hy, hl, _⟩ := S.up hm
    obtain ⟨n, e, _⟩ := hl.node' hn
    rw [hl.core.addr]
    exact .object hy e (hl.core.classpath ▸ hc) (by rwa [← hl.core.classpath, ← hl.core.name])
  | member hm hn hc hp hx hr =>
    obtain ⟨y, hy, hl, _⟩ := S.up hm
    obtain ⟨n, e, _⟩ := hl.node' hn
    have hc' := hl.core.classpath ▸ hc
    obtain ⟨p', hp', hlp, _⟩ := hl.parent' (nexus_of_at hc') hp
    rw [hl.core.addr]
    exact .member hy e hc' hp' (fun k => hx ((linked_note S.only hlp).2 k))
      (by rwa [← hl.core.name])
  | attr hc hn hx hr =>
    obtain ⟨y, hc', hl, _⟩ := CarriesAttr.up S hc
    exact .attr hc' hn (fun k => hx ((linked_note S.only hl).2 k)) hr
  | cls hc hn ht =>
    obtain ⟨y, hc', hl, _⟩ := CarriesAttr.up S hc
    exact .cls hc' hn ht

theorem NameLine.down (S : NoteFile N items items') {l : Line} (h : NameLine env mgr items' l) :
    NameLine env mgr items l ∨ NoteLine env mgr N items' l := by
  cases h with
  | object hm hn hc hr =>
    obtain ⟨x, hx, hl⟩ := S.down hm (noteItem_node hn)
    left
    rw [← hl.core.addr]
    exact .object hx (hl.node hn) (hl.core.classpath ▸ hc)
      (by rwa [hl.core.classpath, hl.core.name])
  | member hm hn hc hp hx hr =>
    obtain ⟨x, hm', hl⟩ := S.down hm (noteItem_node hn)
    obtain ⟨p', hp', hlp, _⟩ := hl.parent (nexus_of_at hc) hp
    left
    rw [← hl.core.addr]
    exact .member hm' (hl.node hn) (hl.core.classpath ▸ hc) hp'
      (fun k => hx ((linked_note S.only hlp).1 k)) (by rwa [hl.core.name])
  | @attr o a k v st hc hn hx hr =>
    by_cases hk : N k = true
    · exact .inr (.name hc hk hx hr)
    · obtain ⟨x, hc', hl⟩ := CarriesAttr.down S hc (by simpa using hk)
      exact .inl (.attr hc' hn (fun k => hx ((linked_note S.only hl).1 k)) hr)
  | cls hc hn ht =>
    obtain ⟨x, hc', hl⟩ := CarriesAttr.down S hc (S.only.namesClass hn)
    exact .inl (.cls hc' hn ht)

theorem targetOk_without (t : Str) : TargetOk env mgr (without N f) t ↔ TargetOk env mgr f t := by
  have hp : ∀ ps, PathOk env mgr (without N f) [] ps ↔ PathOk env mgr f [] ps := by
    intro ps
    simp only [PathOk, without_contains_root]
  simp only [TargetOk, hp, without_contains_root]

theorem get_some_without (g : Node) (p : Str) :
    (∃ m, h5get (without N f) (withoutNode N g) p = .ok (some m)) ↔
      ∃ m, h5get f g p = .ok (some m) := by
  rw [without_get]
  cases h : h5get f g p with
  | error e => simp [Except.map]
  | ok o => cases o <;> simp [Except.map]

theorem ValueLine.up (S : NoteFile N items items') {l : Line}
    (h : ValueLine env mgr (without N f) items l) : ValueLine env mgr f items' l := by
  cases h with
  | cls hc ht =>
    obtain ⟨y, hc', hl, _⟩ := CarriesAttr.up S hc
    exact .cls hc' ht
  | target hc ht =>
    obtain ⟨y, hc', hl, _⟩ := CarriesAttr.up S hc
    rw [okIf_congr (targetOk_without _)]
    exact .target hc' ht
  | signalName hc hg ht hr =>
    obtain ⟨y, hc', hl, _⟩ := CarriesAttr.up S hc
    exact .signalName hc' (by rwa [hl.core.obj, withoutObj_isGroup] at hg) ht hr
  | signal hc ho hg ht =>
    obtain ⟨y, hc', hl, _⟩ := CarriesAttr.up S hc
    obtain ⟨g', e, rfl⟩ := hl.node' ho
    rw [without_contains]
    exact .signal hc' e (by rwa [hl.core.obj, withoutObj_isGroup] at hg) ht
  | fieldSignal hc hd =>
    obtain ⟨y, hc', hl, _⟩ := CarriesAttr.up S hc
    exact .fieldSignal hc' (by rwa [hl.core.obj, withoutObj_isDataset] at hd)
  | otherSignal hc hd hg =>
    obtain ⟨y, hc', hl, _⟩ := CarriesAttr.up S hc
    exact .otherSignal hc' (by rwa [hl.core.obj, withoutObj_isDataset] at hd)
      (by rwa [hl.core.obj, withoutObj_isGroup] at hg)
  | axisName hc ha hn hr =>
    obtain ⟨y, hc', hl, _⟩ := CarriesAttr.up S hc
    exact .axisName hc' ha hn hr
  | axis hc ha hn hg =>
    obtain ⟨y, hc', hl, _⟩ := CarriesAttr.up S hc
    obtain ⟨g', e, rfl⟩ := hl.group' hg
    rw [okIf_congr (get_some_without _ _)]
    exact .axis hc' ha hn e
  | axes hc =>
    obtain ⟨y, hc', hl, _⟩ := CarriesAttr.up S hc
    exact .axes hc'
  | other hc hk =>
    obtain ⟨y, hc', hl, _⟩ := CarriesAttr.up S hc
    exact .other hc' hk

theorem ValueLine.down (S : NoteFile N items items') {l : Line}
    (h : ValueLine env mgr f items' l) :
    ValueLine env mgr (without N f) items l ∨ NoteLine env mgr N items' l := by
  cases h with
  | cls hc ht =>
    obtain ⟨x, hc', hl⟩ := CarriesAttr.down S hc (S.only.other (by simp))
    exact .inl (.cls hc' ht)
  | target hc ht =>
    obtain ⟨x, hc', hl⟩ := CarriesAttr.down S hc (S.only.other (by simp))
    rw [← okIf_congr (targetOk_without (N := N) _)]
    exact .inl (.target hc' ht)
  | signalName hc hg ht hr =>
    obtain ⟨x, hc', hl⟩ := CarriesAttr.down S hc (S.only.other (by simp))
    exact .inl (.signalName hc' (by rwa [hl.core.obj, withoutObj_isGroup]) ht hr)
  | signal hc ho hg ht =>
    obtain ⟨x, hc', hl⟩ := CarriesAttr.down S hc (S.only.other (by simp))
    rw [← without_contains (N := N)]
    exact .inl (.signal hc' (hl.node ho) (by rwa [hl.core.obj, withoutObj_isGroup]) ht)
  | fieldSignal hc hd =>
    obtain ⟨x, hc', hl⟩ := CarriesAttr.down S hc (S.only.other (by simp))
    exact .inl (.fieldSignal hc' (by rwa [hl.core.obj, withoutObj_isDataset]))
  | otherSignal hc hd hg =>
    obtain ⟨x, hc', hl⟩ := CarriesAttr.down S hc (S.only.other (by simp))
    exact .inl (.otherSignal hc' (by rwa [hl.core.obj, withoutObj_isDataset])
      (by rwa [hl.core.obj, withoutObj_isGroup]))
  | axisName hc ha hn hr =>
    obtain ⟨x, hc', hl⟩ := CarriesAttr.down S hc (S.only.other (by simp))
    exact .inl (.axisName hc' ha hn hr)
  | axis hc ha hn hg =>
    obtain ⟨x, hc', hl⟩ := CarriesAttr.down S hc (S.only.other (by simp))
    rw [← okIf_congr (get_some_without (N := N) _ _)]
    exact .inl (.axis hc' ha hn (hl.group hg))
  | axes hc =>
    obtain ⟨x, hc', hl⟩ := CarriesAttr.down S hc (S.only.other (by simp))
    exact .inl (.axes hc')
  | @other o a k v hc hk =>
    by_cases hn : N k = true
    · exact .inr (.value hc hn)
    · obtain ⟨x, hc', hl⟩ := CarriesAttr.down S hc (by simpa using hn)
      exact .inl (.other hc' hk)

/-! ## groups -/

theorem groupClass_without (hN : OnlyNotes N) {cp c : Str} (g : Node) :
    GroupClass env cp (withoutNode N g).attrs c ↔ GroupClass env cp g.attrs c := by
  rw [GroupClass, GroupClass, withoutNode_attrs, nxClassOf_without hN]

theorem attrLines_without (g : Node) (a cp : Str) (d : ClassDef) (ka : Str × Val) :
    attrLines env (without N f) (withoutNode N g) a cp d ka = attrLines env f g a cp d ka := by
  rw [attrLines, attrLines, okIf_congr (show NamesMember env (without N f) (withoutNode N g) ka.2 ↔
    NamesMember env f g ka.2 by simp only [NamesMember, without_contains])]

theorem members_without (g : Node) :
    (members (withoutNode N g)).map memberLine = (members g).map memberLine := by
  have hm : ∀ n, memberLine (withoutNode N n) = memberLine n := by
    intro n; cases n <;> simp only [withoutNode, memberLine]
  cases g with
  | dataset => simp only [withoutNode, members]
  | datatype => simp only [withoutNode, members]
  | group n a ks =>
    simp only [withoutNode, members, withoutKids_toList]
    induction ks.toList with
    | nil => rfl
    | cons p ps ih =>
      obtain ⟨l, o⟩ := p
      cases o with
      | none => simpa using ih
      | some n => simp [hm] at ih ⊢; exact ih

theorem definedLines_without (g : Node) (a t : Str) (ns : List Str) :
    definedLines (without N f) (withoutNode N g) a t ns = definedLines f g a t ns := by
  rw [definedLines, definedLines]
  simp only [without_contains]

/-- The lines of a group are those without notes and those on its notes. -/
theorem groupLines_note {classes : Dict Str ClassDef} {g : Node}
    {a cp c : Str} {l : Line} :
    l ∈ groupLines env f classes g a cp c ↔
      l ∈ groupLines env (without N f) classes (withoutNode N g) a cp c ∨
      ∃ d, Dict.get? classes c = some d ∧ ∃ ka ∈ g.attrs, N ka.1 = true ∧
        l ∈ attrLines env f g a cp d ka := by
  rw [groupLines, groupLines]
  cases hd : Dict.get? classes c with
  | none => simp
  | some d =>
    have hs : l ∈ (sortByName g.attrs).flatMap (attrLines env f g a cp d) ↔
        l ∈ (sortByName (withoutNode N g).attrs).flatMap
          (attrLines env (without N f) (withoutNode N g) a cp d) ∨
        ∃ ka ∈ g.attrs, N ka.1 = true ∧ l ∈ attrLines env f g a cp d ka := by
      rw [withoutNode_attrs]
      simp only [List.mem_flatMap, (sortByName_spec _).1.mem_iff, List.mem_filter,
        attrLines_without]
      constructor
      · rintro ⟨ka, h1, h2⟩
        by_cases hk : N ka.1 = true
        · exact .inr ⟨ka, h1, hk, h2⟩
        · exact .inl ⟨ka, ⟨h1, by simpa using hk⟩, h2⟩
      · rintro (⟨ka, h1, h2⟩ | ⟨ka, h1, _, h2⟩)
        · exact ⟨ka, h1.1, h2⟩
        · exact ⟨ka, h1, h2⟩
    have hr : ∀ a b c d e x y : Prop, (((((a ∨ (x ∨ y)) ∨ b) ∨ c) ∨ d) ∨ e) ↔
        (((((a ∨ x) ∨ b) ∨ c) ∨ d) ∨ e) ∨ y := by intros; tauto
    simp only [List.mem_append, hs, members_without, definedLines_without, Option.some.injEq,
      exists_eq_left']
    exact hr _ _ _ _ _ _ _

theorem attrLines_note {g : Node} {a cp : Str} {d : ClassDef} {ka : Str × Val} {l : Line}
    (hN : OnlyNotes N) (hk : N ka.1 = true) : l ∈ attrLines env f g a cp d ka ↔
      l = (some (a ++ '@' :: ka.1), s%"known attribute", .ok) ∨
      ∃ spec, Dict.get? d.attrs ka.1 = some spec ∧
        ((spec.enums ≠ [] ∧ l = (some (a ++ '@' :: ka.1), s%"attribute value enumeration",
            okIf (Enumerated env spec.enums ka.2) .error)) ∨
          l = (some (a ++ '@' :: ka.1), s%"value of @" ++ ka.1, .todo)) := by
  have h1 : ka.1 ≠ s%"axes" := fun e => absurd (by simp [e]) (hN _ hk).2
  have h2 : ¬ PointsInside cp ka.1 := by
    rintro (e | ⟨e, _⟩) <;> exact absurd (by simp [e]) (hN _ hk).2
  rw [attrLines, List.mem_cons]
  refine or_congr Iff.rfl ?_
  cases hd : Dict.get? d.attrs ka.1 with
  | none => simp
  | some spec =>
    simp only [if_neg h1, if_neg h2, Option.some.injEq, exists_eq_left', List.mem_append,
      List.mem_singleton]
    refine or_congr ?_ Iff.rfl
    by_cases he : spec.enums = []
    · simp [he]
    · simp [he]

theorem GroupLine.up (S : NoteFile N items items') {l : Line}
    (h : GroupLine env mgr (without N f) items l) : GroupLine env mgr f items' l := by
  cases h with
  | nonNexus hm hg hc =>
    obtain ⟨y, hy, hl, _⟩ := S.up hm
    obtain ⟨g', e, rfl⟩ := hl.group' hg
    rw [withoutNode_name]
    exact .nonNexus hy e (hl.outside.1 hc)
  | nexus hm hg hc hcl hx =>
    obtain ⟨y, hy, hl, _⟩ := S.up hm
    obtain ⟨g', e, rfl⟩ := hl.group' hg
    rw [withoutNode_name, hl.core.classpath] at hx
    rw [groupClass_without S.only, hl.core.classpath] at hcl
    exact .nexus hy e (fun k => hc (hl.outside.2 k)) hcl (groupLines_note.2 (.inl hx))

theorem GroupLine.down (S : NoteFile N items items') {l : Line}
    (h : GroupLine env mgr f items' l) :
    GroupLine env mgr (without N f) items l ∨ NoteLine env mgr N items' l := by
  cases h with
  | nonNexus hm hg hc =>
    obtain ⟨x, hx, hl⟩ := S.down hm (noteItem_group hg)
    rw [← withoutNode_name (N := N)]
    exact .inl (.nonNexus hx (hl.group hg) (hl.outside.2 hc))
  | @nexus _ _ c _ hm hg hc hcl hx =>
    obtain ⟨x, hxm, hl⟩ := S.down hm (noteItem_group hg)
    rcases (groupLines_note (N := N)).1 hx with hx | ⟨d, hd, ka, hka, hn, hx⟩
    · left
      refine .nexus (c := c) hxm (hl.group hg) (fun k => hc (hl.outside.1 k)) ?_ ?_
      · rw [hl.core.classpath]
        exact (groupClass_without S.only _).2 hcl
      · rwa [withoutNode_name, hl.core.classpath]
    · right
      have hga : GroupAttr env mgr items' _ d ka.1 ka.2 := ⟨_, hm, hg, hc, _, hcl, hd, hka⟩
      rcases (attrLines_note S.only hn).1 hx with rfl | ⟨spec, hs, ⟨he, rfl⟩ | rfl⟩
      · exact .known hga hn
      · exact .enumeration hga hn hs he
      · exact .todo hga hn hs

/-- The lines on notes are expected. -/
theorem NoteLine.expected (S : NoteFile N items items') {mins : Dict (Str × Str) Int} {l : Line}
    (h : NoteLine env mgr N items' l) : Expected env mgr mins f items' l := by
  have group : ∀ {g : Node} {d : ClassDef} {k : Str} {v : Val} {l : Line},
      GroupAttr env mgr items' g d k v → N k = true →
      (∀ cp, l ∈ attrLines env f g g.name cp d (k, v)) → Expected env mgr mins f items' l := by
    rintro g d k v l ⟨it, hm, hg, hc, c, hcl, hd, hk⟩ hn hl
    refine .inr (.inr (.inl (.nexus hm hg hc hcl ?_)))
    exact (groupLines_note (N := N)).2 (.inr ⟨d, hd, _, hk, hn, hl _⟩)
  cases h with
  | name hc hn hx hr =>
    refine .inl (.attr hc (fun k => ?_) hx hr)
    rw [S.only.namesClass k] at hn; cases hn
  | value hc hn =>
    refine .inr (.inl (.other hc fun k => ?_))
    exact (S.only _ hn).2 (by simp only [List.mem_cons] at k ⊢; tauto)
  | known hg hn => exact group hg hn fun cp => (attrLines_note S.only hn).2 (.inl rfl)
  | enumeration hg hn hs he =>
    exact group hg hn fun cp => (attrLines_note S.only hn).2 (.inr ⟨_, hs, .inl ⟨he, rfl⟩⟩)
  | todo hg hn hs => exact group hg hn fun cp => (attrLines_note S.only hn).2 (.inr ⟨_, hs, .inr rfl⟩)

/-! ## application definitions -/

theorem declares_without (g : Node) (name : Str) :
    Declares env (without N f) (withoutNode N g) name ↔ Declares env f g name := by
  constructor
  · rintro ⟨n, a, d, e, hv⟩
    rw [without_get] at e
    cases h : h5get f g s%"definition" with
    | error => rw [h] at e; cases e
    | ok o =>
      rw [h] at e
      cases o with
      | none => cases e
      | some m =>
        cases m with
        | dataset n' a' d' =>
          simp only [Except.map, Option.map_some, withoutNode] at e
          cases e
          exact ⟨_, _, _, h, hv⟩
        | datatype => simp [Except.map, withoutNode] at e
        | group => simp [Except.map, withoutNode] at e
  · rintro ⟨n, a, d, e, hv⟩
    refine ⟨n, a.filter fun ka => !N ka.1, d, ?_, hv⟩
    rw [without_get, e]
    simp only [Except.map, Option.map_some, withoutNode]

theorem hasOneOf_without (n : Node) (ts : List (Option Str)) :
    HasOneOf env (withoutNode N n) ts ↔ HasOneOf env n ts := by
  constructor
  · rintro ⟨m, a, d, e, ht⟩
    cases n with
    | dataset => simp only [withoutNode] at e; cases e; exact ⟨_, _, _, rfl, ht⟩
    | datatype => simp [withoutNode] at e
    | group => simp [withoutNode] at e
  · rintro ⟨m, a, d, rfl, ht⟩
    exact ⟨m, _, d, by simp only [withoutNode]; rfl, ht⟩

theorem isDefinition_at {it : Item} (h : IsDefinition it) :
    '@' ∉ it.classpath ∧ it.classpath ≠ s%"non-NeXus content" := by
  rcases h with h | h <;> rw [h] <;> simp

theorem noteItem_definition (S : NoteFile N items items') {it : Item} (hm : it ∈ items')
    (h : IsDefinition it) : noteItem N it = false := by
  cases e : noteItem N it with
  | false => rfl
  | true =>
    rcases (S.notes it hm e).1 with h1 | ⟨cp, h1⟩
    · exact absurd h1 (isDefinition_at h).2
    · exact absurd (by rw [h1]; simp) (isDefinition_at h).1

theorem DeclaredBy.up (S : NoteFile N items items') {g : Node} {name : Str}
    (h : DeclaredBy env (without N f) items g name) :
    ∃ g', DeclaredBy env f items' g' name ∧ g = withoutNode N g' := by
  obtain ⟨it, hm, hi, p, hp, hg, hd⟩ := h
  obtain ⟨y, hy, hl, _⟩ := S.up hm
  have hi' : IsDefinition y := by rw [IsDefinition] at hi ⊢; rwa [← hl.core.classpath]
  obtain ⟨p', hp', hlp, _⟩ := hl.parent' (isDefinition_at hi').2 hp
  obtain ⟨g', hg', rfl⟩ := hlp.group' hg
  exact ⟨g', ⟨y, hy, hi', p', hp', hg', (declares_without _ _).1 hd⟩, rfl⟩

theorem DeclaredBy.down (S : NoteFile N items items') {g : Node} {name : Str}
    (h : DeclaredBy env f items' g name) :
    DeclaredBy env (without N f) items (withoutNode N g) name := by
  obtain ⟨it, hm, hi, p, hp, hg, hd⟩ := h
  obtain ⟨x, hx, hl⟩ := S.down hm (noteItem_definition S hm hi)
  obtain ⟨p', hp', hlp, _⟩ := hl.parent (isDefinition_at hi).2 hp
  exact ⟨x, hx, by rw [IsDefinition] at hi ⊢; rwa [hl.core.classpath], p', hp', hlp.group hg,
    (declares_without _ _).2 hd⟩

theorem RequiredIn.up (S : NoteFile N items items') {g : Node} {fld : Str × FieldSpec}
    (h : RequiredIn env mgr (without N f) items g fld) :
    ∃ g', RequiredIn env mgr f items' g' fld ∧ g = withoutNode N g' := by
  obtain ⟨name, ad, gname, entry, more, h1, h2⟩ := h
  obtain ⟨g', h1', hl⟩ := DeclaredBy.up S h1
  exact ⟨g', ⟨name, ad, gname, entry, more, h1', h2⟩, hl⟩

theorem RequiredIn.down (S : NoteFile N items items') {g : Node} {fld : Str × FieldSpec}
    (h : RequiredIn env mgr f items' g fld) :
    RequiredIn env mgr (without N f) items (withoutNode N g) fld := by
  obtain ⟨name, ad, gname, entry, more, h1, h2⟩ := h
  exact ⟨name, ad, gname, entry, more, DeclaredBy.down S h1, h2⟩

theorem get_up {g : Node} {p : Str} {m : Node}
    (h : h5get (without N f) (withoutNode N g) p = .ok (some m)) :
    ∃ n, h5get f g p = .ok (some n) ∧ m = withoutNode N n := by
  rw [without_get] at h
  cases e : h5get f g p with
  | error => rw [e] at h; cases h
  | ok o =>
    rw [e] at h
    cases o with
    | none => cases h
    | some n => cases h; exact ⟨n, rfl, rfl⟩

theorem get_none_up {g : Node} {p : Str} :
    h5get (without N f) (withoutNode N g) p = .ok none ↔ h5get f g p = .ok none := by
  rw [without_get]
  cases e : h5get f g p with
  | error => simp [Except.map]
  | ok o => cases o <;> simp [Except.map]

theorem get_down {g : Node} {p : Str} {n : Node} (h : h5get f g p = .ok (some n)) :
    h5get (without N f) (withoutNode N g) p = .ok (some (withoutNode N n)) := by
  rw [without_get, h]
  rfl

theorem DefinitionLine.up (S : NoteFile N items items') {l : Line}
    (h : DefinitionLine env mgr (without N f) items l) : DefinitionLine env mgr f items' l := by
  cases h with
  | known hd =>
    obtain ⟨g', hd', rfl⟩ := DeclaredBy.up S hd
    rw [withoutNode_name]
    exact .known hd'
  | category hd hc =>
    obtain ⟨g', hd', rfl⟩ := DeclaredBy.up S hd
    rw [withoutNode_name]
    exact .category hd' hc
  | todo hd hc =>
    obtain ⟨g', hd', rfl⟩ := DeclaredBy.up S hd
    rw [withoutNode_name]
    exact .todo hd' hc
  | there hr hg =>
    obtain ⟨g', hr', rfl⟩ := RequiredIn.up S hr
    obtain ⟨n, e, rfl⟩ := get_up hg
    rw [withoutNode_name]
    exact .there hr' e
  | missing hr hg =>
    obtain ⟨g', hr', rfl⟩ := RequiredIn.up S hr
    rw [withoutNode_name]
    exact .missing hr' (get_none_up.1 hg)
  | value hr hg he =>
    obtain ⟨g', hr', rfl⟩ := RequiredIn.up S hr
    obtain ⟨n, e, rfl⟩ := get_up hg
    rw [withoutNode_name, okIf_congr (hasOneOf_without _ _)]
    exact .value hr' e he

theorem DefinitionLine.down (S : NoteFile N items items') {l : Line}
    (h : DefinitionLine env mgr f items' l) : DefinitionLine env mgr (without N f) items l := by
  cases h with
  | known hd =>
    rw [← withoutNode_name (N := N)]
    exact .known (DeclaredBy.down S hd)
  | category hd hc =>
    rw [← withoutNode_name (N := N)]
    exact .category (DeclaredBy.down S hd) hc
  | todo hd hc =>
    rw [← withoutNode_name (N := N)]
    exact .todo (DeclaredBy.down S hd) hc
  | there hr hg =>
    rw [← withoutNode_name (N := N)]
    exact .there (RequiredIn.down S hr) (get_down hg)
  | missing hr hg =>
    rw [← withoutNode_name (N := N)]
    exact .missing (RequiredIn.down S hr) (get_none_up.2 hg)
  | value hr hg he =>
    rw [← withoutNode_name (N := N), ← okIf_congr (hasOneOf_without (N := N) _ _)]
    exact .value (RequiredIn.down S hr) (get_down hg) he

end Punx

import Verif.Props.Whole
import Verif.Props.Stored

/-!
# C130: what is found in a part is found in the whole
-/

namespace Punx
open Spec

variable {env : Env} {mgr : Manager} {f g : H5File}

/-! ## following paths -/

/-- The same object, or the roots of the files. -/
def NodeSame (g f : H5File) (n n' : Node) : Prop := n = n' ∨ (n = g.root ∧ n' = f.root)

theorem nodup_lookup {α β : Type} [BEq α] [LawfulBEq α] {l : List (α × β)}
    (hd : (l.map (·.1)).Nodup) {k : α} {v : β} : l.lookup k = some v ↔ (k, v) ∈ l := by
  induction l with
  | nil => simp
  | cons x l ih =>
    obtain ⟨k', v'⟩ := x
    simp only [List.map_cons, List.nodup_cons, List.mem_map, not_exists, not_and] at hd
    rw [List.lookup_cons, List.mem_cons]
    by_cases e : k = k'
    · subst e
      simp only [beq_self_eq_true, Option.some.injEq, Prod.mk.injEq, true_and]
      constructor
      · rintro rfl; exact .inl rfl
      · rintro (h | h)
        · exact h.symm
        · exact absurd rfl (hd.1 _ h)
    · have : (k == k') = false := by simpa using e
      simp only [this, Prod.mk.injEq, e, false_and, false_or]
      exact ih hd.2

theorem Spec.Excerpt.find (h : Excerpt g f) (wg : WellNamedFile g) (w : WellNamedFile f) {c : Str}
    {o : Option Node} (e : g.kids.find c = some o) : f.kids.find c = some o := by
  rw [Kids.find] at e ⊢
  rw [nodup_lookup wg.2.1] at e
  rw [nodup_lookup w.2.1]
  exact h.kids _ e

theorem Spec.Excerpt.attr (h : Excerpt g f) (wg : WellNamedFile g) (w : WellNamedFile f) {k : Str}
    {v : Val} (e : g.attrs.lookup k = some v) : f.attrs.lookup k = some v := by
  rw [nodup_lookup wg.1] at e
  rw [nodup_lookup w.1]
  exact h.attrs _ e

theorem NodeSame.start {n n' : Node} (h : NodeSame g f n n') (p : Str) :
    NodeSame g f (startNode g n p) (startNode f n' p) := by
  rw [startNode, startNode]
  split
  · exact .inr ⟨rfl, rfl⟩
  · exact h

section
variable (h : Excerpt g f) (wg : WellNamedFile g) (w : WellNamedFile f)
include h wg w

theorem resolve_whole {n n' m : Node} (hs : NodeSame g f n n') {cs : List Str}
    (e : resolve n cs = some m) : ∃ m', resolve n' cs = some m' ∧ NodeSame g f m m' := by
  rcases hs with rfl | ⟨rfl, rfl⟩
  · exact ⟨m, e, .inl rfl⟩
  cases cs with
  | nil => cases e; exact ⟨_, rfl, .inr ⟨rfl, rfl⟩⟩
  | cons c cs =>
    simp only [H5File.root, resolve] at e ⊢
    cases e1 : g.kids.find c with
    | none => rw [e1] at e; cases e
    | some o =>
      rw [e1] at e
      rw [h.find wg w e1]
      cases o with
      | none => cases e
      | some k => exact ⟨m, e, .inl rfl⟩

theorem linkExists_whole {n n' : Node} (hs : NodeSame g f n n') {cs : List Str}
    (e : linkExists n cs = true) : linkExists n' cs = true := by
  rcases hs with rfl | ⟨rfl, rfl⟩
  · exact e
  match cs, e with
  | [], _ => rfl
  | [c], e =>
    simp only [H5File.root, linkExists] at e ⊢
    obtain ⟨o, e1⟩ := Option.isSome_iff_exists.1 e
    rw [h.find wg w e1]
    rfl
  | c :: c' :: cs, e =>
    simp only [H5File.root, linkExists] at e ⊢
    cases e1 : g.kids.find c with
    | none => rw [e1] at e; cases e
    | some o =>
      rw [e1] at e
      rw [h.find wg w e1]
      cases o with
      | none => cases e
      | some k => exact e

theorem contains_whole {n n' : Node} (hs : NodeSame g f n n') {p : Str}
    (e : h5contains g n p = true) : h5contains f n' p = true := by
  refine h5contains_mono (fun k => ?_) (linkExists_whole h wg w (hs.start p)) e
  obtain ⟨m, k, hm⟩ := groupThere_iff.1 k
  obtain ⟨m', k', hl⟩ := resolve_whole h wg w (hs.start p) k
  refine groupThere_iff.2 ⟨m', k', ?_⟩
  rcases hl with rfl | ⟨rfl, rfl⟩
  · exact hm
  · rfl

theorem get_whole {n n' m : Node} (hs : NodeSame g f n n') {p : Str}
    (e : h5get g n p = .ok (some m)) : ∃ m', h5get f n' p = .ok (some m') ∧ NodeSame g f m m' := by
  unfold h5get at e ⊢
  split at e
  · cases e
  · rename_i hp
    rw [if_neg hp]
    obtain ⟨m', h1, h2⟩ := resolve_whole h wg w (hs.start p) (Except.ok.inj e)
    exact ⟨m', by rw [h1], h2⟩

theorem targetOk_whole {t : Str} (k : TargetOk env mgr g t) : TargetOk env mgr f t := by
  obtain ⟨u, e, h1, h2⟩ := k
  refine ⟨u, e, fun pre p post ep => ?_, contains_whole h wg w (.inr ⟨rfl, rfl⟩) h2⟩
  obtain ⟨k1, k2⟩ := h1 pre p post ep
  exact ⟨k1, contains_whole h wg w (.inr ⟨rfl, rfl⟩) k2⟩

theorem get_dataset {n n' : Node} (hs : NodeSame g f n n') {p m : Str} {a : List (Str × Val)}
    {d : DataInfo} (e : h5get g n p = .ok (some (.dataset m a d))) :
    h5get f n' p = .ok (some (.dataset m a d)) := by
  obtain ⟨m', h1, rfl | ⟨h2, _⟩⟩ := get_whole h wg w hs e
  · exact h1
  · cases h2

theorem declares_whole {n n' : Node} (hs : NodeSame g f n n') {name : Str}
    (k : Declares env g n name) : Declares env f n' name := by
  obtain ⟨m, a, d, e, hv⟩ := k
  exact ⟨m, a, d, get_dataset h wg w hs e, hv⟩

/-! ## corresponding items -/

theorem linked_whole {x y : Item} (hs : SameCore g f x.toCore y.toCore) (k : Linked env x) :
    Linked env y := by
  obtain ⟨attrs, a, h1, h2, h3⟩ := k
  rcases hs.obj with e | ⟨e, e'⟩
  · exact ⟨attrs, a, e ▸ h1, hs.addr ▸ h2, h3⟩
  · rw [e] at h1
    cases h1
    refine ⟨f.attrs, a, by rw [e']; rfl, hs.addr ▸ h2, ?_⟩
    rw [TargetElsewhere] at h3 ⊢
    cases et : g.attrs.lookup s%"target" with
    | none => rw [et] at h3; exact h3.elim
    | some v => rw [h.attr wg w et]; rwa [et] at h3
end

theorem SameItem.group {x y : Item} (h : SameItem g f x y) {n : Node} (e : x.obj.asGroup = some n) :
    ∃ n', y.obj.asGroup = some n' ∧ NodeSame g f n n' := by
  rcases h.core.obj with k | ⟨k, k'⟩
  · exact ⟨n, k ▸ e, .inl rfl⟩
  · rw [k] at e
    cases e
    exact ⟨_, by rw [k']; rfl, .inr ⟨rfl, rfl⟩⟩

theorem SameItem.group' {x y : Item} (h : SameItem g f x y) {n' : Node} (e : y.obj.asGroup = some n') :
    ∃ n, x.obj.asGroup = some n ∧ NodeSame g f n n' := by
  rcases h.core.obj with k | ⟨k, k'⟩
  · exact ⟨n', k ▸ e, .inl rfl⟩
  · rw [k'] at e
    cases e
    exact ⟨_, by rw [k]; rfl, .inr ⟨rfl, rfl⟩⟩

theorem SameItem.node {x y : Item} (h : SameItem g f x y) {n : Node} : x.obj = .node n ↔ y.obj = .node n := by
  rcases h.core.obj with k | ⟨k, k'⟩
  · rw [k]
  · simp [k, k']

theorem SameItem.val {x y : Item} (h : SameItem g f x y) {v : Val} : x.obj = .val v ↔ y.obj = .val v := by
  rcases h.core.obj with k | ⟨k, k'⟩
  · rw [k]
  · simp [k, k']

theorem SameItem.parent {x y p : Item} (h : SameItem g f x y) (e : x.parent = some p) :
    ∃ p', y.parent = some p' ∧ SameItem g f p p' := by
  have h2 := h.ancestors
  rw [Item.parent] at e ⊢
  generalize x.ancestors = l at *
  generalize y.ancestors = l' at *
  cases h2 with
  | nil => cases e
  | cons a b =>
    cases e
    exact ⟨_, rfl, a, b⟩

theorem SameItem.parent' {x y p : Item} (h : SameItem g f x y) (e : y.parent = some p) :
    ∃ p', x.parent = some p' ∧ SameItem g f p' p := by
  obtain ⟨p', h1, h2⟩ := h.flip.parent e
  exact ⟨p', h1, h2.flip⟩

theorem SameItem.isGroup {x y : Item} (h : SameItem g f x y) : isHdf5Group x.obj = isHdf5Group y.obj := by
  rcases h.core.obj with k | ⟨k, k'⟩
  · rw [k]
  · rw [k, k']; rfl

/-- Items that are no roots have the same object. -/
theorem SameItem.obj {x y : Item} (h : SameItem g f x y) (hx : x ∈ contents env g)
    (ha : x.addr ≠ some s%"/") : x.obj = y.obj := by
  rcases h.core.obj with k | ⟨k, k'⟩
  · exact k
  · obtain ⟨rfl, _⟩ := file_root hx k
    exact absurd rfl ha

theorem SameItem.groupClass {x y : Item} (h : SameItem g f x y) (hx : x ∈ contents env g) {n n' : Node}
    (e : x.obj.asGroup = some n) (e' : y.obj.asGroup = some n') {c : Str} :
    GroupClass env x.classpath n.attrs c ↔ GroupClass env y.classpath n'.attrs c := by
  rcases h.core.obj with k | ⟨k, k'⟩
  · rw [k, e'] at e
    cases e
    rw [h.core.classpath]
  · obtain ⟨rfl, _⟩ := file_root hx k
    rw [← h.core.classpath]
    simp [GroupClass, rootOf]

/-- An attribute of an object of the file is an attribute of it in one of the parts. -/
theorem Spec.MadeOf.carries {parts : List H5File} (h : MadeOf f parts) {y : Item} {a k : Str} {v : Val}
    (hc : CarriesAttr (contents env f) y a k v) :
    ∃ g ∈ parts, ∃ x, CarriesAttr (contents env g) x a k v ∧ SameItem g f x y := by
  obtain ⟨attrs, h1, h2⟩ := hc.attr
  obtain ⟨g, hg, x, hx, hs, attrs', h3, h4⟩ := h.attr hc.mem h1 h2
  exact ⟨g, hg, x, ⟨hx, fun e => hc.nexus (hs.core.classpath ▸ e), hs.core.addr.trans hc.addr,
    attrs', h3, h4⟩, hs⟩

/-- The same for the attributes of groups. -/
theorem Spec.MadeOf.groupAttr {parts : List H5File} (h : MadeOf f parts) {y : Item} {n : Node}
    (hy : y ∈ contents env f) (e : y.obj.asGroup = some n) {ka : Str × Val} (hk : ka ∈ n.attrs) :
    ∃ g ∈ parts, ∃ x ∈ contents env g, SameItem g f x y ∧ ∃ m, x.obj.asGroup = some m ∧
      NodeSame g f m n ∧ ka ∈ m.attrs := by
  obtain ⟨g, hg, x, hx, hs, attrs', h3, h4⟩ := h.attr hy (asGroup_attrs e) hk
  obtain ⟨m, h5, h6⟩ := hs.group' e
  refine ⟨g, hg, x, hx, hs, m, h5, h6, ?_⟩
  rw [asGroup_attrs h5] at h3
  cases h3
  exact h4

/-! ## marks -/

theorem SameItem.fieldSignal {x y : Item} (h : SameItem g f x y) : FieldSignal x ↔ FieldSignal y := by
  rw [FieldSignal, FieldSignal, h.core.classpath]
  refine and_congr_right fun _ => ⟨?_, ?_⟩
  · rintro ⟨d, hd, n, a, v, e⟩
    obtain ⟨d', hd', hl⟩ := h.parent hd
    exact ⟨d', hd', n, a, v, hl.node.1 e⟩
  · rintro ⟨d, hd, n, a, v, e⟩
    obtain ⟨d', hd', hl⟩ := h.parent' hd
    exact ⟨d', hd', n, a, v, hl.node.2 e⟩

theorem SameItem.mark {x y : Item} (h : SameItem g f x y) : Mark env x ↔ Mark env y := by
  rw [Mark, Mark, h.fieldSignal]
  exact and_congr Iff.rfl (exists_congr fun v => and_congr h.val Iff.rfl)

theorem SameItem.groupOf {x y : Item} (h : SameItem g f x y) : groupOf x = groupOf y := by
  have h2 := h.ancestors
  rw [Spec.groupOf, Spec.groupOf, Item.parent, Item.parent]
  generalize x.ancestors = l at *
  generalize y.ancestors = l' at *
  cases h2 with
  | nil => rfl
  | cons x k =>
    cases k with
    | nil => rfl
    | cons y k => exact y.addr

theorem Under.oid {t s : Site} (h : Under env t s) : t.pos <:+ s.pos := by
  induction h with
  | refl => exact List.suffix_rfl
  | step _ _ _ ih => exact ih.trans (List.suffix_cons _ _)

/-- Where a mark is: in a group below a member of the root. -/
theorem mark_home (w : WellNamedFile f) (hr : NoRootMarks env f) {y : Item} {j : Nat} {l : Str}
    {m : Node} (hj : f.kids.toList[j]? = some (l, some m))
    (hy : y ∈ contentsNode env (rootOf f) [2 * j + 2] m) (hm : Mark env y) :
    ∃ t, Under env (rootKid f j l m) t ∧ groupOf y = some t.path := by
  obtain ⟨s, hs, hx⟩ := mem_contentsNode m (rootOf f) [2 * j + 2] ('/' :: l) hy
  obtain ⟨⟨h1, d, hd, n, a, u, e1⟩, v, h2, h3⟩ := hm
  rcases hx with rfl | hx
  · cases h2
  obtain ⟨i, ka, hk, rfl⟩ := mem_attributeItems hx
  have hk : ka ∈ s.node.attrs := ((sortByName_spec _).1.mem_iff).1 hk
  have hc : (s.item env).classpath ≠ s%"non-NeXus content" := by
    intro e
    simp only [attributeItem, if_pos e] at h1
    rw [e] at h1
    exact absurd h1 (by decide)
  have hsig : IsSignal ka.1 := by
    simp only [attributeItem, if_neg hc] at h1
    exact signal_of_suffix h1
  cases h2
  have hd' : d = s.item env := by
    have : (attributeItem (s.item env) i ka).parent = some (s.item env) := rfl
    rw [this] at hd
    exact (Option.some.inj hd).symm
  subst hd'
  have e2 : s.node = .dataset n a u := by
    have : (s.item env).obj = .node s.node := rfl
    rw [this] at e1
    exact H5Obj.node.inj e1
  cases hs with
  | refl =>
    subst e2
    exact absurd h3 (hr l n a u ka.1 ka.2 (List.mem_of_getElem? hj) hk hsig)
  | @step t j' n' l' a' ks' m' ht hn hj' =>
    refine ⟨t, ht, ?_⟩
    have hct : (t.item env).classpath ≠ s%"non-NeXus content" := by
      intro e
      apply hc
      have := containerOf_outside (a := t.node.attrs) e
      show classpathIn env (containerOf (t.item env) t.node.attrs).classpath _ = _
      rw [classpathIn.eq_def, if_pos this, this]
    have e3 : groupOf (attributeItem ((t.kid env j' l' m').item env) i ka) =
        (containerOf (t.item env) t.node.attrs).addr := rfl
    rw [e3, containerOf, if_neg hct]
    show some t.node.name = _
    rw [((named_rootKid w hj).under ht).name]

/-- Marks of one group are in the same member of the root. -/
theorem marks_home (w : WellNamedFile f) (hr : NoRootMarks env f) {y y' : Item} {j j' : Nat}
    {l l' : Str} {m m' : Node} (hj : f.kids.toList[j]? = some (l, some m))
    (hj' : f.kids.toList[j']? = some (l', some m'))
    (hy : y ∈ contentsNode env (rootOf f) [2 * j + 2] m)
    (hy' : y' ∈ contentsNode env (rootOf f) [2 * j' + 2] m') (hm : Mark env y) (hm' : Mark env y')
    (e : groupOf y = groupOf y') : j = j' := by
  obtain ⟨t, h1, h2⟩ := mark_home w hr hj hy hm
  obtain ⟨t', h1', h2'⟩ := mark_home w hr hj' hy' hm'
  rw [h2, h2', Option.some.injEq] at e
  have := path_unique w ⟨_, _, _, hj, h1⟩ ⟨_, _, _, hj', h1'⟩ e
  subst this
  have p1 : [2 * j + 2] <:+ t.pos := h1.oid
  have p2 : [2 * j' + 2] <:+ t.pos := h1'.oid
  have : [2 * j + 2] = [2 * j' + 2] :=
    (List.suffix_of_suffix_length_le p1 p2 (by simp)).eq_of_length (by simp)
  simp at this
  exact this

theorem mark_member {y : Item} (hy : y ∈ contents env f) (hm : Mark env y) :
    ∃ j l m, f.kids.toList[j]? = some (l, some m) ∧
      y ∈ contentsNode env (rootOf f) [2 * j + 2] m := by
  rcases contents_cases hy with rfl | ⟨i, ka, hk, rfl⟩ | h
  · obtain ⟨_, v, h, _⟩ := hm
    cases h
  · obtain ⟨⟨_, d, hd, n, a, u, e⟩, _⟩ := hm
    have : (attributeItem (rootOf f) i ka).parent = some (rootOf f) := rfl
    rw [this] at hd
    cases hd
    cases e
  · exact h

/-- A part that has a mark of a group has all marks of the group. -/
theorem marks_whole (h : Excerpt g f) (w : WellNamedFile f) (hr : NoRootMarks env f) {x y y' : Item}
    (hx : x ∈ contents env g) (hs : SameItem g f x y)
    (hy' : y' ∈ contents env f) (hm : Mark env y) (hm' : Mark env y')
    (e : groupOf y = groupOf y') : ∃ x' ∈ contents env g, SameItem g f x' y' := by
  obtain ⟨j, l, m, hj, hxm⟩ := mark_member hx (hs.mark.2 hm)
  have hmem := List.mem_of_getElem? hj
  obtain ⟨j1, hj1⟩ := List.getElem?_of_mem (h.kids _ hmem)
  obtain ⟨y1, hy1, hs1⟩ := forall₂_mem
    (same_contentsNode m [2 * j + 2] [2 * j1 + 2] (same_root g f)) hxm
  obtain ⟨j2, l2, m2, hj2, hy2⟩ := mark_member hy' hm'
  have : j1 = j2 := by
    refine marks_home w hr hj1 hj2 hy1 hy2 (hs1.mark.1 (hs.mark.2 hm)) hm' ?_
    rw [← hs1.groupOf, hs.groupOf, e]
  subst this
  rw [hj1] at hj2
  cases hj2
  obtain ⟨x', hx', hs'⟩ := member_same (g := f) (f := g) hmem hy2
  exact ⟨x', hx', hs'.flip⟩

theorem mem_marks {items : List Item} {y : Item} : y ∈ marks env items ↔ y ∈ items ∧ Mark env y := by
  classical
  rw [marks, List.mem_filter, (byClasspath_perm items).mem_iff]
  simp

theorem mem_marksIn {items : List Item} {y : Item} {o : Option Str} :
    y ∈ marksIn env items o ↔ y ∈ items ∧ Mark env y ∧ groupOf y = o := by
  rw [marksIn, List.mem_filter, mem_marks]
  simp [and_assoc]

theorem mark_addr {y : Item} (hy : y ∈ contents env f) (hm : Mark env y) : ∃ a, y.addr = some a := by
  obtain ⟨j, l, m, hj, hym⟩ := mark_member hy hm
  obtain ⟨s, hs, hx⟩ := mem_contentsNode m (rootOf f) [2 * j + 2] ('/' :: l) hym
  rcases hx with rfl | hx
  · exact ⟨_, rfl⟩
  obtain ⟨i, ka, hk, rfl⟩ := mem_attributeItems hx
  have h1 := nexus_of_mark hm
  by_cases hc : (s.item env).classpath = s%"non-NeXus content"
  · exact absurd (by simp only [attributeItem, if_pos hc]; exact hc) h1
  · exact ⟨_, by simp only [attributeItem, if_neg hc]; rfl⟩

/-- There are several marks in a group if there are two with different addresses. -/
theorem several_marks (hn : ((contents env f).filterMap (·.addr)).Nodup) {o : Option Str} :
    1 < (marksIn env (contents env f) o).length ↔ ∃ y ∈ marksIn env (contents env f) o,
      ∃ y' ∈ marksIn env (contents env f) o, y.addr ≠ y'.addr := by
  classical
  constructor
  · intro h
    have hn' : ((marksIn env (contents env f) o).filterMap (·.addr)).Nodup := by
      have h1 : ((byClasspath (contents env f)).filterMap (·.addr)).Nodup :=
        (((byClasspath_perm (contents env f)).filterMap _).nodup_iff).2 hn
      refine h1.sublist (List.Sublist.filterMap _ ?_)
      rw [marksIn, marks]
      exact List.filter_sublist.trans List.filter_sublist
    have hm : ∀ y ∈ marksIn env (contents env f) o, ∃ a, y.addr = some a := fun y hy => by
      obtain ⟨h1, h2, _⟩ := mem_marksIn.1 hy
      exact mark_addr h1 h2
    generalize marksIn env (contents env f) o = l at *
    match l, h with
    | a :: b :: l, _ =>
      refine ⟨a, by simp, b, by simp, fun e => ?_⟩
      obtain ⟨u, hu⟩ := hm a (by simp)
      have hv : b.addr = some u := e ▸ hu
      simp only [List.filterMap_cons, hu, hv] at hn'
      simp at hn'
  · rintro ⟨y, hy, y', hy', hne⟩
    generalize marksIn env (contents env f) o = l at *
    match l, hy with
    | [a], hy =>
      simp only [List.mem_singleton] at hy hy'
      exact absurd (by rw [hy, hy']) hne
    | a :: b :: l, _ => simp

end Punx

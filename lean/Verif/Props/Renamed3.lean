import Verif.Props.Renamed2
import Verif.Props.Notes

/-!
# C134: renamed groups and fields, items
-/

namespace Punx
open Spec

variable {env : Env} {mgr : Manager} {Free : Str → Prop} {f f' : H5File}

/-! ## attributes -/

theorem reAttrs_keys {n n' : Node} {a a' : List (Str × Val)} (h : ReAttrs env Free f f' n n' a a') :
    a.map (·.1) = a'.map (·.1) := by
  induction h with
  | nil => rfl
  | cons r _ ih => rw [List.map_cons, List.map_cons, r.1, ih]

theorem reAttrs_mem {n n' : Node} {a a' : List (Str × Val)} (h : ReAttrs env Free f f' n n' a a')
    {k : Str} {v : Val} (hm : (k, v) ∈ a) :
    ∃ v', (k, v') ∈ a' ∧ ReAttr env Free f f' n n' k v v' := by
  obtain ⟨⟨k', v'⟩, hy, h1, h2⟩ := forall₂_mem h hm
  obtain rfl : k = k' := h1
  exact ⟨v', hy, h2⟩

theorem reAttrs_sorted {n n' : Node} {a a' : List (Str × Val)} (h : ReAttrs env Free f f' n n' a a') :
    ReAttrs env Free f f' n n' (sortByName a) (sortByName a') :=
  forall₂_sortBy (fun _ _ _ _ r r' => by rw [r.1, r'.1]) h

theorem reAttrs_lookup {n n' : Node} {a a' : List (Str × Val)} (h : ReAttrs env Free f f' n n' a a')
    (k : Str) : Option.Rel (ReAttr env Free f f' n n' k) (a.lookup k) (a'.lookup k) := by
  induction h with
  | nil => exact .none
  | @cons x y _ _ r _ ih =>
    obtain ⟨k1, v1⟩ := x
    obtain ⟨k2, v2⟩ := y
    obtain ⟨h1, h2⟩ := r
    obtain rfl : k1 = k2 := h1
    rw [List.lookup_cons, List.lookup_cons]
    by_cases e : k = k1
    · subst e
      rw [show (k == k) = true by simp]
      exact .some h2
    · rw [show (k == k1) = false by simpa using e]
      exact ih

theorem reAttrs_other {n n' : Node} {a a' : List (Str × Val)} (h : ReAttrs env Free f f' n n' a a')
    {k : Str} (hk : k ∉ [s%"target", s%"default", s%"signal", s%"axes"]) :
    a.lookup k = a'.lookup k := by
  have := reAttrs_lookup h k
  generalize a.lookup k = o at *
  generalize a'.lookup k = o' at *
  cases this with
  | none => rfl
  | some r => rw [r.other hk]

theorem reAttrs_class {n n' : Node} {a a' : List (Str × Val)} (h : ReAttrs env Free f f' n n' a a') :
    nxClassOf env a = nxClassOf env a' := by
  rw [nxClassOf, nxClassOf, reAttrs_other h (by decide)]

theorem re_attrs {n n' : Node} (h : ReNode env Free f f' n n') :
    ReAttrs env Free f f' n n' n.attrs n'.attrs := by
  cases h with
  | dataset h => exact h
  | datatype h => exact h
  | group h _ => exact h

/-! ## items -/

/-- Objects of items. -/
inductive RObj (f f' : H5File) : H5Obj → H5Obj → Prop
  | file : RObj f f' (.file f) (.file f')
  | node {n n' : Node} : SamePlace f f' n n' → RObj f f' (.node n) (.node n')
  | val {v v' : Val} : RObj f f' (.val v) (.val v')

theorem RObj.symm {o o' : H5Obj} (h : RObj f f' o o') : RObj f' f o' o := by
  cases h with
  | file => exact .file
  | node h => exact .node h.symm
  | val => exact .val

/-- Items, without their containers. -/
structure RCore (Free : Str → Prop) (f f' : H5File) (c c' : Core) : Prop where
  obj : RObj f f' c.obj c'.obj
  addr : Option.Rel (SameAddress Free f f') c.addr c'.addr
  classpath : RePath Free c.classpath c'.classpath
  same : c.obj.asGroup ≠ none ∨ c'.obj.asGroup ≠ none → c.classpath = c'.classpath
  there : c.obj.attrs? ≠ none → c.addr ≠ none
  spot : c.obj.attrs? ≠ none → Option.Rel (Spot Free f f') c.addr c'.addr

theorem RObj.attrs_none {o o' : H5Obj} (h : RObj f f' o o') : o.attrs? = none ↔ o'.attrs? = none := by
  cases h <;> simp [H5Obj.attrs?]

theorem rel_symm {α β : Type} {R : α → β → Prop} {Q : β → α → Prop} (h : ∀ x y, R x y → Q y x)
    {a : Option α} {b : Option β} (k : Option.Rel R a b) : Option.Rel Q b a := by
  cases k with
  | none => exact .none
  | some r => exact .some (h _ _ r)

theorem RCore.symm {c c' : Core} (h : RCore Free f f' c c') : RCore Free f' f c' c := by
  refine ⟨h.obj.symm, rel_symm (fun _ _ r => r.symm) h.addr, h.classpath.symm,
    fun e => (h.same e.symm).symm, fun e e' => ?_, fun e =>
    rel_symm (fun _ _ r => r.symm) (h.spot fun k => e (h.obj.attrs_none.1 k))⟩
  refine h.there (fun k => e (h.obj.attrs_none.1 k)) ?_
  have := h.addr
  rw [e'] at this
  generalize c.addr = a at *
  cases this
  rfl

/-- Items. -/
structure RItem (Free : Str → Prop) (f f' : H5File) (it it' : Item) : Prop where
  core : RCore Free f f' it.toCore it'.toCore
  name : it.name = it'.name ∨ Free it.name ∧ Free it'.name
  path : it.obj.attrs? ≠ none → it.name = it'.name → it.classpath = it'.classpath
  ancestors : List.Forall₂ (RCore Free f f') it.ancestors it'.ancestors
  mark : ∀ v v', it.obj = .val v → it'.obj = .val v' →
    v = v' ∨ ¬ FieldSignal it ∧ ¬ FieldSignal it'

theorem RItem.symm {it it' : Item} (h : RItem Free f f' it it') : RItem Free f' f it' it :=
  ⟨h.core.symm, h.name.imp Eq.symm And.symm,
    fun e k => (h.path (fun w => e (h.core.obj.attrs_none.1 w)) k.symm).symm,
    (List.Forall₂.imp (fun _ _ h => h.symm) h.ancestors).flip,
    fun v v' e e' => (h.mark v' v e' e).imp Eq.symm And.symm⟩

theorem rItems_symm {l l' : List Item} (h : List.Forall₂ (RItem Free f f') l l') :
    List.Forall₂ (RItem Free f' f) l' l := (List.Forall₂.imp (fun _ _ h => h.symm) h).flip

/-! ## contents -/

theorem RePair.base (S : RePair env mgr Free f f') {cs cs' : List Str} {c c' : Str} {n n' : Node}
    (h : Walk f.root f'.root (cs ++ [c]) (cs' ++ [c']) n n') :
    Spec.baseName n.name = c ∧ Spec.baseName n'.name = c' := by
  have key : ∀ {f f' : H5File} {n n' : Node} {cs cs' : List Str} {c c' : Str}, WellNamedFile f →
      (∀ x ∈ cs ++ [c], Label x) →
      Walk f.root f'.root (cs ++ [c]) (cs' ++ [c']) n n' → Spec.baseName n.name = c := by
    intro f f' n n' cs cs' c c' w l h
    rcases h.name w with ⟨e, _⟩ | ⟨_, e⟩
    · simp at e
    · rw [e, show slashed (cs ++ [c]) = slashed cs ++ '/' :: c by simp [slashed]]
      exact baseName_member (l c (by simp)).slash
  exact ⟨key S.one (h.labels S.root).1 h, key S.one' (h.labels S.root).2 h.symm⟩

theorem memberItem_re (S : RePair env mgr Free f f') {b b' : Item} (hc : RItem Free f f' b b')
    (hb : b.classpath = b'.classpath) (pos pos' : List Nat) {n n' : Node} {cs cs' : List Str}
    {c c' : Str} (h : Walk f.root f'.root (cs ++ [c]) (cs' ++ [c']) n n')
    (hl : c = c' ∨ Free c ∧ Free c') :
    RItem Free f f' (memberItem env b pos n) (memberItem env b' pos' n') := by
  obtain ⟨e1, e2⟩ := S.base h
  have hp : SamePlace f f' n n' := ⟨_, _, h⟩
  have hr := (S.node hp).re
  have hgr : (H5Obj.node n).asGroup ≠ none ∨ (H5Obj.node n').asGroup ≠ none →
      classpathIn env b.classpath n = classpathIn env b'.classpath n' := by
    rw [hb]
    cases hr with
    | dataset => rintro (h | h) <;> exact absurd rfl h
    | datatype => rintro (h | h) <;> exact absurd rfl h
    | group ha _ => intro _; simp only [classpathIn, reAttrs_class ha]
  have hsame : c = c' → classpathIn env b.classpath n = classpathIn env b'.classpath n' := by
    rintro rfl
    cases hr with
    | dataset =>
      simp only [classpathIn, hb]
      rw [Node.name] at e1 e2
      simp only [e1, e2]
    | datatype =>
      simp only [classpathIn, hb]
      rw [Node.name] at e1 e2
      simp only [e1, e2]
    | group => exact hgr (.inl nofun)
  have hcp : RePath Free (classpathIn env b.classpath n) (classpathIn env b'.classpath n') := by
    rcases hl with rfl | hl
    · exact .inl (hsame rfl)
    have hlab := h.labels S.root
    have key : RePath Free (b'.classpath ++ '/' :: c) (b'.classpath ++ '/' :: c') :=
      .inr ⟨b'.classpath, c, c', [], ⟨hlab.1 c (by simp), hlab.2 c' (by simp)⟩, hl, by simp, by simp,
        .inl rfl⟩
    cases hr with
    | group => exact .inl (hgr (.inl nofun))
    | _ =>
      simp only [classpathIn, hb]
      rw [Node.name] at e1 e2
      simp only [e1, e2]
      split
      · exact .inl rfl
      split
      · exact .inl rfl
      · exact key
  refine ⟨⟨.node hp, .some (S.spot hp).addr, hcp, hgr, nofun, fun _ => .some (S.spot hp)⟩, ?_, ?_,
    .cons hc.core hc.ancestors, fun v v' e => by cases e⟩
  · rw [memberItem, memberItem]
    simp only [e1, e2]
    exact hl
  · intro _ k
    rw [memberItem, memberItem] at k
    simp only [e1, e2] at k
    exact hsame k

theorem signal_other {k : Str} (h : IsSignal k) (hs : k ≠ s%"signal") :
    k ∉ [s%"target", s%"default", s%"signal", s%"axes"] := by
  intro hk
  simp only [List.mem_cons, List.not_mem_nil, or_false] at hk
  rcases hk with rfl | rfl | rfl | rfl
  · revert h; unfold IsSignal; decide
  · revert h; unfold IsSignal; decide
  · exact hs rfl
  · revert h; unfold IsSignal; decide

theorem attributeItem_signal {o : Item} {j : Nat} {k : Str} {v : Val}
    (h : FieldSignal (attributeItem o j (k, v))) :
    IsSignal k ∧ ∃ n a d, o.obj = .node (.dataset n a d) := by
  obtain ⟨h1, d, h2, n, a, v, h3⟩ := h
  cases h2
  refine ⟨?_, n, a, v, h3⟩
  rw [attributeItem] at h1
  simp only at h1
  split at h1
  · rename_i e
    rw [e] at h1
    exact absurd h1 (by decide)
  · exact signal_of_suffix h1

/-- `n` is the object of the item. -/
def Owner (f : H5File) (o : H5Obj) (n : Node) : Prop := o = .node n ∨ o = .file f ∧ n = f.root

theorem Owner.attrs {o : H5Obj} {n : Node} (h : Owner f o n) : o.attrs? ≠ none := by
  rcases h with rfl | ⟨rfl, _⟩ <;> nofun

theorem Owner.node {o : H5Obj} {n m : Node} (h : Owner f o n) (e : o = .node m) : m = n := by
  rcases h with rfl | ⟨rfl, _⟩ <;> cases e
  rfl

theorem attributeItem_re {o o' : Item} (h : RItem Free f f' o o') {n n' : Node}
    (ho : Owner f o.obj n) (ho' : Owner f' o'.obj n') (j j' : Nat) {k : Str} {v v' : Val}
    (hv : ReAttr env Free f f' n n' k v v') :
    RItem Free f f' (attributeItem o j (k, v)) (attributeItem o' j' (k, v')) := by
  refine ⟨⟨.val, ?_, ?_, fun e => ?_, fun e => absurd rfl e, fun e => absurd rfl e⟩, .inl rfl,
    fun e => absurd rfl e, .cons h.core h.ancestors, ?_⟩
  · have hs := h.core.spot ho.attrs
    rw [attributeItem, attributeItem]
    simp only [show o.classpath = s%"non-NeXus content" ↔ o'.classpath = s%"non-NeXus content" from
      h.core.classpath.outside_iff]
    split
    · exact .none
    · generalize o.addr = a at *
      generalize o'.addr = a' at *
      cases hs with
      | none => exact .none
      | some r => exact .some (r.attr k)
  · rw [attributeItem, attributeItem]
    simp only [show o.classpath = s%"non-NeXus content" ↔ o'.classpath = s%"non-NeXus content" from
      h.core.classpath.outside_iff]
    split
    · exact h.core.classpath
    · exact h.core.classpath.attr k
  · rcases e with e | e <;> exact absurd rfl e
  · intro w w' e e'
    cases e
    cases e'
    by_cases hk : k = s%"signal"
    · by_cases hg : (∀ t a ks, n ≠ .group t a ks) ∨ ∀ t a ks, n' ≠ .group t a ks
      · exact .inl (hv.mark hk hg)
      · refine .inr ⟨fun e => hg (.inl ?_), fun e => hg (.inr ?_)⟩
        · obtain ⟨_, m, a, d, e⟩ := attributeItem_signal e
          rw [← ho.node e]
          nofun
        · obtain ⟨_, m, a, d, e⟩ := attributeItem_signal e
          rw [← ho'.node e]
          nofun
    · by_cases hs : IsSignal k
      · exact .inl (hv.other (signal_other hs hk))
      · exact .inr ⟨fun e => hs (attributeItem_signal e).1, fun e => hs (attributeItem_signal e).1⟩

theorem attributeItems_re {o o' : Item} (h : RItem Free f f' o o') {n n' : Node}
    (ho : Owner f o.obj n) (ho' : Owner f' o'.obj n') {a a' : List (Str × Val)}
    (ha : ReAttrs env Free f f' n n' a a') : ∀ j j',
    List.Forall₂ (RItem Free f f') (attributeItems o j a) (attributeItems o' j' a') := by
  induction ha with
  | nil => intros; exact .nil
  | @cons x y _ _ r _ ih =>
    intro j j'
    obtain ⟨k, v⟩ := x
    obtain ⟨k', v'⟩ := y
    obtain ⟨h1, h2⟩ := r
    obtain rfl : k = k' := h1
    exact .cons (attributeItem_re h ho ho' _ _ h2) (ih _ _)

theorem containerOf_re {o o' : Item} (h : RItem Free f f' o o') {n n' : Node}
    (ho : Owner f o.obj n) (ho' : Owner f' o'.obj n') {a a' : List (Str × Val)}
    (ha : ReAttrs env Free f f' n n' a a') (hcp : o.classpath = o'.classpath) :
    RItem Free f f' (containerOf o a) (containerOf o' a') ∧
      (containerOf o a).classpath = (containerOf o' a').classpath := by
  by_cases hc : o.classpath = s%"non-NeXus content"
  · refine ⟨?_, by rw [containerOf_outside hc, containerOf_outside (hcp ▸ hc)]⟩
    rw [containerOf, containerOf, if_pos hc, if_pos (hcp ▸ hc)]
    have := forall₂_getLast? (attributeItems_re h ho ho' (reAttrs_sorted ha) 0 0)
    generalize (attributeItems o 0 (sortByName a)).getLast? = x at *
    generalize (attributeItems o' 0 (sortByName a')).getLast? = y at *
    cases this with
    | none => exact h
    | some k => exact k
  · rw [containerOf, containerOf, if_neg hc, if_neg (hcp ▸ hc)]
    exact ⟨h, hcp⟩

mutual
theorem contentsNode_re (S : RePair env mgr Free f f') {n n' : Node} : ReNode env Free f f' n n' →
    ∀ {cs cs' : List Str} {l l' : Str}, Walk f.root f'.root (cs ++ [l]) (cs' ++ [l']) n n' →
    (l = l' ∨ Free l ∧ Free l') → ∀ {c c' : Item},
    RItem Free f f' c c' → c.classpath = c'.classpath → ∀ pos pos',
    List.Forall₂ (RItem Free f f') (contentsNode env c pos n) (contentsNode env c' pos' n')
  | .dataset ha, cs, cs', l, l', hw, hl, c, c', hc, he, pos, pos' => by
    have ho := memberItem_re S hc he pos pos' hw hl
    rw [contentsNode, contentsNode]
    exact .cons ho (attributeItems_re ho (.inl rfl) (.inl rfl) (reAttrs_sorted ha) _ _)
  | .datatype ha, cs, cs', l, l', hw, hl, c, c', hc, he, pos, pos' => by
    have ho := memberItem_re S hc he pos pos' hw hl
    rw [contentsNode, contentsNode]
    exact .cons ho (attributeItems_re ho (.inl rfl) (.inl rfl) (reAttrs_sorted ha) _ _)
  | .group ha hk, cs, cs', l, l', hw, hl, c, c', hc, he, pos, pos' => by
    have ho := memberItem_re S hc he pos pos' hw hl
    rw [contentsNode, contentsNode]
    refine .cons ho (List.rel_append (attributeItems_re ho (.inl rfl) (.inl rfl) (reAttrs_sorted ha) _ _) ?_)
    obtain ⟨h1, h2⟩ := containerOf_re ho (.inl rfl) (.inl rfl) ha (ho.core.same (.inl nofun))
    exact contentsKids_re S hk (fun i c m c' m' h1 h2 => ⟨_, _, hw.snoc rfl rfl h1 h2⟩)
      h1 h2 _ _ _ _
theorem contentsKids_re (S : RePair env mgr Free f f') {ks ks' : Kids} :
    ReKids env Free f f' ks ks' →
    (∀ (i : Nat) (c : Str) (m : Node) (c' : Str) (m' : Node), ks.toList[i]? = some (c, some m) →
      ks'.toList[i]? = some (c', some m') →
      ∃ cs cs', Walk f.root f'.root (cs ++ [c]) (cs' ++ [c']) m m') →
    ∀ {c c' : Item}, RItem Free f f' c c' → c.classpath = c'.classpath → ∀ pos pos' i i',
    List.Forall₂ (RItem Free f f') (contentsKids env c pos i ks) (contentsKids env c' pos' i' ks')
  | .nil, _, _, _, _, _, _, _, _, _ => by rw [contentsKids, contentsKids]; exact .nil
  | .cons hl hl' he hn hk, H, _, _, hc, hp, _, _, _, _ => by
    rw [contentsKids, contentsKids]
    obtain ⟨cs, cs', hw⟩ := H 0 _ _ _ _ rfl rfl
    exact List.rel_append (contentsNode_re S hn hw he hc hp _ _)
      (contentsKids_re S hk (fun i c m c' m' h1 h2 => H (i + 1) c m c' m' h1 h2) hc hp _ _ _ _)
  | .broken hk, H, _, _, hc, hp, _, _, _, _ => by
    rw [contentsKids, contentsKids]
    exact contentsKids_re S hk (fun i c m c' m' h1 h2 => H (i + 1) c m c' m' h1 h2) hc hp _ _ _ _
end

/-- The items of both files correspond to each other, one by one. -/
theorem contents_re (S : RePair env mgr Free f f') :
    List.Forall₂ (RItem Free f f') (contents env f) (contents env f') := by
  have ho : RItem Free f f' (rootOf f) (rootOf f') :=
    ⟨⟨.file, .some S.spot_root.addr, .inl rfl, fun _ => rfl, nofun, fun _ => .some S.spot_root⟩,
      .inl rfl, fun _ _ => rfl, .nil, fun v v' e => by cases e⟩
  rw [contents, contents]
  exact .cons ho (List.rel_append (attributeItems_re ho (.inr ⟨rfl, rfl⟩) (.inr ⟨rfl, rfl⟩) (reAttrs_sorted S.ren.attrs) _ _)
    (contentsKids_re S S.ren.kids (fun i c m c' m' h1 h2 => ⟨[], [], .step h1 h2 .nil⟩)
      ho rfl _ _ _ _))

end Punx

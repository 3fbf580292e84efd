import Verif.Props.Extras3
import Verif.Spec.Removed

/-!
# C135: additional content can be removed: items, names, paths
-/

namespace Punx
open Spec

variable {env : Env} {mgr : Manager} {X : Node → Bool} {f : H5File} {items items' : List Item}

/-! ## classes of what is left -/

theorem mem_attributeItems_class {o : Item} {l : List (Str × Val)} : ∀ {j : Nat} {x : Item},
    x ∈ attributeItems o j l → x.obj.asGroup = none := by
  induction l with
  | nil => intro j x h; cases h
  | cons ka l ih =>
    intro j x h
    rcases List.mem_cons.1 h with rfl | h
    · rfl
    · exact ih h

theorem containerOf_classpath (o : Item) (a : List (Str × Val)) :
    (containerOf o a).classpath = o.classpath := by
  by_cases h : o.classpath = s%"non-NeXus content"
  · rw [containerOf_outside h, h]
  · rw [containerOf, if_neg h]

mutual
/-- The groups that are left are groups of the file, with the same class paths and attributes. -/
theorem groups_left : (n : Node) → ∀ {c c' : Item}, c.classpath = c'.classpath → ∀ pos pos' x g,
    x ∈ contentsNode env c pos (trimNode X n) → x.obj.asGroup = some g →
    ∃ y ∈ contentsNode env c' pos' n, y.classpath = x.classpath ∧
      ∃ g', y.obj.asGroup = some g' ∧ g'.attrs = g.attrs
  | .group n a ks, c, c', hc, pos, pos', x, g, hx, hg => by
    rw [trimNode, contentsNode] at hx
    rw [contentsNode]
    rcases List.mem_cons.1 hx with rfl | hx
    · refine ⟨_, List.mem_cons_self .., ?_, _, rfl, ?_⟩
      · show classpathIn env c'.classpath (.group n a ks) =
          classpathIn env c.classpath (.group n a (trimKids X ks))
        rw [hc]
        simp only [classpathIn]
      · have : g = .group n a (trimKids X ks) := (Option.some.inj hg).symm
        rw [this]
        rfl
    · rcases List.mem_append.1 hx with hx | hx
      · rw [mem_attributeItems_class hx] at hg
        cases hg
      · obtain ⟨y, hy, h⟩ := groupsKids_left ks (c := _) (c' := containerOf (memberItem env c' pos'
            (.group n a ks)) a) (by
          rw [containerOf_classpath, containerOf_classpath]
          show classpathIn env c.classpath (.group n a (trimKids X ks)) =
            classpathIn env c'.classpath (.group n a ks)
          rw [hc]
          simp only [classpathIn]) pos pos' 0 0 x g hx hg
        exact ⟨y, List.mem_cons_of_mem _ (List.mem_append_right _ hy), h⟩
  | .dataset n a v, c, c', hc, pos, pos', x, g, hx, hg => by
    rw [trimNode, contentsNode] at hx
    rcases List.mem_cons.1 hx with rfl | hx
    · cases hg
    · rw [mem_attributeItems_class hx] at hg
      cases hg
  | .datatype n a, c, c', hc, pos, pos', x, g, hx, hg => by
    rw [trimNode, contentsNode] at hx
    rcases List.mem_cons.1 hx with rfl | hx
    · cases hg
    · rw [mem_attributeItems_class hx] at hg
      cases hg
theorem groupsKids_left : (ks : Kids) → ∀ {c c' : Item}, c.classpath = c'.classpath →
    ∀ pos pos' i i' x g, x ∈ contentsKids env c pos i (trimKids X ks) → x.obj.asGroup = some g →
    ∃ y ∈ contentsKids env c' pos' i' ks, y.classpath = x.classpath ∧
      ∃ g', y.obj.asGroup = some g' ∧ g'.attrs = g.attrs
  | .nil, c, c', hc, pos, pos', i, i', x, g, hx, hg => by
    rw [trimKids, contentsKids] at hx
    cases hx
  | .cons l k n r, c, c', hc, pos, pos', i, i', x, g, hx, hg => by
    rw [contentsKids]
    rw [trimKids] at hx
    split at hx
    · obtain ⟨y, hy, h⟩ := groupsKids_left r hc pos pos' i (i' + 1) x g hx hg
      exact ⟨y, List.mem_append_right _ hy, h⟩
    · rw [contentsKids] at hx
      rcases List.mem_append.1 hx with hx | hx
      · obtain ⟨y, hy, h⟩ := groups_left n hc _ ((2 * i' + 2) :: pos') x g hx hg
        exact ⟨y, List.mem_append_left _ hy, h⟩
      · obtain ⟨y, hy, h⟩ := groupsKids_left r hc pos pos' _ (i' + 1) x g hx hg
        exact ⟨y, List.mem_append_right _ hy, h⟩
  | .broken l k r, c, c', hc, pos, pos', i, i', x, g, hx, hg => by
    rw [trimKids, contentsKids] at hx
    rw [contentsKids]
    exact groupsKids_left r hc pos pos' _ _ x g hx hg
end

theorem noSlash_left (h : NoSlash env (contents env f)) : NoSlash env (contents env (trim X f)) := by
  intro x hx g hg hc hne c hcl
  rw [contents] at hx
  rcases List.mem_cons.1 hx with rfl | hx
  · exact absurd rfl hne
  · rcases List.mem_append.1 hx with hx | hx
    · rw [mem_attributeItems_class hx] at hg
      cases hg
    · obtain ⟨y, hy, h1, g', h2, h3⟩ := groupsKids_left f.kids (c := rootOf (trim X f))
        (c' := rootOf f) rfl [] [] 0 0 x g hx hg
      refine h y ?_ g' h2 (h1 ▸ hc) (h1 ▸ hne) c (h3 ▸ hcl)
      rw [contents]
      exact List.mem_cons_of_mem _ (List.mem_append_right _ hy)

/-! ## what can be read -/

mutual
theorem readable_left : (n : Node) → ∀ {p : Place}, Intact n → AllNodes (NodeTargetOk env) n →
    ClassesReadable env p n → Intact (trimNode X n) ∧ AllNodes (NodeTargetOk env) (trimNode X n) ∧
      ClassesReadable env p (trimNode X n)
  | .group n a ks, p, h1, h2, h3 => by
    rw [Intact] at h1
    rw [AllNodes] at h2
    rw [ClassesReadable] at h3
    obtain ⟨k1, k2, k3⟩ := readableKids_left ks h1 h2.2 h3.2
    rw [trimNode, Intact, AllNodes, ClassesReadable]
    exact ⟨k1, ⟨h2.1, k2⟩, h3.1, k3⟩
  | .dataset n a v, p, h1, h2, h3 => by
    rw [trimNode]
    exact ⟨h1, h2, h3⟩
  | .datatype n a, p, h1, h2, h3 => by
    rw [trimNode]
    exact ⟨h1, h2, h3⟩
theorem readableKids_left : (ks : Kids) → ∀ {p : Place}, IntactKids ks →
    AllKids (NodeTargetOk env) ks → ClassesReadableKids env p ks →
    IntactKids (trimKids X ks) ∧ AllKids (NodeTargetOk env) (trimKids X ks) ∧
      ClassesReadableKids env p (trimKids X ks)
  | .nil, _, h1, h2, h3 => by
    rw [trimKids]
    exact ⟨h1, h2, h3⟩
  | .cons l k n r, p, h1, h2, h3 => by
    rw [IntactKids] at h1
    rw [AllKids] at h2
    rw [ClassesReadableKids] at h3
    obtain ⟨k1, k2, k3⟩ := readableKids_left r h1.2 h2.2 h3.2
    rw [trimKids]
    split
    · exact ⟨k1, k2, k3⟩
    · obtain ⟨e1, e2, e3⟩ := readable_left n h1.1 h2.1 h3.1
      rw [IntactKids, AllKids, ClassesReadableKids]
      exact ⟨⟨e1, k1⟩, ⟨e2, k2⟩, e3, k3⟩
  | .broken l k r, p, h1, h2, h3 => by
    rw [IntactKids] at h1
    exact h1.elim
end

theorem fileReadable_left (h : FileReadable env f) : FileReadable env (trim X f) := by
  obtain ⟨k1, k2, k3⟩ := readableKids_left f.kids h.intact h.targets h.classes
  exact ⟨k1, h.rootTarget, k2, k3⟩

/-! ## paths -/

/-- The leading parts of a path exist. -/
theorem linkExists_prefix : ∀ (cs ds : List Str) {n : Node}, linkExists n (cs ++ ds) = true →
    linkExists n cs = true
  | [], _, _, _ => rfl
  | [c], [], _, h => h
  | [c], d :: ds, n, h => by
    cases n with
    | dataset => simp [linkExists] at h
    | datatype => simp [linkExists] at h
    | group m a ks =>
      simp only [List.singleton_append, linkExists] at h ⊢
      cases e : ks.find c with
      | none => rw [e] at h; cases h
      | some o => rfl
  | c :: c' :: cs, ds, n, h => by
    cases n with
    | dataset => simp [linkExists] at h
    | datatype => simp [linkExists] at h
    | group m a ks =>
      simp only [List.cons_append, linkExists] at h ⊢
      cases e : ks.find c with
      | none => rw [e] at h; cases h
      | some o =>
        rw [e] at h
        cases o with
        | none => cases h
        | some k =>
          simp only at h ⊢
          exact linkExists_prefix (c' :: cs) ds h

theorem contains_prefix {g : H5File} {u p : Str} {pre post : List Str}
    (e : split '/' u = pre ++ p :: post) (h : h5contains g g.root ('/' :: u) = true) :
    h5contains g g.root (slashed (pre ++ [p])) = true := by
  have hn : ∀ c ∈ pre ++ [p], '/' ∉ c := by
    intro c hc
    refine sep_notMem_split (s := u) ?_
    rw [e]
    rcases List.mem_append.1 hc with hc | hc
    · exact List.mem_append_left _ hc
    · rw [List.mem_singleton] at hc
      simp [hc]
  have hne : slashed (pre ++ [p]) ≠ [] := by
    cases pre <;> simp [slashed]
  have hs : ∀ q, startNode g g.root q = g.root := fun q => by rw [startNode]; split <;> rfl
  have e1 : pathParts ('/' :: u) = pathParts (slashed (pre ++ [p])) ++
      post.filter fun c => c ≠ [] ∧ c ≠ s%"." := by
    rw [pathParts, split_cons_sep, e, pathParts, split_slashed hn]
    rw [List.filter_cons_of_neg (by simp), List.filter_cons_of_neg (by simp),
      ← List.filter_append, List.append_assoc, List.singleton_append]
  rw [h5contains, if_neg (by simp), hs, e1] at h
  rw [h5contains, if_neg hne, hs]
  split at h
  · have h := groupThere_prefix _ _ h
    split
    · exact h
    · exact linkExists_of_group h
  · rename_i hd
    split
    · rename_i hd'
      cases e2 : post.filter fun c => c ≠ [] ∧ c ≠ s%"." with
      | cons x xs => rw [e2] at h; exact group_of_linkExists _ h
      | nil =>
        exfalso
        refine hd ?_
        rw [endsInDot, split_slashed hn, List.filter_cons_of_neg (by simp)] at hd'
        rw [endsInDot, split_cons_sep, e, List.filter_cons_of_neg (by simp)]
        rw [show pre ++ p :: post = (pre ++ [p]) ++ post by simp, List.filter_append,
          List.getLast?_append]
        cases e3 : (post.filter (· ≠ [])).getLast? with
        | none => exact hd'
        | some c =>
          have hc := List.mem_filter.1 (List.mem_of_getLast? e3)
          have := List.filter_eq_nil_iff.1 e2 c hc.1
          have h4 : c ≠ [] := by simpa using hc.2
          by_cases h5 : c = s%"."
          · subst h5; rfl
          · exact absurd (by simp [h4, h5]) this
    · exact linkExists_prefix _ _ h

theorem Spec.ReferencesKept.targetOk (R : ReferencesKept env mgr X f) {o : Item} {a t : Str} {v : Val}
    (hc : CarriesAttr (contents env f) o a s%"target" v) (ht : TextOf env v t)
    (h : TargetOk env mgr f t) : TargetOk env mgr (trim X f) t := by
  obtain ⟨u, rfl, h1, h2⟩ := h
  have k := (R.target o a v _ hc ht).link h2
  rw [← trim_root] at k
  refine ⟨u, rfl, fun pre p post e => ⟨(h1 pre p post e).1, ?_⟩, k⟩
  exact contains_prefix e k

/-! ## items of the two files -/

theorem CarriesAttr.left (S : TrimFile env mgr X f items items') {x : Item} {a k : Str} {v : Val}
    (h : CarriesAttr items x a k v) : ∃ y, CarriesAttr items' y a k v ∧ TrimRel X x y := by
  obtain ⟨attrs, h1, h2⟩ := h.attr
  obtain ⟨y, hy, hl⟩ := S.rel.up h.mem
  exact ⟨y, ⟨hy, fun e => h.nexus (hl.outside.2 e), hl.core.addr.symm.trans h.addr, attrs,
    hl.attrs.symm.trans h1, h2⟩, hl⟩

theorem group_attrs {o : H5Obj} {g : Node} {attrs : List (Str × Val)} (h : o.asGroup = some g)
    (h' : o.attrs? = some attrs) : g.attrs = attrs := by
  cases o with
  | file f =>
    cases h
    cases h'
    rfl
  | node n =>
    cases n with
    | group => cases h; cases h'; rfl
    | dataset => cases h
    | datatype => cases h
  | val => cases h
  | none => cases h

theorem group_name {o : H5Obj} {g : Node} (h : o.asGroup = some g) : ∃ attrs,
    o.attrs? = some attrs := by
  cases o with
  | file f => exact ⟨_, rfl⟩
  | node n => exact ⟨_, rfl⟩
  | val => cases h
  | none => cases h

theorem itemAt_left (S : TrimFile env mgr X f (contents env (trim X f)) (contents env f)) {a : Str}
    {y : Item} (h : itemAt (contents env f) a = some y) (hs : StillListed env X f (some a)) :
    ∃ x, itemAt (contents env (trim X f)) a = some x ∧ TrimRel X x y := by
  obtain ⟨hy, ha⟩ := (itemAt_iff S.once).1 h
  obtain ⟨x, hx, hxa⟩ := hs ⟨y, hy, ha⟩
  have e := (itemAt_iff S.once').2 ⟨hx, hxa⟩
  obtain ⟨y', e', hl⟩ := itemAt_trim S e
  rw [h] at e'
  cases e'
  exact ⟨x, e, hl⟩

end Punx

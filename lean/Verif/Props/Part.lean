import Verif.Props.Catalog2
import Verif.Spec.Part

/-!
# C113: a group is judged by its own content, positions in a file
-/

namespace Punx
open Spec

/-- A position in a file: the item of the container, the number, the path and the object. -/
structure Site where
  box : Item
  pos : List Nat
  path : Str
  node : Node

/-- The item of the object. -/
def Site.item (env : Env) (s : Site) : Item := memberItem env s.box s.pos s.node

/-- The position of member `j` of the group at `s`. -/
def Site.kid (env : Env) (s : Site) (j : Nat) (l : Str) (m : Node) : Site :=
  ⟨containerOf (s.item env) s.node.attrs, (2 * j + 2) :: s.pos, s.path ++ '/' :: l, m⟩

/-- Position of member `j` of the root. -/
def rootKid (f : H5File) (j : Nat) (l : Str) (m : Node) : Site :=
  ⟨rootOf f, [2 * j + 2], '/' :: l, m⟩

/-- `s` is `t` or below it. -/
inductive Under (env : Env) (t : Site) : Site → Prop
  | refl : Under env t t
  | step {s : Site} {j : Nat} {n l : Str} {a : List (Str × Val)} {ks : Kids} {m : Node} :
      Under env t s → s.node = .group n a ks → ks.toList[j]? = some (l, some m) →
      Under env t (s.kid env j l m)

theorem Under.trans' {env : Env} {t s r : Site} (h : Under env t s) (h' : Under env s r) :
    Under env t r := by
  induction h' with
  | refl => exact h
  | step _ h2 h3 ih => exact .step ih h2 h3

/-- `s` is a position in the file. -/
def InFile (env : Env) (f : H5File) (s : Site) : Prop :=
  ∃ j l m, f.kids.toList[j]? = some (l, some m) ∧ Under env (rootKid f j l m) s

/-! ## the items of a file by position -/

mutual
theorem mem_contentsNode {env : Env} {x : Item} : (n : Node) → (c : Item) → (pos : List Nat) →
    (path : Str) → x ∈ contentsNode env c pos n →
    ∃ s, Under env ⟨c, pos, path, n⟩ s ∧
      (x = s.item env ∨ x ∈ attributeItems (s.item env) 0 (sortByName s.node.attrs))
  | .group n a ks, c, pos, path, h => by
    rw [contentsNode] at h
    rcases List.mem_cons.1 h with rfl | h
    · exact ⟨_, .refl, .inl rfl⟩
    · rcases List.mem_append.1 h with h | h
      · exact ⟨_, .refl, .inr h⟩
      · obtain ⟨j, l, m, hj, s, hs, hx⟩ := mem_contentsKids ks _ pos 0 path h
        refine ⟨s, ?_, hx⟩
        have h1 : Under env ⟨c, pos, path, .group n a ks⟩
            (Site.kid env ⟨c, pos, path, .group n a ks⟩ j l m) := .step .refl rfl hj
        rw [Nat.zero_add] at hs
        exact h1.trans' hs
  | .dataset n a d, c, pos, path, h => by
    rw [contentsNode] at h
    rcases List.mem_cons.1 h with rfl | h
    · exact ⟨_, .refl, .inl rfl⟩
    · exact ⟨_, .refl, .inr h⟩
  | .datatype n a, c, pos, path, h => by
    rw [contentsNode] at h
    rcases List.mem_cons.1 h with rfl | h
    · exact ⟨_, .refl, .inl rfl⟩
    · exact ⟨_, .refl, .inr h⟩
theorem mem_contentsKids {env : Env} {x : Item} : (ks : Kids) → (c : Item) → (pos : List Nat) →
    (i : Nat) → (path : Str) → x ∈ contentsKids env c pos i ks →
    ∃ j l m, ks.toList[j]? = some (l, some m) ∧
      ∃ s, Under env ⟨c, (2 * (i + j) + 2) :: pos, path ++ '/' :: l, m⟩ s ∧
        (x = s.item env ∨ x ∈ attributeItems (s.item env) 0 (sortByName s.node.attrs))
  | .nil, c, pos, i, path, h => by rw [contentsKids] at h; cases h
  | .cons l k n rest, c, pos, i, path, h => by
    rw [contentsKids] at h
    rcases List.mem_append.1 h with h | h
    · obtain ⟨s, hs, hx⟩ := mem_contentsNode n c _ (path ++ '/' :: l) h
      exact ⟨0, l, n, by rw [Kids.toList]; rfl, s, hs, hx⟩
    · obtain ⟨j, l', m, hj, s, hs, hx⟩ := mem_contentsKids rest c pos (i + 1) path h
      refine ⟨j + 1, l', m, by rw [Kids.toList]; exact hj, s, ?_, hx⟩
      rwa [show i + (j + 1) = i + 1 + j by omega]
  | .broken l k rest, c, pos, i, path, h => by
    rw [contentsKids] at h
    obtain ⟨j, l', m, hj, s, hs, hx⟩ := mem_contentsKids rest c pos (i + 1) path h
    refine ⟨j + 1, l', m, by rw [Kids.toList]; exact hj, s, ?_, hx⟩
    rwa [show i + (j + 1) = i + 1 + j by omega]
end

theorem contentsKids_get {env : Env} {x : Item} : (ks : Kids) → (c : Item) → (pos : List Nat) →
    (i j : Nat) → {l : Str} → {m : Node} → ks.toList[j]? = some (l, some m) →
    x ∈ contentsNode env c ((2 * (i + j) + 2) :: pos) m → x ∈ contentsKids env c pos i ks
  | .nil, c, pos, i, j, l, m, h, hx => by simp [Kids.toList] at h
  | .cons l k n rest, c, pos, i, 0, l', m, h, hx => by
    rw [Kids.toList] at h
    cases h
    rw [contentsKids]
    exact List.mem_append_left _ hx
  | .cons l k n rest, c, pos, i, j + 1, l', m, h, hx => by
    rw [Kids.toList] at h
    rw [contentsKids]
    refine List.mem_append_right _ (contentsKids_get rest c pos (i + 1) j h ?_)
    rwa [show i + 1 + j = i + (j + 1) by omega]
  | .broken l k rest, c, pos, i, 0, l', m, h, hx => by
    rw [Kids.toList] at h
    cases h
  | .broken l k rest, c, pos, i, j + 1, l', m, h, hx => by
    rw [Kids.toList] at h
    rw [contentsKids]
    refine contentsKids_get rest c pos (i + 1) j h ?_
    rwa [show i + 1 + j = i + (j + 1) by omega]

theorem contentsNode_self (env : Env) (c : Item) (pos : List Nat) (n : Node) :
    memberItem env c pos n ∈ contentsNode env c pos n := by
  cases n <;> rw [contentsNode] <;> exact List.mem_cons_self

theorem Under.mem {env : Env} {t s : Site} (h : Under env t s) {x : Item}
    (hx : x ∈ contentsNode env s.box s.pos s.node) : x ∈ contentsNode env t.box t.pos t.node := by
  induction h with
  | refl => exact hx
  | @step s j n l a ks m _ h2 h3 ih =>
    apply ih
    rw [h2, contentsNode]
    refine List.mem_cons_of_mem _ (List.mem_append_right _ ?_)
    refine contentsKids_get ks _ _ 0 j h3 ?_
    rw [Nat.zero_add]
    have : (s.kid env j l m).box = containerOf (memberItem env s.box s.pos (.group n a ks)) a := by
      rw [Site.kid, Site.item, h2]; rfl
    rw [this] at hx
    exact hx

theorem InFile.mem {env : Env} {f : H5File} {s : Site} (h : InFile env f s) :
    s.item env ∈ contents env f := by
  obtain ⟨j, l, m, hj, hu⟩ := h
  rw [contents]
  refine List.mem_cons_of_mem _ (List.mem_append_right _ ?_)
  refine contentsKids_get f.kids (rootOf f) [] 0 j hj ?_
  rw [Nat.zero_add]
  exact hu.mem (contentsNode_self env _ _ _)

theorem mem_attributeItems {o x : Item} : {l : List (Str × Val)} → {j : Nat} →
    x ∈ attributeItems o j l → ∃ i, ∃ ka ∈ l, x = attributeItem o i ka
  | [], j, h => by rw [attributeItems] at h; cases h
  | ka :: l, j, h => by
    rw [attributeItems] at h
    rcases List.mem_cons.1 h with rfl | h
    · exact ⟨j, ka, List.mem_cons_self, rfl⟩
    · obtain ⟨i, kb, hk, e⟩ := mem_attributeItems h
      exact ⟨i, kb, List.mem_cons_of_mem _ hk, e⟩

/-- The items of a file are those of the root, of the objects, and of their attributes. -/
theorem mem_contents_iff {env : Env} {f : H5File} {x : Item} (hx : x ∈ contents env f) :
    x = rootOf f ∨ (∃ s, InFile env f s ∧ x = s.item env) ∨
      ∃ o i ka, x = attributeItem o i ka := by
  rw [contents] at hx
  rcases List.mem_cons.1 hx with rfl | hx
  · exact .inl rfl
  · rcases List.mem_append.1 hx with hx | hx
    · obtain ⟨i, ka, _, e⟩ := mem_attributeItems hx
      exact .inr (.inr ⟨_, i, ka, e⟩)
    · obtain ⟨j, l, m, hj, s, hs, hx⟩ := mem_contentsKids f.kids _ [] 0 [] hx
      rw [Nat.zero_add] at hs
      rcases hx with rfl | hx
      · exact .inr (.inl ⟨s, ⟨j, l, m, hj, hs⟩, rfl⟩)
      · obtain ⟨i, ka, _, e⟩ := mem_attributeItems hx
        exact .inr (.inr ⟨_, i, ka, e⟩)

theorem object_site {env : Env} {f : H5File} {x : Item} (hx : x ∈ contents env f)
    (ho : x.obj.attrs? ≠ none) : x = rootOf f ∨ ∃ s, InFile env f s ∧ x = s.item env := by
  rcases mem_contents_iff hx with h | h | ⟨o, i, ka, rfl⟩
  · exact .inl h
  · exact .inr h
  · exact absurd rfl ho

/-! ## paths -/

theorem wellNamedKids_get {path : Str} : (ks : Kids) → WellNamedKids path ks → {j : Nat} → {l : Str} →
    {m : Node} → ks.toList[j]? = some (l, some m) →
    l ≠ [] ∧ '/' ∉ l ∧ '@' ∉ l ∧ WellNamed (path ++ '/' :: l) m
  | .nil, _, j, l, m, h => by simp [Kids.toList] at h
  | .cons l k n rest, hw, 0, l', m, h => by
    rw [Kids.toList] at h
    cases h
    rw [WellNamedKids] at hw
    exact ⟨hw.1, hw.2.1, hw.2.2.1, hw.2.2.2.1⟩
  | .cons l k n rest, hw, j + 1, l', m, h => by
    rw [Kids.toList] at h
    rw [WellNamedKids] at hw
    exact wellNamedKids_get rest hw.2.2.2.2 h
  | .broken l k rest, hw, 0, l', m, h => by
    rw [Kids.toList] at h
    cases h
  | .broken l k rest, hw, j + 1, l', m, h => by
    rw [Kids.toList] at h
    rw [WellNamedKids] at hw
    exact wellNamedKids_get rest hw h

/-- What is known of a position in a well named file. -/
structure Named (s : Site) : Prop where
  good : WellNamed s.path s.node
  at' : '@' ∉ s.path
  last : ∃ q l, s.path = q ++ '/' :: l ∧ l ≠ [] ∧ '/' ∉ l

theorem Named.name {s : Site} (h : Named s) : s.node.name = s.path := wellNamed_name h.good

theorem Named.kid {env : Env} {s : Site} (h : Named s) {j : Nat} {n l : Str}
    {a : List (Str × Val)} {ks : Kids} {m : Node} (h2 : s.node = .group n a ks)
    (h3 : ks.toList[j]? = some (l, some m)) : Named (s.kid env j l m) := by
  have hg := h.good
  rw [h2, WellNamed] at hg
  obtain ⟨hn, _, _, hk⟩ := hg
  obtain ⟨w1, w2, w3, w4⟩ := wellNamedKids_get ks hk h3
  refine ⟨w4, ?_, s.path, l, rfl, w1, w2⟩
  intro hc
  rcases List.mem_append.1 hc with hc | hc
  · exact h.at' hc
  · rcases List.mem_cons.1 hc with hc | hc
    · cases hc
    · exact w3 hc

theorem Named.under {env : Env} {t s : Site} (h : Named t) (hu : Under env t s) : Named s := by
  induction hu with
  | refl => exact h
  | step _ h2 h3 ih => exact ih.kid h2 h3

theorem named_rootKid {f : H5File} (hw : WellNamedFile f) {j : Nat} {l : Str} {m : Node}
    (hj : f.kids.toList[j]? = some (l, some m)) : Named (rootKid f j l m) := by
  obtain ⟨w1, w2, w3, w4⟩ := wellNamedKids_get f.kids hw.2.2 hj
  refine ⟨w4, ?_, [], l, rfl, w1, w2⟩
  intro hc
  rcases List.mem_cons.1 hc with hc | hc
  · cases hc
  · exact w3 hc

theorem InFile.named {env : Env} {f : H5File} (hw : WellNamedFile f) {s : Site}
    (h : InFile env f s) : Named s := by
  obtain ⟨j, l, m, hj, hu⟩ := h
  exact (named_rootKid hw hj).under hu

theorem last_unique {q q' l l' : Str} (h : '/' ∉ l) (h' : '/' ∉ l')
    (e : q ++ '/' :: l = q' ++ '/' :: l') : q = q' ∧ l = l' := by
  have e1 := congrArg List.reverse e
  simp only [List.reverse_append, List.reverse_cons, List.append_assoc, List.singleton_append] at e1
  have key : ∀ (a b x y : Str), '/' ∉ a → '/' ∉ b → a ++ '/' :: x = b ++ '/' :: y → a = b ∧ x = y := by
    intro a
    induction a with
    | nil =>
      intro b x y _ hb e
      cases b with
      | nil => exact ⟨rfl, (List.cons.inj e).2⟩
      | cons c b => exact absurd (by rw [← (List.cons.inj e).1]; exact List.mem_cons_self) hb
    | cons c a ih =>
      intro b x y ha hb e
      cases b with
      | nil => exact absurd (by rw [(List.cons.inj e).1]; exact List.mem_cons_self) ha
      | cons d b =>
        obtain ⟨e1, e2⟩ := List.cons.inj e
        obtain ⟨r1, r2⟩ := ih b x y (fun h => ha (List.mem_cons_of_mem _ h))
          (fun h => hb (List.mem_cons_of_mem _ h)) e2
        exact ⟨by rw [e1, r1], r2⟩
  obtain ⟨r1, r2⟩ := key _ _ _ _ (by simpa using h) (by simpa using h') e1
  exact ⟨List.reverse_injective r2, List.reverse_injective r1⟩

theorem nodup_get {α β : Type} {ks : List (α × β)} (hd : (ks.map (·.1)).Nodup) {i j : Nat} {l : α}
    {x y : β} (hi : ks[i]? = some (l, x)) (hj : ks[j]? = some (l, y)) : i = j ∧ x = y := by
  have h1 : (ks.map (·.1))[i]? = some l := by rw [List.getElem?_map, hi]; rfl
  have h2 : (ks.map (·.1))[j]? = some l := by rw [List.getElem?_map, hj]; rfl
  have e : i = j := by
    obtain ⟨hi', e1⟩ := List.getElem?_eq_some_iff.1 h1
    obtain ⟨hj', e2⟩ := List.getElem?_eq_some_iff.1 h2
    exact (hd.getElem_inj_iff (hi := hi') (hj := hj')).1 (by rw [e1, e2])
  subst e
  rw [hi] at hj
  cases hj
  exact ⟨rfl, rfl⟩

/-- A position is at the top, or a member of another one. -/
theorem InFile.cases {env : Env} {f : H5File} {s : Site} (h : InFile env f s) :
    (∃ j l m, f.kids.toList[j]? = some (l, some m) ∧ s = rootKid f j l m) ∨
    ∃ t j n l a ks m, InFile env f t ∧ t.node = .group n a ks ∧
      ks.toList[j]? = some (l, some m) ∧ s = t.kid env j l m := by
  obtain ⟨j, l, m, hj, hu⟩ := h
  cases hu with
  | refl => exact .inl ⟨j, l, m, hj, rfl⟩
  | step h1 h2 h3 => exact .inr ⟨_, _, _, _, _, _, _, ⟨j, l, m, hj, h1⟩, h2, h3, rfl⟩

theorem InFile.kid {env : Env} {f : H5File} {t : Site} (h : InFile env f t) {j : Nat} {n l : Str}
    {a : List (Str × Val)} {ks : Kids} {m : Node} (h2 : t.node = .group n a ks)
    (h3 : ks.toList[j]? = some (l, some m)) : InFile env f (t.kid env j l m) := by
  obtain ⟨j', l', m', hj, hu⟩ := h
  exact ⟨j', l', m', hj, .step hu h2 h3⟩

theorem path_unique_aux {env : Env} {f : H5File} (hw : WellNamedFile f) (k : Nat) : ∀ {s t : Site},
    s.path.length ≤ k → InFile env f s → InFile env f t → s.path = t.path → s = t := by
  induction k with
  | zero =>
    intro s t hk hs _ _
    obtain ⟨q, l, e, _⟩ := (hs.named hw).last
    rw [e] at hk
    simp at hk
  | succ k ih =>
    intro s t hk hs ht e
    rcases hs.cases with ⟨j, l, m, hj, rfl⟩ | ⟨s', j, n, l, a, ks, m, hs', hn, hj, rfl⟩ <;>
    rcases ht.cases with ⟨j', l', m', hj', rfl⟩ | ⟨t', j', n', l', a', ks', m', ht', hn', hj', rfl⟩
    · cases e
      obtain ⟨e1, e2⟩ := nodup_get hw.2.1 hj hj'
      cases e1
      cases e2
      rfl
    · exfalso
      obtain ⟨_, w2, _, _⟩ := wellNamedKids_get f.kids hw.2.2 hj
      obtain ⟨q, l2, e2, _⟩ := (ht'.named hw).last
      have e3 : '/' :: l = t'.path ++ '/' :: l' := e
      rw [e2] at e3
      cases q with
      | nil =>
        apply w2
        rw [(List.cons.inj e3).2]
        simp
      | cons c q =>
        apply w2
        rw [(List.cons.inj e3).2]
        simp
    · exfalso
      obtain ⟨_, w2, _, _⟩ := wellNamedKids_get f.kids hw.2.2 hj'
      obtain ⟨q, l2, e2, _⟩ := (hs'.named hw).last
      have e3 : s'.path ++ '/' :: l = '/' :: l' := e
      rw [e2] at e3
      cases q with
      | nil =>
        apply w2
        rw [← (List.cons.inj e3).2]
        simp
      | cons c q =>
        apply w2
        rw [← (List.cons.inj e3).2]
        simp
    · have hg := (hs'.named hw).good
      rw [hn, WellNamed] at hg
      obtain ⟨_, w2, _, _⟩ := wellNamedKids_get ks hg.2.2.2 hj
      have hg' := (ht'.named hw).good
      rw [hn', WellNamed] at hg'
      obtain ⟨_, w2', _, _⟩ := wellNamedKids_get ks' hg'.2.2.2 hj'
      obtain ⟨e1, e2⟩ := last_unique w2 w2' e
      have hl : s'.path.length ≤ k := by
        have : (s'.kid env j l m).path.length = s'.path.length + (l.length + 1) := by
          rw [Site.kid]; simp
        omega
      have := ih hl hs' ht' e1
      subst this
      rw [hn] at hn'
      cases hn'
      subst e2
      obtain ⟨e3, e4⟩ := nodup_get hg.2.2.1 hj hj'
      cases e3
      cases e4
      rfl

/-- In a well named file no two positions have the same path. -/
theorem path_unique {env : Env} {f : H5File} (hw : WellNamedFile f) {s t : Site}
    (hs : InFile env f s) (ht : InFile env f t) (e : s.path = t.path) : s = t :=
  path_unique_aux hw _ le_rfl hs ht e

theorem path_step {p q l r : Str} (hl : '/' ∉ l) (h : q ++ '/' :: l = p ++ '/' :: r) :
    q = p ∨ ∃ r', q = p ++ '/' :: r' := by
  rcases List.append_eq_append_iff.1 h with ⟨a, e1, e2⟩ | ⟨a, e1, e2⟩
  · cases a with
    | nil => left; simpa using e1.symm
    | cons c a =>
      exfalso
      apply hl
      rw [(List.cons.inj e2).2]
      simp
  · cases a with
    | nil => left; simpa using e1
    | cons c a => right; exact ⟨a, by rw [e1, (List.cons.inj e2).1]⟩

/-- What is at a path below the path of a position is below the position. -/
theorem under_of_path {env : Env} {f : H5File} (hw : WellNamedFile f) {t : Site}
    (ht : InFile env f t) {s : Site} (hs : InFile env f s)
    (h : s.path = t.path ∨ ∃ r, s.path = t.path ++ '/' :: r) : Under env t s := by
  obtain ⟨j0, l0, m0, hj0, hu⟩ := hs
  have hn0 := named_rootKid hw hj0
  generalize hk : rootKid f j0 l0 m0 = k at hu hn0
  have base : ∀ s, Under env k s → InFile env f s := fun s hs => ⟨j0, l0, m0, hj0, hk ▸ hs⟩
  induction hu with
  | refl =>
    have e : k = t := by
      rcases h with h | ⟨r, h⟩
      · exact path_unique hw (base _ .refl) ht h
      · exfalso
        obtain ⟨q, l, e2, _⟩ := (ht.named hw).last
        obtain ⟨_, w2, _, _⟩ := wellNamedKids_get f.kids hw.2.2 hj0
        have : '/' :: l0 = t.path ++ '/' :: r := by rw [← h, ← hk]; rfl
        rw [e2] at this
        cases q with
        | nil => exact w2 (by rw [(List.cons.inj this).2]; simp)
        | cons c q => exact w2 (by rw [(List.cons.inj this).2]; simp)
    rw [e]
    exact .refl
  | @step s j n l a ks m h1 h2 h3 ih =>
    have hs := base _ h1
    rcases h with h | ⟨r, h⟩
    · have := path_unique hw (base _ (.step h1 h2 h3)) ht h
      rw [this]
      exact .refl
    · refine .step (ih ?_) h2 h3
      have hg := (hs.named hw).good
      rw [h2, WellNamed] at hg
      obtain ⟨_, w2, _, _⟩ := wellNamedKids_get ks hg.2.2.2 h3
      exact path_step w2 h

end Punx

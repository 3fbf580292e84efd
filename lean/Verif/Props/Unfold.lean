import Verif.Props.LinkGraph
import Verif.Props.Catalog
import Verif.Spec.Unfold

/-!
# C11: files as stores of objects and files as trees
-/

namespace Punx
open Spec

/-! ## which files are trees -/

mutual
theorem follows_bounded {g : Store} : ∀ {t : Node} {v : Nat}, Unfolds g v t →
    ∀ {p : List Nat} {w : Nat}, Follows g v p w → p.length ≤ objects t
  | .group n a kids, v, h, p, w, hp => by
    rw [Unfolds] at h
    obtain ⟨ms, hv, hk⟩ := h
    rw [objects]
    cases hp with
    | nil => simp
    | cons hm hi hr =>
      rw [hv] at hm
      injection hm with hm
      subst hm
      have := followsKids_bounded hk hi hr
      simp only [List.length_cons]
      omega
  | .dataset n a d, v, h, p, w, hp => by
    rw [Unfolds] at h
    cases hp with
    | nil => simp
    | cons hm => rw [h] at hm; cases hm
    all_goals exact fun _ _ _ he => by cases he
  | .datatype n a, v, h, p, w, hp => by
    rw [Unfolds] at h
    cases hp with
    | nil => simp
    | cons hm => rw [h] at hm; cases hm
    all_goals exact fun _ _ _ he => by cases he
theorem followsKids_bounded {g : Store} : ∀ {ks : Kids} {ms : List (Option Nat)}, UnfoldsKids g ms ks →
    ∀ {i u : Nat}, ms[i]? = some (some u) → ∀ {p : List Nat} {w : Nat}, Follows g u p w →
      p.length ≤ objectsKids ks
  | .nil, [], _, i, u, hi, _, _, _ => by simp at hi
  | .nil, _ :: _, h, _, _, _, _, _, _ => by simp [UnfoldsKids] at h
  | .cons l k n rest, [], h, _, _, _, _, _, _ => by simp [UnfoldsKids] at h
  | .cons l k n rest, none :: ms, h, _, _, _, _, _, _ => by simp [UnfoldsKids] at h
  | .cons l k n rest, some j :: ms, h, i, u, hi, p, w, hp => by
    rw [UnfoldsKids] at h
    rw [objectsKids]
    cases i with
    | zero =>
      simp only [List.getElem?_cons_zero, Option.some.injEq] at hi
      subst hi
      have := follows_bounded h.1 hp
      omega
    | succ i =>
      rw [List.getElem?_cons_succ] at hi
      have := followsKids_bounded h.2 hi hp
      omega
  | .broken l k rest, [], h, _, _, _, _, _, _ => by simp [UnfoldsKids] at h
  | .broken l k rest, some j :: ms, h, _, _, _, _, _, _ => by simp [UnfoldsKids] at h
  | .broken l k rest, none :: ms, h, i, u, hi, p, w, hp => by
    rw [UnfoldsKids] at h
    rw [objectsKids]
    cases i with
    | zero => simp at hi
    | succ i =>
      rw [List.getElem?_cons_succ] at hi
      exact followsKids_bounded h hi hp
end

theorem unfoldsKids_of {g : Store} : ∀ {ms : List (Option Nat)},
    (∀ j, some j ∈ ms → ∃ t, Unfolds g j t) → ∃ ks, UnfoldsKids g ms ks
  | [], _ => ⟨.nil, by rw [UnfoldsKids]; trivial⟩
  | none :: ms, h => by
    obtain ⟨ks, hk⟩ := unfoldsKids_of fun j hj => h j (List.mem_cons_of_mem _ hj)
    exact ⟨.broken [] .hard ks, by rw [UnfoldsKids]; exact hk⟩
  | some j :: ms, h => by
    obtain ⟨ks, hk⟩ := unfoldsKids_of fun j hj => h j (List.mem_cons_of_mem _ hj)
    obtain ⟨t, ht⟩ := h j (by simp)
    exact ⟨.cons [] .hard t ks, by rw [UnfoldsKids]; exact ⟨ht, hk⟩⟩

theorem unfolds_of_bounded {g : Store} : ∀ (n : Nat) {v : Nat},
    (∀ p w, Follows g v p w → p.length ≤ n) → ∃ t, Unfolds g v t
  | n, v, h => by
    cases hv : g.at v with
    | other => exact ⟨.datatype [] [], by rw [Unfolds]; exact hv; all_goals exact fun _ _ _ he => by cases he⟩
    | group ms =>
      have hk : ∃ ks, UnfoldsKids g ms ks := by
        refine unfoldsKids_of fun j hj => ?_
        obtain ⟨i, hi⟩ := List.mem_iff_getElem?.1 hj
        cases n with
        | zero => exact absurd (h [i] j (.cons hv hi .nil)) (by simp)
        | succ n =>
          refine unfolds_of_bounded n fun p w hp => ?_
          have := h (i :: p) w (.cons hv hi hp)
          simpa using this
      obtain ⟨ks, hk⟩ := hk
      exact ⟨.group [] [] ks, by rw [Unfolds]; exact ⟨ms, hv, hk⟩⟩

/-- **C11.** The tree model covers exactly the files in which no group contains itself: from
these, and from no others, following the links gives a finite tree. -/
theorem tree_iff_acyclic (g : Store) (v : Nat) : (∃ t, Unfolds g v t) ↔ ¬ CycleBelow g v := by
  constructor
  · rintro ⟨t, ht⟩ ⟨p, u, c, hp, hc, hcyc⟩
    obtain ⟨q, hq, hlen⟩ := follows_repeat hcyc (objects t + 1)
    have := follows_bounded ht (follows_append hp hq)
    have hpos : 0 < c.length := List.length_pos_of_ne_nil hc
    rw [List.length_append, hlen] at this
    have : (objects t + 1) * 1 ≤ (objects t + 1) * c.length := Nat.mul_le_mul_left _ hpos
    omega
  · intro h
    exact unfolds_of_bounded g.length fun p w hp => short_of_acyclic h hp

/-! ## the walk over the store and the catalogue of the tree -/

/-- positions of the objects in a list of visits -/
def objectPositions (l : List Visit) : List (List Nat) :=
  (l.filter Visit.isObject).map (·.1)

theorem objectPositions_append (l m : List Visit) :
    objectPositions (l ++ m) = objectPositions l ++ objectPositions m := by
  simp [objectPositions]

theorem objectPositions_attrs (pos : List Nat) (l : List (Str × Val)) : ∀ j,
    objectPositions (visitAttrs pos j l) = [] := by
  induction l with
  | nil => intro j; rfl
  | cons ka l ih =>
    intro j
    have := ih (j + 1)
    unfold objectPositions at this ⊢
    rw [visitAttrs, List.filter_cons, if_neg (by simp [Visit.isObject])]
    exact this

theorem objectPositions_node (pos : List Nat) (n : Node) (s : Str) (l : List Visit) :
    objectPositions ((pos, .node n, s) :: l) = pos :: objectPositions l := by
  unfold objectPositions
  rw [List.filter_cons, if_pos (by rfl), List.map_cons]

theorem members_step {g : Store} {n i j : Nat} {ms : List (Option Nat)} {l : List (List Nat)}
    (h : walkMembers g (walk g n) i (some j :: ms) = .ok l) :
    ∃ here rest, (walk g (n + 1) j = .ok here ∨ walk g n j = .ok here) ∧
      walkMembers g (walk g n) (i + 1) ms = .ok rest ∧ l = here.map (i :: ·) ++ rest := by
  rw [walkMembers] at h
  have key : ∀ x : Except PyErr (List (List Nat)),
      (match x with
        | .error e => .error e
        | .ok here =>
          match walkMembers g (walk g n) (i + 1) ms with
          | .error e => .error e
          | .ok rest => .ok (here.map (i :: ·) ++ rest)) = Except.ok l →
      ∃ here rest, x = .ok here ∧ walkMembers g (walk g n) (i + 1) ms = .ok rest ∧
        l = here.map (i :: ·) ++ rest := by
    intro x hx
    cases x with
    | error e => cases hx
    | ok here =>
      dsimp only at hx
      cases hr : walkMembers g (walk g n) (i + 1) ms with
      | error e => rw [hr] at hx; cases hx
      | ok rest =>
        rw [hr] at hx
        injection hx with hx
        exact ⟨here, rest, rfl, rfl, hx.symm⟩
  obtain ⟨here, rest, h1, h2, h3⟩ := key _ h
  refine ⟨here, rest, ?_, h2, h3⟩
  cases hv : g.at j with
  | group m => rw [hv] at h1; exact .inr h1
  | other =>
    rw [hv] at h1
    refine .inl ?_
    rw [walk, hv]
    exact h1

theorem position_cons (i : Nat) (p pos : List Nat) :
    position (i :: p) ++ pos = position p ++ (2 * i + 2) :: pos := by
  simp [position]

mutual
theorem walk_node {g : Store} : ∀ {t : Node} {n v : Nat} {l : List (List Nat)}, Unfolds g v t →
    walk g n v = .ok l → ∀ pos, objectPositions (visitNode pos t) = l.map (fun p => position p ++ pos)
  | t, 0, v, l, _, hw, pos => by cases hw
  | .group nm a kids, n + 1, v, l, h, hw, pos => by
    rw [Unfolds] at h
    obtain ⟨ms, hv, hk⟩ := h
    rw [walk, hv] at hw
    dsimp only at hw
    cases hm : walkMembers g (walk g n) 0 ms with
    | error e => rw [hm] at hw; cases hw
    | ok l' =>
      rw [hm] at hw
      injection hw with hw
      subst hw
      rw [visitNode, List.cons_append, objectPositions_node, objectPositions_append,
        objectPositions_attrs, List.nil_append, walk_kids hk hm pos]
      rfl
  | .dataset nm a d, n + 1, v, l, h, hw, pos => by
    have hv : g.at v = .other := by
      rw [Unfolds] at h
      exact h
      all_goals exact fun _ _ _ he => by cases he
    rw [walk, hv] at hw
    injection hw with hw
    subst hw
    rw [visitNode, objectPositions_node, objectPositions_attrs]
    rfl
  | .datatype nm a, n + 1, v, l, h, hw, pos => by
    have hv : g.at v = .other := by
      rw [Unfolds] at h
      exact h
      all_goals exact fun _ _ _ he => by cases he
    rw [walk, hv] at hw
    injection hw with hw
    subst hw
    rw [visitNode, objectPositions_node, objectPositions_attrs]
    rfl
theorem walk_kids {g : Store} : ∀ {ks : Kids} {ms : List (Option Nat)} {n i : Nat}
    {l : List (List Nat)}, UnfoldsKids g ms ks → walkMembers g (walk g n) i ms = .ok l →
    ∀ pos, objectPositions (visitKids pos i ks) = l.map (fun p => position p ++ pos)
  | .nil, [], n, i, l, _, hw, pos => by
    rw [walkMembers] at hw
    injection hw with hw
    subst hw
    rfl
  | .nil, _ :: _, n, i, l, h, _, _ => by simp [UnfoldsKids] at h
  | .cons _ _ t rest, [], n, i, l, h, _, _ => by simp [UnfoldsKids] at h
  | .cons _ _ t rest, none :: ms, n, i, l, h, _, _ => by simp [UnfoldsKids] at h
  | .cons _ _ t rest, some j :: ms, n, i, l, h, hw, pos => by
    rw [UnfoldsKids] at h
    obtain ⟨here, l', hn, hr, rfl⟩ := members_step hw
    have h1 : objectPositions (visitNode ((2 * i + 2) :: pos) t) =
        here.map (fun p => position p ++ (2 * i + 2) :: pos) := by
      rcases hn with hn | hn
      · exact walk_node h.1 hn _
      · exact walk_node h.1 hn _
    rw [visitKids, objectPositions_append, h1, walk_kids h.2 hr pos, List.map_append,
      List.map_map]
    congr 1
    refine List.map_congr_left fun p _ => ?_
    exact (position_cons i p pos).symm
  | .broken _ _ rest, [], n, i, l, h, _, _ => by simp [UnfoldsKids] at h
  | .broken _ _ rest, some j :: ms, n, i, l, h, _, _ => by simp [UnfoldsKids] at h
  | .broken _ _ rest, none :: ms, n, i, l, h, hw, _ => by
    rw [walkMembers] at hw
    cases hw
end

/-- **C11.** The walk over the store of objects and the catalogue of the tree of links agree: the
objects of a finished catalogue are, in order, those at the ends of the links that the walk has
followed. -/
theorem catalog_is_walk {g : Store} {v n : Nat} {l : List (List Nat)} {env : Env} {f : H5File}
    {nm : Str} (hf : Unfolds g v (.group nm f.attrs f.kids)) (hw : walk g n v = .ok l)
    (hc : (catalog env f).res = .ok ()) :
    objectPositions ((catalog env f).log.map Item.visit) = l.map position := by
  rw [catalog_visits hc, visitFile]
  have h := walk_node hf hw []
  rw [visitNode, List.cons_append, objectPositions_node] at h
  have e : objectPositions (([], H5Obj.file f, s%"/") :: visitAttrs [] 0 (sortByName f.attrs) ++
      visitKids [] 0 f.kids) = [] :: objectPositions (visitAttrs [] 0 (sortByName f.attrs) ++
      visitKids [] 0 f.kids) := by
    unfold objectPositions
    rw [List.cons_append, List.filter_cons, if_pos (by rfl), List.map_cons]
  rw [e, h]
  simp

/-! ## broken links -/

mutual
theorem intact_iff {g : Store} : ∀ {t : Node} {v : Nat}, Unfolds g v t →
    (Intact t ↔ ¬ BrokenBelow g v)
  | .group nm a kids, v, h => by
    rw [Unfolds] at h
    obtain ⟨ms, hv, hk⟩ := h
    rw [Intact, intactKids_iff hk]
    constructor
    · rintro ⟨h1, h2⟩ ⟨p, u, ms', hp, hu, hn⟩
      cases hp with
      | nil =>
        rw [hv] at hu
        injection hu with hu
        subst hu
        exact h1 hn
      | cons hm hi hr =>
        rw [hv] at hm
        injection hm with hm
        subst hm
        exact h2 _ (List.mem_of_getElem? hi) ⟨_, _, _, hr, hu, hn⟩
    · intro h
      refine ⟨fun hn => h ⟨[], v, ms, .nil, hv, hn⟩, ?_⟩
      rintro j hj ⟨p, u, ms', hp, hu, hn⟩
      obtain ⟨i, hi⟩ := List.mem_iff_getElem?.1 hj
      exact h ⟨i :: p, u, ms', .cons hv hi hp, hu, hn⟩
  | .dataset nm a d, v, h => by
    have hv : g.at v = .other := by
      rw [Unfolds] at h
      exact h
      all_goals exact fun _ _ _ he => by cases he
    have : ¬ BrokenBelow g v := by
      rintro ⟨p, u, ms, hp, hu, hn⟩
      cases hp with
      | nil => rw [hv] at hu; cases hu
      | cons hm => rw [hv] at hm; cases hm
    simp [Intact, this]
  | .datatype nm a, v, h => by
    have hv : g.at v = .other := by
      rw [Unfolds] at h
      exact h
      all_goals exact fun _ _ _ he => by cases he
    have : ¬ BrokenBelow g v := by
      rintro ⟨p, u, ms, hp, hu, hn⟩
      cases hp with
      | nil => rw [hv] at hu; cases hu
      | cons hm => rw [hv] at hm; cases hm
    simp [Intact, this]
theorem intactKids_iff {g : Store} : ∀ {ks : Kids} {ms : List (Option Nat)}, UnfoldsKids g ms ks →
    (IntactKids ks ↔ none ∉ ms ∧ ∀ j, some j ∈ ms → ¬ BrokenBelow g j)
  | .nil, [], _ => by simp [IntactKids]
  | .nil, _ :: _, h => by simp [UnfoldsKids] at h
  | .cons _ _ t rest, [], h => by simp [UnfoldsKids] at h
  | .cons _ _ t rest, none :: ms, h => by simp [UnfoldsKids] at h
  | .cons _ _ t rest, some j :: ms, h => by
    rw [UnfoldsKids] at h
    rw [IntactKids, intact_iff h.1, intactKids_iff h.2]
    constructor
    · rintro ⟨h1, h2, h3⟩
      refine ⟨by simpa using h2, fun k hk => ?_⟩
      rcases List.mem_cons.1 hk with e | hk
      · injection e with e
        subst e
        exact h1
      · exact h3 k hk
    · rintro ⟨h1, h2⟩
      exact ⟨h2 j (by simp), by simpa using h1, fun k hk => h2 k (List.mem_cons_of_mem _ hk)⟩
  | .broken _ _ rest, [], h => by simp [UnfoldsKids] at h
  | .broken _ _ rest, some j :: ms, h => by simp [UnfoldsKids] at h
  | .broken _ _ rest, none :: ms, h => by simp [IntactKids]
end

/-- **C11.** For a file that is a tree, the walk ends for a large enough recursion limit exactly
if no link is broken. -/
theorem walk_of_tree {g : Store} {v : Nat} {t : Node} (h : Unfolds g v t) :
    (∃ n l, walk g n v = .ok l) ↔ Intact t := by
  rw [walk_finishes_iff, intact_iff h]
  exact ⟨fun h => h.2, fun hb => ⟨(tree_iff_acyclic g v).1 ⟨t, h⟩, hb⟩⟩

/-- A group with two links to one dataset, and a link to another group. -/
example : Unfolds [.group [some 1, some 1, some 2], .other, .group []] 0
    (.group s%"/" [] (.cons s%"a" .hard (.datatype s%"/a" [])
      (.cons s%"b" .hard (.datatype s%"/a" []) (.cons s%"c" .hard (.group s%"/c" [] .nil) .nil)))) := by
  simp [Unfolds, UnfoldsKids, Store.at]

example : objectPositions ((catalog sampleEnv ⟨[], .cons s%"a" .hard (.datatype s%"/a" [])
      (.cons s%"b" .hard (.datatype s%"/a" []) (.cons s%"c" .hard (.group s%"/c" [] .nil) .nil))⟩).log.map
        Item.visit) = ([[], [0], [1], [2]] : List (List Nat)).map position := by
  decide +kernel

end Punx

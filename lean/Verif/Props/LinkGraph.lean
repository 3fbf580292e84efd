import Verif.Spec.LinkGraph
import Mathlib.Data.List.Nodup
import Mathlib.Data.List.Perm.Subperm

/-!
# C11: files with hard-link cycles
-/

namespace Punx
open Spec

theorem follows_append {g : Store} {v u w : Nat} {p q : List Nat} (h1 : Follows g v p u)
    (h2 : Follows g u q w) : Follows g v (p ++ q) w := by
  induction h1 with
  | nil => exact h2
  | cons hm hi _ ih => exact .cons hm hi (ih h2)

theorem follows_functional {g : Store} {v w w' : Nat} {p : List Nat} (h1 : Follows g v p w)
    (h2 : Follows g v p w') : w = w' := by
  induction h1 with
  | nil => cases h2; rfl
  | cons hm hi _ ih =>
    cases h2 with
    | cons hm' hi' h' =>
      rw [hm] at hm'
      injection hm' with hm'
      subst hm'
      rw [hi] at hi'
      injection hi' with hi'
      injection hi' with hi'
      subst hi'
      exact ih h'

/-! ## what a finished walk has seen -/

theorem walkMembers_ok {g : Store} {enter : Nat → Except PyErr (List (List Nat))}
    {Q : Nat → List Nat → Prop}
    (henter : ∀ j l, (∃ ms, g.at j = .group ms) → enter j = .ok l →
      l.Nodup ∧ ∀ p, p ∈ l ↔ Q j p) :
    ∀ {ms : List (Option Nat)} {i : Nat} {l : List (List Nat)},
    walkMembers g enter i ms = .ok l →
    none ∉ ms ∧ l.Nodup ∧
      (∀ p, p ∈ l ↔ ∃ k j q, p = (i + k) :: q ∧ ms[k]? = some (some j) ∧
        ((∃ ms', g.at j = .group ms') ∧ Q j q ∨ g.at j = .other ∧ q = [])) ∧
      ∀ j, some j ∈ ms → (∃ ms', g.at j = .group ms') → ∃ l, enter j = .ok l
  | [], i, l, h => by
    injection h with h; subst h
    refine ⟨by simp, List.nodup_nil, fun p => ?_, by simp⟩
    simp
  | none :: _, i, l, h => by cases h
  | some j :: ms, i, l, h => by
    rw [walkMembers] at h
    split at h
    · cases h
    · rename_i here hhere
      split at h
      · cases h
      · rename_i rest hrest
        injection h with h
        subst h
        obtain ⟨r1, r2, r3, r4⟩ := walkMembers_ok henter hrest
        have hhere' : here.Nodup ∧ ∀ q, q ∈ here ↔
            ((∃ ms', g.at j = .group ms') ∧ Q j q ∨ g.at j = .other ∧ q = []) := by
          cases hj : g.at j with
          | group ms' =>
            rw [hj] at hhere
            obtain ⟨a, b⟩ := henter j here ⟨ms', hj⟩ hhere
            exact ⟨a, fun q => by rw [b]; simp⟩
          | other =>
            rw [hj] at hhere
            injection hhere with hhere
            subst hhere
            simp
        refine ⟨by simp [r1], ?_, ?_, ?_⟩
        · rw [List.nodup_append]
          refine ⟨?_, r2, ?_⟩
          · refine List.Pairwise.map _ ?_ hhere'.1
            intro a b hab he
            injection he with _ he
            exact hab he
          · intro a ha b hb he
            obtain ⟨q, _, rfl⟩ := List.mem_map.1 ha
            obtain ⟨k, _, q', hb', _⟩ := (r3 b).1 hb
            rw [← he] at hb'
            injection hb' with hb' _
            omega
        · intro p
          rw [List.mem_append, r3]
          constructor
          · rintro (hp | ⟨k, j', q, rfl, hk, hq⟩)
            · obtain ⟨q, hq, rfl⟩ := List.mem_map.1 hp
              exact ⟨0, j, q, by simp, by simp, (hhere'.2 q).1 hq⟩
            · exact ⟨k + 1, j', q, by simp; omega, by simpa using hk, hq⟩
          · rintro ⟨k, j', q, rfl, hk, hq⟩
            cases k with
            | zero =>
              simp at hk
              subst hk
              exact .inl (List.mem_map.2 ⟨q, (hhere'.2 q).2 hq, by simp⟩)
            | succ k =>
              exact .inr ⟨k, j', q, by simp; omega, by simpa using hk, hq⟩
        · intro j' hj' hg
          rcases List.mem_cons.1 hj' with he | hm
          · injection he with he
            subst he
            obtain ⟨ms', hms⟩ := hg
            rw [hms] at hhere
            exact ⟨here, hhere⟩
          · exact r4 j' hm hg

theorem store_lt {g : Store} {v : Nat} {ms : List (Option Nat)} (h : g.at v = .group ms) :
    v < g.length := by
  by_contra hc
  rw [Store.at, List.getElem?_eq_none (by omega)] at h
  cases h

/-- What a walk that has ended has seen: each path exactly once. -/
theorem walk_visits {g : Store} : ∀ {n v : Nat} {l : List (List Nat)}, walk g n v = .ok l →
    l.Nodup ∧ ∀ p, p ∈ l ↔ ∃ w, Follows g v p w
  | 0, v, l, h => by cases h
  | n + 1, v, l, h => by
    rw [walk] at h
    cases hv : g.at v with
    | other =>
      rw [hv] at h
      injection h with h
      subst h
      refine ⟨by simp, fun p => ?_⟩
      rw [List.mem_singleton]
      constructor
      · rintro rfl
        exact ⟨v, .nil⟩
      · rintro ⟨w, hw⟩
        cases hw with
        | nil => rfl
        | cons hm => rw [hv] at hm; cases hm
    | group ms =>
      rw [hv] at h
      dsimp only at h
      split at h
      · cases h
      · rename_i l' hl'
        injection h with h
        subst h
        obtain ⟨_, r2, r3, _⟩ := walkMembers_ok (Q := fun j p => ∃ w, Follows g j p w)
          (fun j l _ hj => walk_visits hj) hl'
        refine ⟨List.nodup_cons.2 ⟨?_, r2⟩, fun p => ?_⟩
        · intro hc
          obtain ⟨_, _, _, h0, _⟩ := (r3 _).1 hc
          cases h0
        · rw [List.mem_cons, r3]
          constructor
          · rintro (rfl | ⟨k, j, q, rfl, hk, hq⟩)
            · exact ⟨v, .nil⟩
            · rw [Nat.zero_add]
              rcases hq with ⟨_, w, hw⟩ | ⟨_, rfl⟩
              · exact ⟨w, .cons hv hk hw⟩
              · exact ⟨j, .cons hv hk .nil⟩
          · rintro ⟨w, hw⟩
            cases hw with
            | nil => exact .inl rfl
            | cons hm hi hr =>
              rw [hv] at hm
              injection hm with hm
              subst hm
              rename_i i u p
              refine .inr ⟨i, u, p, by simp, hi, ?_⟩
              cases hu : g.at u with
              | group ms' => exact .inl ⟨⟨ms', rfl⟩, w, hr⟩
              | other =>
                refine .inr ⟨rfl, ?_⟩
                cases hr with
                | nil => rfl
                | cons hm' => rw [hu] at hm'; cases hm'

/-- A walk that has ended saw only short paths and no broken link. -/
theorem walk_bounds {g : Store} : ∀ {n v : Nat} {l : List (List Nat)}, walk g n v = .ok l →
    (∀ p w, Follows g v p w → p.length ≤ n) ∧ ¬ BrokenBelow g v
  | 0, v, l, h => by cases h
  | n + 1, v, l, h => by
    rw [walk] at h
    cases hv : g.at v with
    | other =>
      constructor
      · intro p w hp
        cases hp with
        | nil => simp
        | cons hm => rw [hv] at hm; cases hm
      · rintro ⟨p, u, ms, hp, hu, _⟩
        cases hp with
        | nil => rw [hv] at hu; cases hu
        | cons hm => rw [hv] at hm; cases hm
    | group ms =>
      rw [hv] at h
      dsimp only at h
      split at h
      · cases h
      · rename_i l' hl'
        obtain ⟨r1, _, _, r4⟩ := walkMembers_ok (Q := fun j p => ∃ w, Follows g j p w)
          (fun j l _ hj => walk_visits hj) hl'
        have hsub : ∀ j, some j ∈ ms →
            (∀ p w, Follows g j p w → p.length ≤ n) ∧ ¬ BrokenBelow g j := by
          intro j hj
          cases hg : g.at j with
          | group ms' =>
            obtain ⟨l, hl⟩ := r4 j hj ⟨ms', hg⟩
            exact walk_bounds hl
          | other =>
            constructor
            · intro p w hp
              cases hp with
              | nil => simp
              | cons hm => rw [hg] at hm; cases hm
            · rintro ⟨p, u, ms, hp, hu, _⟩
              cases hp with
              | nil => rw [hg] at hu; cases hu
              | cons hm => rw [hg] at hm; cases hm
        constructor
        · intro p w hp
          cases hp with
          | nil => simp
          | cons hm hi hr =>
            rw [hv] at hm
            injection hm with hm
            subst hm
            have := (hsub _ (List.mem_of_getElem? hi)).1 _ _ hr
            simp only [List.length_cons]
            omega
        · rintro ⟨p, u, ms', hp, hu, hnone⟩
          cases hp with
          | nil =>
            rw [hv] at hu
            injection hu with hu
            subst hu
            exact r1 hnone
          | cons hm hi hr =>
            rw [hv] at hm
            injection hm with hm
            subst hm
            exact (hsub _ (List.mem_of_getElem? hi)).2 ⟨_, u, ms', hr, hu, hnone⟩

theorem walkMembers_succeeds {g : Store} {enter : Nat → Except PyErr (List (List Nat))} :
    ∀ {ms : List (Option Nat)} {i : Nat}, none ∉ ms →
    (∀ j, some j ∈ ms → (∃ ms', g.at j = .group ms') → ∃ l, enter j = .ok l) →
    ∃ l, walkMembers g enter i ms = .ok l
  | [], i, _, _ => ⟨[], rfl⟩
  | none :: _, i, h, _ => by simp at h
  | some j :: ms, i, h, he => by
    obtain ⟨rest, hr⟩ := walkMembers_succeeds (i := i + 1) (ms := ms) (enter := enter) (g := g)
      (fun hc => h (by simp [hc])) (fun j' hj' => he j' (by simp [hj']))
    rw [walkMembers]
    cases hg : g.at j with
    | group ms' =>
      obtain ⟨l, hl⟩ := he j (by simp) ⟨ms', hg⟩
      dsimp only
      rw [hl, hr]
      exact ⟨_, rfl⟩
    | other =>
      dsimp only
      rw [hr]
      exact ⟨_, rfl⟩

theorem walk_succeeds {g : Store} : ∀ {n v : Nat},
    (∀ p w, Follows g v p w → p.length ≤ n) → ¬ BrokenBelow g v →
    ∃ l, walk g (n + 1) v = .ok l
  | n, v, hp, hb => by
    rw [walk]
    cases hv : g.at v with
    | other => exact ⟨_, rfl⟩
    | group ms =>
      dsimp only
      have hne : none ∉ ms := fun hc => hb ⟨[], v, ms, .nil, hv, hc⟩
      have : ∃ l, walkMembers g (walk g n) 0 ms = .ok l := by
        apply walkMembers_succeeds hne
        intro j hj hgj
        obtain ⟨i, hi⟩ := List.getElem?_of_mem hj
        have hb' : ¬ BrokenBelow g j := by
          rintro ⟨p, u, ms', h1, h2, h3⟩
          exact hb ⟨i :: p, u, ms', .cons hv hi h1, h2, h3⟩
        cases n with
        | zero =>
          have := hp [i] j (.cons hv hi .nil)
          simp at this
        | succ n =>
          apply walk_succeeds _ hb'
          intro p w hpw
          have := hp (i :: p) w (.cons hv hi hpw)
          simp only [List.length_cons] at this
          omega
      obtain ⟨l, hl⟩ := this
      rw [hl]
      exact ⟨_, rfl⟩

/-! ## long paths meet a group twice -/

/-- the groups from which the links of a path are followed -/
def stops (g : Store) : Nat → List Nat → List Nat
  | _, [] => []
  | v, i :: p =>
    v :: match g.at v with
      | .group ms =>
        match ms[i]? with
        | some (some u) => stops g u p
        | _ => []
      | .other => []

theorem stops_cons {g : Store} {v i u : Nat} {p : List Nat} {ms : List (Option Nat)}
    (hv : g.at v = .group ms) (hi : ms[i]? = some (some u)) :
    stops g v (i :: p) = v :: stops g u p := by
  rw [stops, hv]
  dsimp only
  rw [hi]

theorem stops_length {g : Store} {v w : Nat} {p : List Nat} (h : Follows g v p w) :
    (stops g v p).length = p.length ∧ ∀ u ∈ stops g v p, u < g.length := by
  induction h with
  | nil => simp [stops]
  | cons hm hi _ ih =>
    rw [stops_cons hm hi]
    refine ⟨by simp [ih.1], ?_⟩
    intro u hu
    rcases List.mem_cons.1 hu with rfl | hu
    · exact store_lt hm
    · exact ih.2 u hu

/-- Each group on a path is reached by a part of the path. -/
theorem stops_reached {g : Store} {v w : Nat} {p : List Nat} (h : Follows g v p w) :
    ∀ u ∈ stops g v p, ∃ q, Follows g v q u := by
  induction h with
  | nil => simp [stops]
  | cons hm hi _ ih =>
    intro u hu
    rw [stops_cons hm hi] at hu
    rcases List.mem_cons.1 hu with rfl | hu
    · exact ⟨[], .nil⟩
    · obtain ⟨q, hq⟩ := ih u hu
      exact ⟨_, .cons hm hi hq⟩

theorem cycle_of_repeated {g : Store} {v w : Nat} {p : List Nat} (h : Follows g v p w)
    (hd : ¬ (stops g v p).Nodup) : CycleBelow g v := by
  induction h with
  | nil => simp [stops] at hd
  | cons hm hi hr ih =>
    rw [stops_cons hm hi, List.nodup_cons] at hd
    rename_i v' _ i u p _
    by_cases hin : v' ∈ stops g u p
    · obtain ⟨q, hq⟩ := stops_reached hr v' hin
      exact ⟨[], v', i :: q, .nil, by simp, .cons hm hi hq⟩
    · obtain ⟨q, x, c, h1, h2, h3⟩ := ih (fun hn => hd ⟨hin, hn⟩)
      exact ⟨i :: q, x, c, .cons hm hi h1, h2, h3⟩

theorem short_of_acyclic {g : Store} {v w : Nat} {p : List Nat} (hc : ¬ CycleBelow g v)
    (h : Follows g v p w) : p.length ≤ g.length := by
  by_contra hl
  apply hc
  apply cycle_of_repeated h
  intro hn
  obtain ⟨h1, h2⟩ := stops_length h
  have hsub : stops g v p ⊆ List.range g.length := fun u hu => List.mem_range.2 (h2 u hu)
  have := (hn.subperm hsub).length_le
  rw [List.length_range, h1] at this
  omega

theorem follows_repeat {g : Store} {u : Nat} {c : List Nat} (h : Follows g u c u) :
    ∀ n, ∃ p, Follows g u p u ∧ p.length = n * c.length
  | 0 => ⟨[], .nil, by simp⟩
  | n + 1 => by
    obtain ⟨p, h1, h2⟩ := follows_repeat h n
    exact ⟨c ++ p, follows_append h h1, by simp [h2, Nat.succ_mul, Nat.add_comm]⟩

/-! ## C11 -/

/-- C11: whether the catalogue is finished, for a recursion limit that is large enough:
exactly if no group below the start contains itself and no link is broken. -/
theorem walk_finishes_iff (g : Store) (v : Nat) :
    (∃ n l, walk g n v = .ok l) ↔ ¬ CycleBelow g v ∧ ¬ BrokenBelow g v := by
  constructor
  · rintro ⟨n, l, h⟩
    obtain ⟨h1, h2⟩ := walk_bounds h
    refine ⟨?_, h2⟩
    rintro ⟨p, u, c, hp, hc, hcyc⟩
    obtain ⟨q, hq, hlen⟩ := follows_repeat hcyc (n + 1)
    have := h1 _ _ (follows_append hp hq)
    have hpos : 0 < c.length := List.length_pos_of_ne_nil hc
    rw [List.length_append, hlen] at this
    have : (n + 1) * 1 ≤ (n + 1) * c.length := Nat.mul_le_mul_left _ hpos
    omega
  · rintro ⟨h1, h2⟩
    obtain ⟨l, hl⟩ := walk_succeeds (n := g.length) (fun p w hp => short_of_acyclic h1 hp) h2
    exact ⟨_, l, hl⟩

/-- C11: one more than the number of objects is enough. -/
theorem walk_limit {g : Store} {v : Nat} (hc : ¬ CycleBelow g v) (hb : ¬ BrokenBelow g v) :
    ∃ l, walk g (g.length + 1) v = .ok l :=
  walk_succeeds (fun _ _ hp => short_of_acyclic hc hp) hb

theorem walkMembers_error {g : Store} {enter : Nat → Except PyErr (List (List Nat))}
    {P : PyErr → Prop} : ∀ {ms : List (Option Nat)} {i : Nat} {e : PyErr},
    (∀ j e, some j ∈ ms → enter j = .error e → P e) → (none ∈ ms → P .keyError) →
    walkMembers g enter i ms = .error e → P e
  | [], i, e, _, _, h => by cases h
  | none :: _, i, e, _, hn, h => by
    injection h with h
    subst h
    exact hn (by simp)
  | some j :: ms, i, e, he, hn, h => by
    rw [walkMembers] at h
    split at h
    · rename_i e' hj
      injection h with h
      subst h
      cases hg : g.at j with
      | group ms' => rw [hg] at hj; exact he j _ (by simp) hj
      | other => rw [hg] at hj; cases hj
    · split at h
      · rename_i e' hr
        injection h with h
        subst h
        exact walkMembers_error (fun j' e' hj' => he j' e' (by simp [hj']))
          (fun hc => hn (by simp [hc])) hr
      · cases h

theorem walk_error {g : Store} : ∀ {n v : Nat} {e : PyErr}, walk g n v = .error e →
    e = .recursionError ∨ e = .keyError ∧ BrokenBelow g v
  | 0, v, e, h => by injection h with h; exact .inl h.symm
  | n + 1, v, e, h => by
    rw [walk] at h
    cases hv : g.at v with
    | other => rw [hv] at h; cases h
    | group ms =>
      rw [hv] at h
      dsimp only at h
      split at h
      · rename_i e' he
        injection h with h
        subst h
        refine walkMembers_error (P := fun e => e = .recursionError ∨
          e = .keyError ∧ BrokenBelow g v) ?_ ?_ he
        · intro j e hj hje
          rcases walk_error hje with h | ⟨h, p, u, ms', h1, h2, h3⟩
          · exact .inl h
          · obtain ⟨i, hi⟩ := List.getElem?_of_mem hj
            exact .inr ⟨h, i :: p, u, ms', .cons hv hi h1, h2, h3⟩
        · intro hn
          exact .inr ⟨rfl, [], v, ms, .nil, hv, hn⟩
      · cases h

/-- C11: in a file with a cycle and without broken links the catalogue ends with
`RecursionError`, however large the limit is. -/
theorem walk_cycle {g : Store} {v : Nat} (hc : CycleBelow g v) (hb : ¬ BrokenBelow g v) (n : Nat) :
    walk g n v = .error .recursionError := by
  cases h : walk g n v with
  | ok l => exact absurd hc ((walk_finishes_iff g v).1 ⟨n, l, h⟩).1
  | error e =>
    rcases walk_error h with rfl | ⟨_, hb'⟩
    · rfl
    · exact absurd hb' hb

/-- Root with a group `a` that has the root as member; nothing is broken. -/
def cyclicStore : Store := [.group [some 1, some 2], .group [some 0], .other]

theorem follows_members {g : Store} (hg : ∀ o ∈ g, ∀ ms, o = .group ms → none ∉ ms) (v : Nat) :
    ¬ BrokenBelow g v := by
  rintro ⟨p, u, ms, _, hu, hn⟩
  have hlt := store_lt hu
  rw [Store.at, List.getElem?_eq_getElem hlt, Option.getD_some] at hu
  exact hg _ (List.getElem_mem hlt) ms hu hn

example : CycleBelow cyclicStore 0 ∧ ¬ BrokenBelow cyclicStore 0 :=
  ⟨⟨[], 0, [0, 0], .nil, by simp,
    .cons (ms := [some 1, some 2]) rfl rfl (.cons (ms := [some 0]) rfl rfl .nil)⟩,
   follows_members (by simp [cyclicStore]) 0⟩

/-- Two links to one group are no cycle: it is catalogued twice. -/
def sharedStore : Store := [.group [some 1, some 1], .group [some 2], .other]

example : walk sharedStore 4 0 = .ok [[], [0], [0, 0], [1], [1, 0]] := by decide

example : ¬ CycleBelow sharedStore 0 ∧ ¬ BrokenBelow sharedStore 0 :=
  (walk_finishes_iff _ _).1 ⟨4, [[], [0], [0, 0], [1], [1, 0]], by decide⟩

end Punx

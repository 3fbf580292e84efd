import Verif.Spec.TreeGraph
import Verif.Lemmas.Basic
import Mathlib.Data.List.Nodup
import Mathlib.Data.List.Chain
import Mathlib.Data.List.Perm.Subperm

/-!
# C92: the tree report of a file with shared objects
-/

namespace Punx
open Spec Relation

theorem mem_subgroups {g : TStore} {p : Str} {v : Nat} {t : Str} {links : List (Str × Option Nat)}
    (hv : g.at v = .group t links) {s : Str × Nat} :
    s ∈ subgroups g p links ↔ Shows g (p, v) s := by
  unfold subgroups
  rw [List.mem_filterMap]
  constructor
  · rintro ⟨⟨n, d⟩, hl, h⟩
    rw [mem_sortBy] at hl
    cases d with
    | none => cases h
    | some j =>
      dsimp only at h
      cases hj : g.at j with
      | other => rw [hj] at h; cases h
      | group t' links' =>
        rw [hj] at h
        dsimp only at h
        split at h
        · cases h
        · rename_i hn
          injection h with h
          subst h
          refine ⟨t, links, n, t', links', hv, hl, rfl, hj, ?_⟩
          by_cases ht : t' = []
          · exact .inl ht
          · exact .inr (by_contra fun hne => hn ⟨ht, hne⟩)
  · rintro ⟨t0, l0, n, t', links', h1, h2, h3, h4, h5⟩
    rw [hv] at h1
    injection h1 with _ h1
    subst h1
    obtain ⟨q, w⟩ := s
    dsimp only at h2 h3 h4 h5
    subst h3
    refine ⟨(n, some w), mem_sortBy.2 h2, ?_⟩
    dsimp only
    rw [h4]
    dsimp only
    rw [if_neg]
    rintro ⟨h6, h7⟩
    rcases h5 with h5 | h5
    · exact h6 h5
    · exact h7 h5

/-- States that follow each other in the report. -/
inductive Run (g : TStore) : Str × Nat → List (Str × Nat) → Prop
  | nil {s} : Run g s []
  | cons {s s' l} : Shows g s s' → Run g s' l → Run g s (s' :: l)

theorem showAll_ok {enter : Str → Nat → Except PyErr (List Str)} : ∀ {l : List (Str × Nat)}
    {r : List Str}, showAll enter l = .ok r →
    (∀ s ∈ l, ∃ h, enter s.1 s.2 = .ok h) ∧
      ∀ q, q ∈ r ↔ ∃ s h, s ∈ l ∧ enter s.1 s.2 = .ok h ∧ q ∈ h
  | [], r, h => by
    injection h with h
    subst h
    simp
  | (p, v) :: l, r, h => by
    rw [showAll] at h
    cases he : enter p v with
    | error e => rw [he] at h; cases h
    | ok here =>
      rw [he] at h
      dsimp only at h
      cases hl : showAll enter l with
      | error e => rw [hl] at h; cases h
      | ok r' =>
        rw [hl] at h
        injection h with h
        subst h
        obtain ⟨i1, i2⟩ := showAll_ok hl
        constructor
        · intro s hs
          rcases List.mem_cons.1 hs with rfl | hs
          · exact ⟨here, he⟩
          · exact i1 s hs
        · intro q
          rw [List.mem_append, i2]
          constructor
          · rintro (hq | ⟨s, h, hs, hh, hq⟩)
            · exact ⟨(p, v), here, by simp, he, hq⟩
            · exact ⟨s, h, by simp [hs], hh, hq⟩
          · rintro ⟨s, h, hs, hh, hq⟩
            rcases List.mem_cons.1 hs with rfl | hs
            · rw [he] at hh
              injection hh with hh
              subst hh
              exact .inl hq
            · exact .inr ⟨s, h, hs, hh, hq⟩

theorem showAll_succeeds {enter : Str → Nat → Except PyErr (List Str)} : ∀ {l : List (Str × Nat)},
    (∀ s ∈ l, ∃ h, enter s.1 s.2 = .ok h) → ∃ r, showAll enter l = .ok r
  | [], _ => ⟨[], rfl⟩
  | (p, v) :: l, h => by
    obtain ⟨here, he⟩ := h (p, v) (by simp)
    obtain ⟨r, hr⟩ := showAll_succeeds (l := l) fun s hs => h s (by simp [hs])
    exact ⟨here ++ r, by rw [showAll]; dsimp only at he; rw [he]; dsimp only; rw [hr]⟩

theorem showAll_error {enter : Str → Nat → Except PyErr (List Str)}
    (he : ∀ p v e, enter p v = .error e → e = .recursionError) : ∀ {l : List (Str × Nat)} {e : PyErr},
    showAll enter l = .error e → e = .recursionError
  | [], e, h => by cases h
  | (p, v) :: l, e, h => by
    rw [showAll] at h
    cases hp : enter p v with
    | error e' =>
      rw [hp] at h
      injection h with h
      subst h
      exact he _ _ _ hp
    | ok here =>
      rw [hp] at h
      dsimp only at h
      cases hl : showAll enter l with
      | error e' =>
        rw [hl] at h
        injection h with h
        subst h
        exact showAll_error he hl
      | ok r => rw [hl] at h; cases h

/-- **C92.** The only failure is the recursion limit. -/
theorem treeWalk_error {g : TStore} : ∀ {n : Nat} {p : Str} {v : Nat} {e : PyErr},
    treeWalk g n p v = .error e → e = .recursionError
  | 0, p, v, e, h => by injection h with h; exact h.symm
  | n + 1, p, v, e, h => by
    rw [treeWalk] at h
    cases hv : g.at v with
    | other => rw [hv] at h; cases h
    | group t links =>
      rw [hv] at h
      dsimp only at h
      cases hs : showAll (treeWalk g n) (subgroups g p links) with
      | error e' =>
        rw [hs] at h
        injection h with h
        subst h
        exact showAll_error (fun _ _ _ => treeWalk_error) hs
      | ok l => rw [hs] at h; cases h

/-- **C92.** A finished report shows exactly the groups that can be reached, and has entered no
more of them one inside the other than the limit allows. -/
theorem treeWalk_ok {g : TStore} : ∀ {n : Nat} {p : Str} {v : Nat} {l : List Str},
    treeWalk g n p v = .ok l →
    (∀ q, q ∈ l ↔ ∃ w, ReflTransGen (Shows g) (p, v) (q, w)) ∧
      ∀ r, Run g (p, v) r → r.length < n
  | 0, p, v, l, h => by cases h
  | n + 1, p, v, l, h => by
    rw [treeWalk] at h
    cases hv : g.at v with
    | other =>
      rw [hv] at h
      injection h with h
      subst h
      have hno : ∀ s, ¬ Shows g (p, v) s := by
        rintro s ⟨t, links, _, _, _, h1, _⟩
        rw [hv] at h1
        cases h1
      constructor
      · intro q
        rw [List.mem_singleton]
        constructor
        · rintro rfl
          exact ⟨v, .refl⟩
        · rintro ⟨w, hw⟩
          rcases hw.cases_head with e | ⟨s, hs, _⟩
          · injection e with e _
            exact e.symm
          · exact absurd hs (hno s)
      · intro r hr
        cases hr with
        | nil => simp
        | cons hs => exact absurd hs (hno _)
    | group t links =>
      rw [hv] at h
      dsimp only at h
      cases hs : showAll (treeWalk g n) (subgroups g p links) with
      | error e' => rw [hs] at h; cases h
      | ok l' =>
        rw [hs] at h
        injection h with h
        subst h
        obtain ⟨i1, i2⟩ := showAll_ok hs
        constructor
        · intro q
          rw [List.mem_cons, i2]
          constructor
          · rintro (rfl | ⟨s, h, h1, h2, h3⟩)
            · exact ⟨v, .refl⟩
            · obtain ⟨w, hw⟩ := ((treeWalk_ok h2).1 q).1 h3
              exact ⟨w, .head ((mem_subgroups hv).1 h1) hw⟩
          · rintro ⟨w, hw⟩
            rcases hw.cases_head with e | ⟨s, hs', hw'⟩
            · injection e with e _
              exact .inl e.symm
            · have hm := (mem_subgroups hv).2 hs'
              obtain ⟨h, hh⟩ := i1 s hm
              exact .inr ⟨s, h, hm, hh, ((treeWalk_ok hh).1 q).2 ⟨w, hw'⟩⟩
        · intro r hr
          cases hr with
          | nil => simp
          | cons hs' hr' =>
            rename_i s l
            obtain ⟨h, hh⟩ := i1 s ((mem_subgroups hv).2 hs')
            have := (treeWalk_ok hh).2 _ hr'
            simp only [List.length_cons]
            omega

theorem treeWalk_succeeds {g : TStore} : ∀ {n : Nat} {p : Str} {v : Nat},
    (∀ r, Run g (p, v) r → r.length ≤ n) → ∃ l, treeWalk g (n + 1) p v = .ok l
  | n, p, v, h => by
    rw [treeWalk]
    cases hv : g.at v with
    | other => exact ⟨_, rfl⟩
    | group t links =>
      dsimp only
      have hall : ∀ s ∈ subgroups g p links, ∃ h, treeWalk g n s.1 s.2 = .ok h := by
        intro s hs
        have hs' := (mem_subgroups hv).1 hs
        cases n with
        | zero => exact absurd (h [s] (.cons hs' .nil)) (by simp)
        | succ n =>
          refine treeWalk_succeeds fun r hr => ?_
          have := h (s :: r) (.cons hs' hr)
          simpa using this
      obtain ⟨r, hr⟩ := showAll_succeeds hall
      rw [hr]
      exact ⟨_, rfl⟩

/-! ## chains of groups -/

theorem shows_length {g : TStore} (hn : NamedLinks g) {s s' : Str × Nat} (h : Shows g s s') :
    s.1.length < s'.1.length := by
  obtain ⟨t, links, n, _, _, h1, h2, h3, _⟩ := h
  have := hn _ _ _ h1 _ h2
  have : 0 < n.length := List.length_pos_of_ne_nil this
  rw [h3, memberName]
  split
  · rw [List.length_append]; omega
  · rw [List.length_append, List.length_append]; omega

theorem run_isChain {g : TStore} {s : Str × Nat} {l : List (Str × Nat)} (h : Run g s l) :
    List.IsChain (Shows g) (s :: l) := by
  induction h with
  | nil => exact .singleton _
  | cons hs _ ih => exact .cons_cons hs ih

theorem at_lt {g : TStore} {v : Nat} {t : Str} {links : List (Str × Option Nat)}
    (h : g.at v = .group t links) : v < g.length := by
  by_contra hc
  rw [TStore.at, List.getElem?_eq_none (by omega)] at h
  cases h

/-- Groups without `target` that follow each other: if none contains itself there are not more
than objects. -/
theorem free_chain {g : TStore} {l : List (Str × Nat)} (hc : List.IsChain (Shows g) l)
    (hf : ∀ s ∈ l, Free g s.2) (hno : ∀ s ∈ l, ¬ FreeCycle g s.2) : l.length ≤ g.length := by
  have h1 : List.IsChain (fun a b : Str × Nat => TransGen (FreeLink g) a.2 b.2) l := by
    refine hc.imp_of_mem_imp fun a b ha hb hab => ?_
    obtain ⟨la, hla⟩ := hf a ha
    obtain ⟨t, links, n, _, _, h2, h3, _⟩ := hab
    rw [hla] at h2
    injection h2 with _ h2
    subst h2
    exact .single ⟨la, n, hla, h3, hf b hb⟩
  have htr : IsTrans (Str × Nat) (fun a b => TransGen (FreeLink g) a.2 b.2) :=
    ⟨fun _ _ _ h h' => h.trans h'⟩
  have h2 := List.isChain_iff_pairwise.1 h1
  have h3 : (l.map (·.2)).Nodup := by
    rw [List.Nodup, List.pairwise_map]
    refine h2.imp_of_mem fun {a b} ha _ hab he => ?_
    rw [← he] at hab
    exact hno a ha hab
  have h4 : l.map (·.2) ⊆ List.range g.length := by
    intro v hv
    obtain ⟨s, hs, rfl⟩ := List.mem_map.1 hv
    obtain ⟨_, h⟩ := hf s hs
    exact List.mem_range.2 (at_lt h)
  have := (List.subperm_of_subset h3 h4).length_le
  simpa using this

theorem mem_takeWhile_prop {α : Type} {P : α → Bool} {l : List α} {x : α}
    (h : x ∈ l.takeWhile P) : P x = true :=
  List.all_eq_true.1 List.all_takeWhile x h

/-- A list without long blocks of `P` is short if it has few members that are not `P`. -/
theorem blocks_length {α : Type} (P : α → Bool) (N : Nat) : ∀ (k : Nat) (l : List α), l.length ≤ k →
    (∀ b, b <:+: l → (∀ x ∈ b, P x = true) → b.length ≤ N) →
    l.length ≤ l.countP (fun x => !P x) + (l.countP (fun x => !P x) + 1) * N
  | k, l, hk, h => by
    have h0 : l = l.takeWhile P ++ l.dropWhile P := List.takeWhile_append_dropWhile.symm
    have ht : (l.takeWhile P).length ≤ N :=
      h _ (List.takeWhile_prefix P).isInfix fun x hx => mem_takeWhile_prop hx
    have hc0 : (l.takeWhile P).countP (fun x => !P x) = 0 := by
      rw [List.countP_eq_zero]
      intro x hx
      simp [mem_takeWhile_prop hx]
    cases hd : l.dropWhile P with
    | nil =>
      rw [hd, List.append_nil] at h0
      rw [← h0] at ht hc0
      rw [hc0]
      omega
    | cons x rest =>
      have hx : P x = false := by
        have := List.head_dropWhile_not P (l := l) (by rw [hd]; simp)
        simpa [hd] using this
      rw [hd] at h0
      have hlen : l.length = (l.takeWhile P).length + (rest.length + 1) := by
        conv_lhs => rw [h0]
        simp
      have hcount : l.countP (fun x => !P x) = rest.countP (fun x => !P x) + 1 := by
        conv_lhs => rw [h0]
        rw [List.countP_append, hc0, List.countP_cons]
        simp [hx]
      cases k with
      | zero => omega
      | succ k =>
        have ih := blocks_length P N k rest (by omega) fun b hb => h b
          (hb.trans (by
            rw [h0]
            exact (List.suffix_cons x rest).isInfix.trans (List.suffix_append _ _).isInfix))
        rw [hlen, hcount]
        have e : (rest.countP (fun x => !P x) + 1 + 1) * N
            = (rest.countP (fun x => !P x) + 1) * N + N := by
          rw [Nat.add_mul (rest.countP (fun x => !P x) + 1) 1 N, Nat.one_mul]
        rw [e]
        omega

/-- `Free`, decided. -/
def isFree (g : TStore) (v : Nat) : Bool :=
  match g.at v with
  | .group t _ => t = []
  | .other => false

theorem isFree_iff {g : TStore} {v : Nat} : isFree g v = true ↔ Free g v := by
  unfold isFree Free
  cases g.at v with
  | other => simp
  | group t links => simp

theorem run_mem {g : TStore} {s : Str × Nat} {l : List (Str × Nat)} (h : Run g s l) :
    ∀ x ∈ l, ReflTransGen (Shows g) s x ∧ ∃ y, Shows g y x := by
  induction h with
  | nil => simp
  | cons hs _ ih =>
    intro x hx
    rcases List.mem_cons.1 hx with rfl | hx
    · exact ⟨.single hs, _, hs⟩
    · obtain ⟨h1, h2⟩ := ih x hx
      exact ⟨.head hs h1, h2⟩

theorem run_short {g : TStore} (hn : NamedLinks g) {s : Str × Nat}
    (hno : ∀ s', ReflTransGen (Shows g) s s' → ¬ FreeCycle g s'.2) {l : List (Str × Nat)}
    (h : Run g s l) : l.length ≤ g.length + (g.length + 1) * g.length := by
  have hchain : List.IsChain (Shows g) l := (run_isChain h).tail
  have hmem := run_mem h
  have hb := blocks_length (fun s : Str × Nat => isFree g s.2) g.length l.length l (Nat.le_refl _)
    fun b hb hP => free_chain (hchain.infix hb) (fun x hx => isFree_iff.1 (hP x hx))
      fun x hx => hno x (hmem x (hb.subset hx)).1
  have hk : l.countP (fun s => !isFree g s.2) ≤ g.length := by
    have htr : IsTrans (Str × Nat) (fun a b => a.1.length < b.1.length) :=
      ⟨fun _ _ _ h h' => Nat.lt_trans h h'⟩
    have hp : l.Pairwise (fun a b => a.1.length < b.1.length) :=
      List.isChain_iff_pairwise.1 (hchain.imp fun _ _ => shows_length hn)
    rw [List.countP_eq_length_filter]
    have h3 : ((l.filter fun s => !isFree g s.2).map (·.2)).Nodup := by
      rw [List.Nodup, List.pairwise_map]
      refine (hp.filter _).imp_of_mem fun {a b} ha hb' hab he => ?_
      obtain ⟨ha1, ha2⟩ := List.mem_filter.1 ha
      obtain ⟨hb1, hb2⟩ := List.mem_filter.1 hb'
      obtain ⟨_, _, _, _, _, t, la, _, _, _, hta, hta'⟩ := hmem a ha1
      obtain ⟨_, _, _, _, _, t', lb, _, _, _, htb, htb'⟩ := hmem b hb1
      have hfa : t ≠ [] := by
        rintro rfl
        rw [isFree_iff.2 ⟨la, hta⟩] at ha2
        cases ha2
      have hfb : t' ≠ [] := by
        rintro rfl
        rw [isFree_iff.2 ⟨lb, htb⟩] at hb2
        cases hb2
      rw [he, htb] at hta
      injection hta with hta _
      have := hta'.resolve_left hfa
      have := htb'.resolve_left hfb
      simp_all
    have h4 : (l.filter fun s => !isFree g s.2).map (·.2) ⊆ List.range g.length := by
      intro v hv
      obtain ⟨x, hx, rfl⟩ := List.mem_map.1 hv
      obtain ⟨_, _, _, _, _, t, la, _, _, _, hta, _⟩ := hmem x (List.mem_filter.1 hx).1
      exact List.mem_range.2 (at_lt hta)
    have := (List.subperm_of_subset h3 h4).length_le
    simpa using this
  have : (l.countP (fun s => !isFree g s.2) + 1) * g.length ≤ (g.length + 1) * g.length :=
    Nat.mul_le_mul_right _ (by omega)
  omega

/-! ## groups that contain themselves -/

theorem shows_of_freeLink {g : TStore} {v w : Nat} (h : FreeLink g v w) (p : Str) :
    ∃ p', Shows g (p, v) (p', w) := by
  obtain ⟨links, n, h1, h2, links', h3⟩ := h
  exact ⟨memberName p n, [], links, n, [], links', h1, h2, rfl, h3, .inl rfl⟩

theorem shows_of_freePath {g : TStore} {v w : Nat} (h : TransGen (FreeLink g) v w) (p : Str) :
    ∃ p', TransGen (Shows g) (p, v) (p', w) := by
  induction h with
  | single h =>
    obtain ⟨p', h'⟩ := shows_of_freeLink h p
    exact ⟨p', .single h'⟩
  | tail _ h ih =>
    obtain ⟨p', ih⟩ := ih
    obtain ⟨p'', h'⟩ := shows_of_freeLink h p'
    exact ⟨p'', .tail ih h'⟩

theorem run_of_reach {g : TStore} {s s' : Str × Nat} (h : ReflTransGen (Shows g) s s')
    {r : List (Str × Nat)} (hr : Run g s' r) : ∃ r', Run g s r' ∧ r.length ≤ r'.length := by
  induction h using ReflTransGen.head_induction_on with
  | refl => exact ⟨r, hr, Nat.le_refl _⟩
  | head hs _ ih =>
    obtain ⟨r', h1, h2⟩ := ih
    exact ⟨_ :: r', .cons hs h1, by simp; omega⟩

theorem long_runs {g : TStore} {v : Nat} (h : FreeCycle g v) : ∀ (k : Nat) (p : Str),
    ∃ r, Run g (p, v) r ∧ k ≤ r.length
  | 0, p => ⟨[], .nil, Nat.zero_le _⟩
  | k + 1, p => by
    obtain ⟨p', hp⟩ := shows_of_freePath h p
    obtain ⟨r, h1, h2⟩ := long_runs h k p'
    obtain ⟨s, h3, h4⟩ := TransGen.head'_iff.1 hp
    obtain ⟨r', h5, h6⟩ := run_of_reach h4 h1
    exact ⟨s :: r', .cons h3 h5, by simp; omega⟩

/-- **C92.** The report of a file can be finished, whatever the recursion limit has to be, if and
only if no group that is shown contains itself by way of groups without `target`. -/
theorem tree_finishes_iff {g : TStore} (hn : NamedLinks g) {p : Str} {v : Nat} :
    (∃ n l, treeWalk g n p v = .ok l) ↔
      ∀ s, ReflTransGen (Shows g) (p, v) s → ¬ FreeCycle g s.2 := by
  constructor
  · rintro ⟨n, l, h⟩ s hs hc
    obtain ⟨r, h1, h2⟩ := long_runs hc n s.1
    obtain ⟨r', h3, h4⟩ := run_of_reach hs h1
    have := (treeWalk_ok h).2 r' h3
    omega
  · intro h
    exact ⟨_, treeWalk_succeeds fun r hr => run_short hn h hr⟩

/-- **C92.** The limit that is sufficient depends on the number of objects only. -/
theorem tree_limit {g : TStore} (hn : NamedLinks g) {p : Str} {v : Nat}
    (h : ∀ s, ReflTransGen (Shows g) (p, v) s → ¬ FreeCycle g s.2) :
    ∃ l, treeWalk g ((g.length + 1) * (g.length + 1)) p v = .ok l := by
  have := treeWalk_succeeds (n := g.length + (g.length + 1) * g.length)
    fun r hr => run_short hn h hr
  have e : (g.length + 1) * (g.length + 1) = g.length + (g.length + 1) * g.length + 1 := by
    rw [Nat.mul_add]; omega
  rw [e]
  exact this

/-- A group that contains itself through a link with the `target` of its first place: shown
once, and the report is finished. -/
def targetedLoop : TStore :=
  [.group [] [(s%"a", some 1)], .group s%"/a" [(s%"up", some 1), (s%"root", none)]]

/-- The same without `target`. -/
def freeLoop : TStore := [.group [] [(s%"a", some 1)], .group [] [(s%"up", some 1)]]

example : treeWalk targetedLoop 3 s%"/" 0 = .ok [s%"/", s%"/a"] := by decide +kernel
example : NamedLinks targetedLoop := by
  intro v t links h l hl
  match v, h with
  | 0, h => cases h; simp at hl; subst hl; simp
  | 1, h => cases h; simp at hl; rcases hl with rfl | rfl <;> simp
  | v + 2, h => cases h

/-- **C92.** A group that contains itself and has no `target`: no limit is sufficient. -/
theorem freeLoop_never (n : Nat) : treeWalk freeLoop n s%"/" 0 = .error .recursionError := by
  have hn : NamedLinks freeLoop := by
    intro v t links h l hl
    match v, h with
    | 0, h => cases h; simp at hl; subst hl; simp
    | 1, h => cases h; simp at hl; subst hl; simp
    | v + 2, h => cases h
  cases h : treeWalk freeLoop n s%"/" 0 with
  | error e => rw [treeWalk_error h]
  | ok l =>
    refine absurd ?_ ((tree_finishes_iff hn).1 ⟨n, l, h⟩ (s%"/a", 1) (.single
      ⟨[], [(s%"a", some 1)], s%"a", [], [(s%"up", some 1)], rfl, by simp, by decide, rfl, .inl rfl⟩))
    exact .single ⟨[(s%"up", some 1)], s%"up", rfl, by simp, _, rfl⟩

end Punx

import Verif.Props.Json3

/-!
# C128: more text after what was read changes nothing
-/

namespace Punx
open Spec
namespace JVal

theorem scan_more {s : Str} {ps : List Piece} {r : Str} (h : scan s = some (ps, r)) (t : Str) :
    scan (s ++ t) = some (ps, r ++ t) := by
  induction s using scan.induct generalizing ps r with
  | case1 => rw [scan.eq_def] at h; simp at h
  | case2 x =>
    rw [scan_quote] at h
    simp only [Option.some.injEq, Prod.mk.injEq] at h
    rw [List.cons_append, scan_quote, h.1, h.2]
  | case3 => rw [scan.eq_def] at h; simp at h
  | case4 a b c d s n ps' r' hs hn _ ih =>
    rw [scan_code a b c d n hn, hs] at h
    simp only [Option.map_some, Option.some.injEq, Prod.mk.injEq] at h
    simp only [List.cons_append]
    rw [scan_code a b c d n hn, ih hs, ← h.1, ← h.2]; rfl
  | case5 a b c d s hno _ ih =>
    exfalso
    rw [scan.eq_def] at h
    simp only [Char.reduceEq, if_true, if_false] at h
    simp at h
  | case6 s hno _ =>
    exfalso
    rw [scan.eq_def] at h
    simp only [Char.reduceEq, if_true, if_false] at h
    simp at h
  | case7 e s he x ps' r' hs hx _ ih =>
    rw [scan_short e x he hx, hs] at h
    simp only [Option.map_some, Option.some.injEq, Prod.mk.injEq] at h
    simp only [List.cons_append]
    rw [scan_short e x he hx, ih hs, ← h.1, ← h.2]; rfl
  | case8 e s he hno _ ih =>
    exfalso
    rw [scan.eq_def] at h
    simp only [Char.reduceEq, if_true, if_false, he] at h
    simp at h
  | case9 c s h1 h2 h3 => rw [scan.eq_def] at h; simp [h1, h2, h3] at h
  | case10 c s h1 h2 h3 ps' r' hs ih =>
    rw [scan_plain c h1 h2 h3, hs] at h
    simp only [Option.map_some, Option.some.injEq, Prod.mk.injEq] at h
    rw [List.cons_append, scan_plain c h1 h2 h3, ih hs, ← h.1, ← h.2]; rfl
  | case11 c s h1 h2 h3 hs ih => rw [scan_plain c h1 h2 h3, hs] at h; simp at h

theorem readText_more {s k r : Str} (h : readText s = some (k, r)) (t : Str) :
    readText (s ++ t) = some (k, r ++ t) := by
  rw [readText] at h
  split at h
  · rename_i ps r' hs
    rw [readText, scan_more hs]
    simp only
    cases ha : assemble ps with
    | none => rw [ha] at h; simp at h
    | some x =>
      rw [ha] at h
      simp only [Option.map_some, Option.some.injEq, Prod.mk.injEq] at h ⊢
      rw [h.1, h.2]; exact ⟨rfl, rfl⟩
  · simp at h

theorem skip_more {s : Str} {c : Char} {r : Str} (h : skip s = c :: r) (t : Str) :
    skip (s ++ t) = c :: (r ++ t) := by
  induction s with
  | nil => simp [skip] at h
  | cons x s ih =>
    by_cases hx : isSpace x = true
    · rw [skip_space x hx] at h
      rw [List.cons_append, skip_space x hx, ih h]
    · rw [skip_solid x (by simpa using hx)] at h
      rw [List.cons_append, skip_solid x (by simpa using hx)]
      simp only [List.cons.injEq] at h
      rw [h.1, h.2]

/-- Where a value ended for sure. -/
def Ended (r : Str) : Prop := Follows r ∧ r ≠ []

theorem Ended.more {r : Str} (h : Ended r) (t : Str) : Follows (r ++ t) := by
  obtain ⟨h1, h2⟩ := h
  cases r with
  | nil => exact absurd rfl h2
  | cons c r => intro x hx; exact h1 x hx

theorem ended_skip {s : Str} {c : Char} {r : Str} (h : skip s = c :: r)
    (hc : c = ',' ∨ c = ']' ∨ c = '}') : Ended s := by
  cases s with
  | nil => simp [skip] at h
  | cons x s =>
    refine ⟨?_, by simp⟩
    intro y hy
    simp only [List.head?_cons, Option.mem_def, Option.some.injEq] at hy
    subst hy
    by_cases hx : isSpace x = true
    · simp only [isSpace, Bool.or_eq_true, decide_eq_true_eq] at hx
      rcases hx with ((rfl | rfl) | rfl) | rfl <;> decide
    · rw [skip_solid x (by simpa using hx)] at h
      simp only [List.cons.injEq] at h
      rw [h.1]
      rcases hc with rfl | rfl | rfl <;> decide

theorem digitsOf_split (s : Str) : s = (digitsOf s).1 ++ (digitsOf s).2 := by
  unfold digitsOf
  split
  · rfl
  · exact (List.takeWhile_append_dropWhile).symm

theorem digitsOf_more {s : Str} (h : Ended (digitsOf s).2) (t : Str) :
    digitsOf (s ++ t) = ((digitsOf s).1, (digitsOf s).2 ++ t) := by
  by_cases h0 : s.head? = some '0'
  · cases s with
    | nil => simp at h0
    | cons c s =>
      simp only [List.head?_cons, Option.some.injEq] at h0
      subst h0; rfl
  · have hs : s ≠ [] := by
      rintro rfl
      exact h.2 rfl
    have h1 : (s ++ t).head? ≠ some '0' := by
      cases s with
      | nil => exact absurd rfl hs
      | cons c s => exact h0
    rw [digitsOf_other s h0] at h ⊢
    rw [digitsOf_other _ h1]
    have hd : ∀ c ∈ s.takeWhile isDec, isDec c = true := fun c hc => List.mem_takeWhile_imp hc
    have := span_follows hd (h.more t)
    rw [← List.append_assoc, List.takeWhile_append_dropWhile] at this
    rw [this.1, this.2]

theorem readNat_more {s r : Str} {n : Nat} (h : readNat s = some (n, r)) (hr : Ended r) (t : Str) :
    readNat (s ++ t) = some (n, r ++ t) := by
  rw [readNat] at h
  split_ifs at h with h1
  simp only [Option.some.injEq, Prod.mk.injEq] at h
  rw [← h.2] at hr
  rw [readNat, digitsOf_more hr, if_neg, h.1, h.2]
  rw [not_or] at h1 ⊢
  exact ⟨h1.1, by simp [isReal_follows (hr.more t)]⟩

theorem readInt_more {s r : Str} {v : JVal} (h : readInt s = some (v, r)) (hr : Ended r) (t : Str) :
    readInt (s ++ t) = some (v, r ++ t) := by
  by_cases h0 : s.head? = some '-'
  · cases s with
    | nil => simp at h0
    | cons c s =>
      simp only [List.head?_cons, Option.some.injEq] at h0
      subst h0
      rw [readInt] at h
      rw [List.cons_append, readInt]
      cases hn : readNat s with
      | none => rw [hn] at h; simp at h
      | some x =>
        rw [hn] at h
        simp only [Option.map_some, Option.some.injEq, Prod.mk.injEq] at h
        rw [readNat_more (n := x.1) (r := r) (by rw [hn, ← h.2]) hr]
        simp [← h.1]
  · rw [readInt_nat s h0] at h
    cases hn : readNat s with
    | none => rw [hn] at h; simp at h
    | some x =>
      rw [hn] at h
      simp only [Option.map_some, Option.some.injEq, Prod.mk.injEq] at h
      have hs : s ≠ [] := by
        rintro rfl
        simp [readNat, digitsOf] at hn
      have h1 : (s ++ t).head? ≠ some '-' := by
        cases s with
        | nil => exact absurd rfl hs
        | cons c s => exact h0
      rw [readInt_nat _ h1, readNat_more (n := x.1) (r := r) (by rw [hn, ← h.2]) hr]
      simp [← h.1]

/-- A number starts with a sign or a digit. -/
theorem readInt_head {s : Str} {x : JVal × Str} (h : readInt s = some x) :
    (∃ c t, s = c :: t ∧ NumHead c) ∧ ∃ n, x.1 = .int n := by
  by_cases h0 : s.head? = some '-'
  · cases s with
    | nil => simp at h0
    | cons c s =>
      simp only [List.head?_cons, Option.some.injEq] at h0
      subst h0
      rw [readInt] at h
      cases hn : readNat s with
      | none => rw [hn] at h; simp at h
      | some y =>
        rw [hn] at h
        simp only [Option.map_some, Option.some.injEq] at h
        exact ⟨⟨_, _, rfl, .inl rfl⟩, _, by rw [← h]⟩
  · rw [readInt_nat s h0] at h
    cases hn : readNat s with
    | none => rw [hn] at h; simp at h
    | some y =>
      rw [hn] at h
      simp only [Option.map_some, Option.some.injEq] at h
      refine ⟨?_, _, by rw [← h]⟩
      rw [readNat] at hn
      split_ifs at hn with h1
      rw [not_or] at h1
      cases s with
      | nil => exact absurd rfl h1.1
      | cons c s =>
        refine ⟨c, s, rfl, .inr ?_⟩
        by_cases hc : c = '0'
        · subst hc; decide
        · by_contra hd
          apply h1.1
          rw [digitsOf_other _ (by simpa using hc)]
          simp [hd]

theorem value_nil (n : Nat) : value n [] = none := by
  cases n with
  | zero => rw [value]
  | succ n => rw [value.eq_def]; rfl

theorem items_nil (n : Nat) : items n [] = none := by
  cases n with
  | zero => rw [items]
  | succ n => rw [items, value_nil]

/-- More text after a value that has ended for sure changes nothing, and neither does more fuel. -/
theorem more (n : Nat) :
    (∀ s v r, value n s = some (v, r) → ((∃ i, v = .int i) → Ended r) →
      ∀ m, n ≤ m → ∀ t, value m (s ++ t) = some (v, r ++ t)) ∧
    (∀ s l r, items n s = some (l, r) → ∀ m, n ≤ m → ∀ t, items m (s ++ t) = some (l, r ++ t)) ∧
    (∀ s d r, pairs n s = some (d, r) → ∀ m, n ≤ m → ∀ t, pairs m (s ++ t) = some (d, r ++ t)) := by
  induction n with
  | zero =>
    refine ⟨?_, ?_, ?_⟩
    · intro s v r h; rw [value] at h; simp at h
    · intro s v r h; rw [items] at h; simp at h
    · intro s v r h; rw [pairs] at h; simp at h
  | succ n ih =>
    obtain ⟨ihv, ihi, ihp⟩ := ih
    refine ⟨?_, ?_, ?_⟩
    · intro s v r h hr m hm t
      obtain ⟨m, rfl⟩ : ∃ k, m = k + 1 := ⟨m - 1, by omega⟩
      rw [value.eq_def] at h
      simp only at h
      split at h
      · rename_i s
        cases hs : readText s with
        | none => rw [hs] at h; simp at h
        | some x =>
          rw [hs] at h
          simp only [Option.map_some, Option.some.injEq, Prod.mk.injEq] at h
          rw [List.cons_append, value, readText_more (k := x.1) (r := x.2) hs, ← h.1, ← h.2]; rfl
      · rename_i s
        split at h
        · rename_i s' hs
          simp only [Option.some.injEq, Prod.mk.injEq] at h
          rw [List.cons_append, value, skip_more hs, ← h.1, ← h.2]; rfl
        · rename_i s' hs
          cases hp : pairs n s' with
          | none => rw [hp] at h; simp at h
          | some x =>
            rw [hp] at h
            simp only [Option.map_some, Option.some.injEq, Prod.mk.injEq] at h
            rw [List.cons_append, value_obj m _ _ (skip_more hs t),
              ihp s' x.1 x.2 hp m (by omega) t, ← h.1, ← h.2]; rfl
        · simp at h
      · rename_i s
        split at h
        · rename_i s' hs
          simp only [Option.some.injEq, Prod.mk.injEq] at h
          rw [List.cons_append, value, skip_more hs, ← h.1, ← h.2]; rfl
        · rename_i hs
          cases hp : items n (skip s) with
          | none => rw [hp] at h; simp at h
          | some x =>
            rw [hp] at h
            simp only [Option.map_some, Option.some.injEq, Prod.mk.injEq] at h
            cases hk : skip s with
            | nil =>
              rw [hk, items_nil] at hp; simp at hp
            | cons c u =>
              rw [List.cons_append, value_arr m _ c _ (skip_more hk t) ?_]
              · rw [hk] at hp
                have := ihi _ x.1 x.2 hp m (by omega) t
                rw [List.cons_append] at this
                rw [this, ← h.1, ← h.2]; rfl
              · rintro rfl; exact hs u hk
      · simp only [Option.some.injEq, Prod.mk.injEq] at h
        rw [← h.1, ← h.2]; rfl
      · simp only [Option.some.injEq, Prod.mk.injEq] at h
        rw [← h.1, ← h.2]; rfl
      · simp only [Option.some.injEq, Prod.mk.injEq] at h
        rw [← h.1, ← h.2]; rfl
      · obtain ⟨⟨c, u, rfl, hc⟩, i, hi⟩ := readInt_head h
        have := readInt_more h (hr ⟨i, hi⟩) t
        rw [List.cons_append] at this ⊢
        rw [value_num m hc, this]
    · intro s l r h m hm t
      obtain ⟨m, rfl⟩ : ∃ k, m = k + 1 := ⟨m - 1, by omega⟩
      rw [items] at h
      split at h
      · simp at h
      · rename_i v r' hv
        split at h
        · rename_i r'' hs
          simp only [Option.some.injEq, Prod.mk.injEq] at h
          rw [items_last m (ihv s v r' hv (fun _ => ended_skip hs (by simp)) m (by omega) t)
            (skip_more hs t), ← h.1, ← h.2]
        · rename_i r'' hs
          rw [items_more m (ihv s v r' hv (fun _ => ended_skip hs (by simp)) m (by omega) t)
            (skip_more hs t)]
          cases hp : items n (skip r'') with
          | none => rw [hp] at h; simp at h
          | some x =>
            rw [hp] at h
            simp only [Option.map_some, Option.some.injEq, Prod.mk.injEq] at h
            cases hk : skip r'' with
            | nil =>
              rw [hk, items_nil] at hp; simp at hp
            | cons c u =>
              rw [hk] at hp
              have := ihi _ x.1 x.2 hp m (by omega) t
              rw [List.cons_append] at this
              rw [skip_more hk t, this, ← h.1, ← h.2]; rfl
        · simp at h
    · intro s l r h m hm t
      obtain ⟨m, rfl⟩ : ∃ k, m = k + 1 := ⟨m - 1, by omega⟩
      rw [pairs] at h
      split at h
      · simp at h
      · rename_i k r1 hk
        split at h
        · rename_i r2 hc
          split at h
          · simp at h
          · rename_i v r3 hv
            have hv' : Ended r3 → value m (skip (r2 ++ t)) = some (v, r3 ++ t) := by
              intro he
              cases hk : skip r2 with
              | nil =>
                rw [hk, value_nil] at hv; simp at hv
              | cons c u =>
                rw [hk] at hv
                have := ihv _ v r3 hv (fun _ => he) m (by omega) t
                rw [List.cons_append] at this
                rw [skip_more hk t, this]
            split at h
            · rename_i r4 hs
              simp only [Option.some.injEq, Prod.mk.injEq] at h
              rw [pairs_last m (readText_more hk t) (skip_more hc t)
                (hv' (ended_skip hs (by simp))) (skip_more hs t), ← h.1, ← h.2]
            · rename_i r4 hs
              split at h
              · rename_i r5 hq
                cases hp : pairs n r5 with
                | none => rw [hp] at h; simp at h
                | some x =>
                  rw [hp] at h
                  simp only [Option.map_some, Option.some.injEq, Prod.mk.injEq] at h
                  rw [pairs_more m (readText_more hk t) (skip_more hc t)
                    (hv' (ended_skip hs (by simp))) (skip_more hs t) (skip_more hq t),
                    ihp _ x.1 x.2 hp m (by omega) t, ← h.1, ← h.2]; rfl
              · simp at h
            · simp at h
        · simp at h

/-- The first character of a text, a list or an object. -/
def Opening (c : Char) : Prop := c = '"' ∨ c = '[' ∨ c = '{'

theorem dump_opening {v : JVal} (hb : Bracketed v) (l : Nat) : ∃ c t, dump l v = c :: t ∧ Opening c := by
  match v with
  | .null | .bool _ | .int _ => exact absurd hb (by simp [Bracketed])
  | .str s => exact ⟨'"', s.flatMap escape ++ ['"'], by rw [dump, quote]; rfl, .inl rfl⟩
  | .arr l' =>
    rw [dump]
    cases dumpItems (l + 1) l' with
    | nil => exact ⟨'[', [']'], rfl, .inr (.inl rfl)⟩
    | cons t ts => exact ⟨'[', _, rfl, .inr (.inl rfl)⟩
  | .obj d =>
    rw [dump]
    cases dumpPairs (l + 1) d with
    | nil => exact ⟨'{', ['}'], rfl, .inr (.inr rfl)⟩
    | cons t ts => exact ⟨'{', _, rfl, .inr (.inr rfl)⟩

theorem opening_no_int {n : Nat} {c : Char} (hc : Opening c) {s : Str} {i : Int} {r : Str} :
    value n (c :: s) ≠ some (.int i, r) := by
  intro h
  cases n with
  | zero => rw [value] at h; simp at h
  | succ n =>
    rcases hc with rfl | rfl | rfl
    · rw [value] at h
      cases hs : readText s <;> rw [hs] at h <;> simp at h
    · rw [value] at h
      split at h
      · simp at h
      · cases hs : items n (skip s) <;> rw [hs] at h <;> simp at h
    · rw [value] at h
      split at h
      · simp at h
      · rename_i s' _
        cases hs : pairs n s' <;> rw [hs] at h <;> simp at h
      · simp at h

/-- What could be read of the start of a text ends where the whole text ends. -/
theorem no_part {v : JVal} (hk : Keyed v) (hb : Bracketed v) {p t : Str} (h : v.dumps = p ++ t)
    (ht : t ≠ []) (n : Nat) : value n p = none := by
  cases hv : value n p with
  | none => rfl
  | some x =>
    exfalso
    have hw := weight_dump v 0
    have h1 := value_dump v hk 0 (max n (v.dumps.length + 1)) [] (by unfold dumps; omega) follows_nil
    rw [List.append_nil, ← dumps, h] at h1
    have hi : ¬ ∃ i, x.1 = .int i := by
      rintro ⟨i, hi⟩
      cases p with
      | nil => rw [value_nil] at hv; simp at hv
      | cons c p =>
        obtain ⟨c', u, h1, h2⟩ := dump_opening hb 0
        rw [dumps, h1] at h
        simp only [List.cons_append, List.cons.injEq] at h
        rw [h.1] at h2
        exact opening_no_int h2 (hv.trans (by rw [← hi]))
    have h2 := (more n).1 p x.1 x.2 hv (fun h => absurd h hi) _ (le_max_left n (v.dumps.length + 1)) t
    rw [h] at h2
    rw [h2] at h1
    simp only [Option.some.injEq, Prod.mk.injEq, List.append_eq_nil_iff] at h1
    exact ht h1.2.2

end JVal

/-- **C128.** A text of which only a part was written cannot be read. -/
theorem json_part_refused {v : JVal} (hk : Keyed v) (hb : Bracketed v) {p : Str}
    (hp : p <+: v.dumps) (hne : p ≠ v.dumps) : JVal.loads p = .error .valueError := by
  obtain ⟨t, ht⟩ := hp
  have h0 : t ≠ [] := by rintro rfl; exact hne (by simpa using ht)
  have hs : JVal.skip p = p ∨ p = [] := by
    cases p with
    | nil => exact .inr rfl
    | cons c p =>
      obtain ⟨c', u, h1, h2, -⟩ := JVal.dump_head 0 v
      rw [JVal.dumps, h1] at ht
      simp only [List.cons_append, List.cons.injEq] at ht
      rw [JVal.skip_solid c (by rw [ht.1, h2])]; exact .inl rfl
  rw [JVal.loads]
  rcases hs with hs | rfl
  · rw [hs, JVal.no_part hk hb ht.symm h0]
  · rfl

end Punx

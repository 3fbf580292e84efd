import Verif.Props.Extract

/-!
# The order of the dates in the info files (C69)

The file sets are sorted by the text of their date.
-/

namespace Punx

open Spec

theorem strLe_append {a b s t : Str} (h : a.length = b.length) :
    strLe (a ++ s) (b ++ t) = if a = b then strLe s t else strLe a b := by
  induction a generalizing b with
  | nil =>
    cases b with
    | nil => simp
    | cons _ _ => simp at h
  | cons x a ih =>
    cases b with
    | nil => simp at h
    | cons y b =>
      simp only [List.length_cons, Nat.add_right_cancel_iff] at h
      by_cases hxy : x = y
      · subst hxy
        simp [strLe, ih h]
      · simp [strLe, hxy]

theorem digitChar_le {i j : Nat} (hi : i < 10) (hj : j < 10) :
    strLe [Nat.digitChar i] [Nat.digitChar j] = decide (i ≤ j) ∧
      (Nat.digitChar i = Nat.digitChar j ↔ i = j) := by
  have key : ∀ i < 10, ∀ j < 10, strLe [Nat.digitChar i] [Nat.digitChar j] = decide (i ≤ j) ∧
      (Nat.digitChar i = Nat.digitChar j ↔ i = j) := by decide
  exact key i hi j hj

theorem padded_length {w n : Nat} (hw : 0 < w) (h : n < 10 ^ w) : (padded w n).length = w := by
  have : (natStr n).length ≤ w := (Nat.length_toDigits_le_iff (by decide) hw).2 h
  simp only [padded, List.length_append, List.length_replicate]
  omega

theorem padded_succ {w n : Nat} (hw : 0 < w) (h : n < 10 ^ (w + 1)) :
    padded (w + 1) n = padded w (n / 10) ++ [Nat.digitChar (n % 10)] := by
  unfold padded natStr
  by_cases hn : n < 10
  · rw [Nat.toDigits_of_lt_base hn, Nat.div_eq_of_lt hn, Nat.toDigits_zero, Nat.mod_eq_of_lt hn]
    simp only [List.length_cons, List.length_nil, Nat.zero_add, Nat.add_sub_cancel]
    obtain ⟨w', rfl⟩ := Nat.exists_eq_succ_of_ne_zero (Nat.ne_of_gt hw)
    simp [List.replicate_succ']
  · rw [Nat.toDigits_of_base_le (by decide) (by omega)]
    simp only [List.length_append, List.length_cons, List.length_nil, Nat.zero_add]
    have : w + 1 - ((Nat.toDigits 10 (n / 10)).length + 1) = w - (Nat.toDigits 10 (n / 10)).length := by
      omega
    rw [this, List.append_assoc]

theorem padded_order {w n m : Nat} (hw : 0 < w) (hn : n < 10 ^ w) (hm : m < 10 ^ w) :
    strLe (padded w n) (padded w m) = decide (n ≤ m) ∧ (padded w n = padded w m ↔ n = m) := by
  induction w generalizing n m with
  | zero => omega
  | succ w ih =>
    by_cases h0 : w = 0
    · subst h0
      simp only [Nat.zero_add, Nat.pow_one] at hn hm
      have e : ∀ k, k < 10 → padded 1 k = [Nat.digitChar k] := by decide
      rw [Nat.zero_add, e n hn, e m hm]
      have := digitChar_le hn hm
      exact ⟨this.1, by simpa using this.2⟩
    · have hw' : 0 < w := Nat.pos_of_ne_zero h0
      have hn' : n / 10 < 10 ^ w := by rw [Nat.pow_succ] at hn; omega
      have hm' : m / 10 < 10 ^ w := by rw [Nat.pow_succ] at hm; omega
      obtain ⟨i1, i2⟩ := ih hw' hn' hm'
      have hl : (padded w (n / 10)).length = (padded w (m / 10)).length := by
        rw [padded_length hw' hn', padded_length hw' hm']
      obtain ⟨j1, j2⟩ := digitChar_le (Nat.mod_lt n (by decide : 10 > 0))
        (Nat.mod_lt m (by decide : 10 > 0))
      rw [padded_succ hw' hn, padded_succ hw' hm]
      constructor
      · rw [strLe_append hl, j1, i1]
        by_cases he : n / 10 = m / 10
        · rw [if_pos (i2.2 he)]
          simp only [decide_eq_decide]
          omega
        · rw [if_neg (fun c => he (i2.1 c))]
          simp only [decide_eq_decide]
          omega
      · constructor
        · intro h
          obtain ⟨h1, h2⟩ := List.append_inj h hl
          have := i2.1 h1
          have h3 := j2.1 (by simpa using h2)
          omega
        · rintro rfl; rfl

/-- One part of a date, followed by a separator. -/
theorem strLe_part {w n m : Nat} (hw : 0 < w) (hn : n < 10 ^ w) (hm : m < 10 ^ w) (c : Char)
    (s t : Str) :
    strLe (padded w n ++ c :: s) (padded w m ++ c :: t) =
      if n < m then true else if m < n then false else strLe s t := by
  rw [strLe_append (by rw [padded_length hw hn, padded_length hw hm])]
  obtain ⟨h1, h2⟩ := padded_order hw hn hm
  by_cases he : n = m
  · rw [if_pos (h2.2 he)]
    simp [strLe, he]
  · rw [if_neg (fun c => he (h2.1 c)), h1]
    by_cases hlt : n < m
    · simp [hlt]; omega
    · have : m < n := by omega
      simp [hlt, this]

theorem daysIn_le (y m : Nat) : daysIn y m ≤ 31 := by
  unfold daysIn
  repeat' split
  all_goals omega

/-- **C69**: for dates that exist, the order of the texts is the order in time: sorting the texts of
the info files sorts the file sets by time. -/
theorem iso_order {a b : Date} (ha : a.valid = true) (hb : b.valid = true) :
    strLe a.iso b.iso = true ↔ NotBefore b a := by
  unfold Date.valid at ha hb
  rw [decide_eq_true_iff] at ha hb
  obtain ⟨_, a1, _, a2, _, a3, a4, a5, a6⟩ := ha
  obtain ⟨_, b1, _, b2, _, b3, b4, b5, b6⟩ := hb
  have da := daysIn_le a.year a.month
  have db := daysIn_le b.year b.month
  unfold NotBefore Date.iso
  simp only [List.append_assoc, List.cons_append]
  rw [strLe_part (by decide) (by omega) (by omega), strLe_part (by decide) (by omega) (by omega),
    strLe_part (by decide) (by omega) (by omega), strLe_part (by decide) (by omega) (by omega),
    strLe_part (by decide) (by omega) (by omega),
    (padded_order (w := 2) (by decide) (by omega) (by omega)).1]
  simp only [Date.toList, natsLe]
  have : decide (a.second ≤ b.second) =
      if a.second < b.second then true else if b.second < a.second then false else true := by
    rcases Nat.lt_trichotomy a.second b.second with h | h | h
    · simp [h]; omega
    · simp [h]
    · have h' : ¬ a.second < b.second := by omega
      simp [h, h']
  rw [this]

/-- **C69**: different dates have different texts. -/
theorem iso_injective {a b : Date} (ha : a.valid = true) (hb : b.valid = true)
    (h : a.iso = b.iso) : a = b := by
  have h1 := (iso_order ha hb).1 (by rw [h]; exact strLe_refl _)
  have h2 := (iso_order hb ha).1 (by rw [h]; exact strLe_refl _)
  unfold NotBefore at h1 h2
  obtain ⟨a1, a2, a3, a4, a5, a6⟩ := a
  obtain ⟨b1, b2, b3, b4, b5, b6⟩ := b
  simp only [Date.toList, natsLe] at h1 h2
  have step : ∀ {x y : Nat} {p q : Bool}, (if x < y then true else if y < x then false else p) = true →
      (if y < x then true else if x < y then false else q) = true → x = y ∧ p = true ∧ q = true := by
    intro x y p q k1 k2
    rcases Nat.lt_trichotomy x y with h | h | h
    · have : ¬ y < x := by omega
      simp [h, this] at k2
    · subst h
      simp only [Nat.lt_irrefl, if_false] at k1 k2
      exact ⟨rfl, k1, k2⟩
    · have : ¬ x < y := by omega
      simp [h, this] at k1
  obtain ⟨rfl, h1, h2⟩ := step h1 h2
  obtain ⟨rfl, h1, h2⟩ := step h1 h2
  obtain ⟨rfl, h1, h2⟩ := step h1 h2
  obtain ⟨rfl, h1, h2⟩ := step h1 h2
  obtain ⟨rfl, h1, h2⟩ := step h1 h2
  obtain ⟨rfl, _, _⟩ := step h1 h2
  rfl

example : (Date.iso ⟨2018, 5, 15, 8, 24, 34⟩) = s%"2018-05-15 08:24:34" := rfl
example : (Date.valid ⟨2018, 5, 15, 8, 24, 34⟩) = true ∧ Date.valid ⟨2020, 2, 30, 0, 0, 0⟩ = false := by
  decide

end Punx

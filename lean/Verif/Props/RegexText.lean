import Verif.Spec.RegexText
import Verif.Model.RegexText

/-!
# C111: the text of a name pattern is read as the pattern that is written there
-/

namespace Punx
open Spec

theorem isSpecial_iff {c : Char} : isSpecial c = true ↔ Special c := by
  simp [isSpecial, Special]

theorem isPlain_iff {c : Char} : isPlain c = true ↔ PlainInSet c := by
  simp [isPlain, PlainInSet]

theorem seqAll_eq (rs : List Re) : seqAll rs = inOrder rs := by
  induction rs with
  | nil => rfl
  | cons r rs ih => cases rs with
    | nil => rfl
    | cons r' rs => simp only [seqAll, inOrder, ih]

theorem altAll_eq (rs : List Re) : altAll rs = oneOf rs := by
  induction rs with
  | nil => rfl
  | cons r rs ih => cases rs with
    | nil => rfl
    | cons r' rs => simp only [altAll, oneOf, ih]

/-! ## sets -/

theorem readSet_sound (t : Str) : ∀ {is : List ClsItem} {u : Str}, readSet t = some (is, u) →
    ∃ s, t = s ++ ']' :: u ∧ SetText s is := by
  fun_induction readSet t with
  | case1 => intro is u h; cases h
  | case2 t => intro is u h; cases h; exact ⟨[], rfl, .nil⟩
  | case3 t ih =>
    intro is u h
    obtain ⟨p, hp, h⟩ := Option.map_eq_some_iff.1 h
    cases h
    obtain ⟨s, rfl, hs⟩ := ih hp
    exact ⟨_, rfl, .word hs⟩
  | case4 a b t _ hc ih =>
    intro is u h
    obtain ⟨p, hp, h⟩ := Option.map_eq_some_iff.1 h
    cases h
    obtain ⟨s, rfl, hs⟩ := ih hp
    simp only [Bool.and_eq_true, decide_eq_true_eq] at hc
    exact ⟨_, rfl, .range (isPlain_iff.1 hc.1.1) (isPlain_iff.1 hc.1.2) hc.2 hs⟩
  | case5 => intro is u h; cases h
  | case6 a t _ _ _ hc ih =>
    intro is u h
    obtain ⟨p, hp, h⟩ := Option.map_eq_some_iff.1 h
    cases h
    obtain ⟨s, rfl, hs⟩ := ih hp
    exact ⟨_, rfl, .char (isPlain_iff.1 hc) hs⟩
  | case7 => intro is u h; cases h

theorem SetText_head {s : Str} {is : List ClsItem} (h : SetText s is) (t : Str) :
    s ≠ '-' :: t := by
  rintro rfl
  cases h with
  | range h => exact h (by simp)
  | char h => exact h (by simp)

theorem readSet_complete {s : Str} {is : List ClsItem} (h : SetText s is) (u : Str) :
    readSet (s ++ ']' :: u) = some (is, u) := by
  induction h with
  | nil => rfl
  | word _ ih => simp [readSet, ih]
  | @range a b t is ha hb hab _ ih =>
    have h1 : a ≠ ']' := by rintro rfl; exact ha (by simp)
    rw [List.cons_append, List.cons_append, List.cons_append, readSet]
    · rw [isPlain_iff.2 ha, isPlain_iff.2 hb, ih]
      simp [hab]
    · exact h1
  | @char a t is ha ht ih =>
    have h1 : a ≠ ']' := by rintro rfl; exact ha (by simp)
    have h2 : a ≠ '\\' := by rintro rfl; exact ha (by simp)
    have h3 := SetText_head ht
    rw [List.cons_append, readSet]
    · rw [isPlain_iff.2 ha, ih]
      simp
    · exact h1
    · intro _ e; exact absurd e h2
    · intro b t' e
      cases t with
      | nil => cases e
      | cons c t =>
        rw [List.cons_append, List.cons.injEq] at e
        exact h3 t (by rw [e.1])

/-! ## reading gives what is written -/

theorem read_sound (n : Nat) :
    (∀ {t r u}, readAtom n t = some (r, u) → ∃ s, t = s ++ u ∧ AtomText s r) ∧
    (∀ {t rs u}, readSeq n t = some (rs, u) → ∃ s, t = s ++ u ∧ SeqText s rs ∧
      (u = [] ∨ ∃ v, u = '|' :: v ∨ u = ')' :: v)) ∧
    (∀ {t bs u}, readChoice n t = some (bs, u) → ∃ s, t = s ++ u ∧ ChoiceText s bs ∧
      (u = [] ∨ ∃ v, u = ')' :: v)) := by
  induction n with
  | zero =>
    refine ⟨?_, ?_, ?_⟩
    · intro t r u h; simp [readAtom] at h
    · intro t r u h; simp [readSeq] at h
    · intro t r u h; simp [readChoice] at h
  | succ n ih =>
    obtain ⟨ia, is, ic⟩ := ih
    refine ⟨?_, ?_, ?_⟩
    · intro t r u h
      unfold readAtom at h
      split at h
      · cases h
      · cases h
      · cases h; exact ⟨['.'], rfl, .dot⟩
      · cases h; exact ⟨['\\', 'w'], rfl, .word⟩
      · split at h
        · rename_i hc
          cases h; exact ⟨['\\', _], rfl, .escaped (isSpecial_iff.1 hc)⟩
        · cases h
      · rename_i t'
        split at h
        · rename_i i is' u' hs
          cases h
          obtain ⟨s, rfl, hs'⟩ := readSet_sound _ hs
          exact ⟨'[' :: s ++ [']'], by simp, .set hs' (by simp)⟩
        · cases h
      · rename_i n' t' hn
        cases hn
        split at h
        · rename_i bs u' hs
          cases h
          obtain ⟨s, rfl, hs, _⟩ := ic hs
          rw [altAll_eq]
          exact ⟨'(' :: s ++ [')'], by simp, .group hs⟩
        · cases h
      · split at h
        · cases h
        · rename_i hc
          cases h
          exact ⟨[_], rfl, .char fun h => hc (isSpecial_iff.2 h)⟩
    · intro t rs u h
      unfold readSeq at h
      split at h
      · cases h
      · cases h; exact ⟨[], rfl, .nil, .inl rfl⟩
      · rename_i n' c t' hn
        cases hn
        split at h
        · rename_i hc
          cases h
          refine ⟨[], rfl, .nil, .inr ⟨t', ?_⟩⟩
          rcases hc with rfl | rfl
          · exact .inl rfl
          · exact .inr rfl
        · split at h
          · cases h
          · rename_i r u1 ha
            obtain ⟨s1, e1, h1⟩ := ia ha
            split at h
            · cases h
            · rename_i rs' u2 hs
              cases h
              obtain ⟨s2, e2, h2, hu⟩ := is hs
              rw [e1]
              unfold readRepeat at e2 ⊢
              split at e2 <;> subst e2
              · exact ⟨s1 ++ '*' :: s2, by simp, .star h1 h2, hu⟩
              · exact ⟨s1 ++ '+' :: s2, by simp, .plus h1 h2, hu⟩
              · exact ⟨s1 ++ '?' :: s2, by simp, .opt h1 h2, hu⟩
              · exact ⟨s1 ++ s2, by simp, .once h1 h2, hu⟩
    · intro t bs u h
      rw [readChoice] at h
      split at h
      · cases h
      · rename_i rs t' hs
        · obtain ⟨s, rfl, h1, _⟩ := is hs
          obtain ⟨p, hp, h⟩ := Option.map_eq_some_iff.1 h
          cases h
          obtain ⟨s2, rfl, h2, hu⟩ := ic hp
          rw [seqAll_eq]
          exact ⟨s ++ '|' :: s2, by simp, .more h1 h2, hu⟩
      · rename_i rs t' hne hs
        · cases h
          obtain ⟨s, rfl, h1, hu⟩ := is hs
          rw [seqAll_eq]
          refine ⟨s, rfl, .last h1, ?_⟩
          rcases hu with rfl | ⟨v, rfl | rfl⟩
          · exact .inl rfl
          · exact absurd rfl (hne v)
          · exact .inr ⟨v, rfl⟩

/-! ## what is written is read -/

theorem atom_head {s : Str} {r : Re} (h : AtomText s r) :
    ∃ c t, s = c :: t ∧ c ≠ '|' ∧ c ≠ ')' ∧ c ≠ '*' ∧ c ≠ '+' ∧ c ≠ '?' := by
  cases h with
  | @char c h =>
    refine ⟨c, [], rfl, ?_, ?_, ?_, ?_, ?_⟩ <;> (rintro rfl; exact h (by simp [Special]))
  | escaped => exact ⟨_, _, rfl, by decide, by decide, by decide, by decide, by decide⟩
  | dot => exact ⟨_, _, rfl, by decide, by decide, by decide, by decide, by decide⟩
  | word => exact ⟨_, _, rfl, by decide, by decide, by decide, by decide, by decide⟩
  | set => exact ⟨_, _, rfl, by decide, by decide, by decide, by decide, by decide⟩
  | group => exact ⟨_, _, rfl, by decide, by decide, by decide, by decide, by decide⟩

/-- A sequence does not start with a repetition. -/
theorem seq_head {s : Str} {rs : List Re} (h : SeqText s rs) :
    s = [] ∨ ∃ c t, s = c :: t ∧ c ≠ '|' ∧ c ≠ ')' ∧ c ≠ '*' ∧ c ≠ '+' ∧ c ≠ '?' := by
  cases h with
  | nil => exact .inl rfl
  | once h1 =>
    obtain ⟨c, t, rfl, h⟩ := atom_head h1
    exact .inr ⟨c, _, rfl, h⟩
  | star h1 =>
    obtain ⟨c, t, rfl, h⟩ := atom_head h1
    exact .inr ⟨c, _, rfl, h⟩
  | plus h1 =>
    obtain ⟨c, t, rfl, h⟩ := atom_head h1
    exact .inr ⟨c, _, rfl, h⟩
  | opt h1 =>
    obtain ⟨c, t, rfl, h⟩ := atom_head h1
    exact .inr ⟨c, _, rfl, h⟩

/-- Where a sequence ends. -/
def SeqEnd (u : Str) : Prop := u = [] ∨ ∃ v, u = '|' :: v ∨ u = ')' :: v

theorem readRepeat_none {s : Str} {rs : List Re} (h : SeqText s rs) {u : Str} (hu : SeqEnd u)
    (r : Re) : readRepeat r (s ++ u) = (r, s ++ u) := by
  have key : ∀ {c : Char} {t : Str}, c ≠ '*' → c ≠ '+' → c ≠ '?' →
      readRepeat r (c :: t) = (r, c :: t) := by
    intro c t h1 h2 h3
    unfold readRepeat
    split <;> simp_all
  rcases seq_head h with rfl | ⟨c, t, rfl, _, _, h1, h2, h3⟩
  · rcases hu with rfl | ⟨v, rfl | rfl⟩
    · rfl
    · exact key (by decide) (by decide) (by decide)
    · exact key (by decide) (by decide) (by decide)
  · exact key h1 h2 h3

theorem readSeq_step {n : Nat} {s t u : Str} {r r' : Re} {rs : List Re} (ha : AtomText s r)
    (h1 : ∀ u, readAtom n (s ++ u) = some (r, u)) {x : Str}
    (hx : readRepeat r x = (r', t ++ u)) (h2 : readSeq n (t ++ u) = some (rs, u)) :
    readSeq (n + 1) (s ++ x) = some (r' :: rs, u) := by
  obtain ⟨c, s', rfl, hc, hc', _⟩ := atom_head ha
  have h3 := h1 x
  rw [List.cons_append] at h3 ⊢
  rw [readSeq, if_neg (fun h => h.elim hc hc'), h3]
  simp only [hx, h2]

mutual
theorem readAtom_complete : ∀ {s : Str} {r : Re}, AtomText s r → ∀ {n : Nat}, 3 * s.length ≤ n →
    ∀ u, readAtom n (s ++ u) = some (r, u)
  | _, _, .char (c := c) h, n, hn, u => by
    obtain ⟨m, rfl⟩ : ∃ m, n = m + 1 := ⟨n - 1, by simp at hn; omega⟩
    have hc : isSpecial c = false := by
      rw [Bool.eq_false_iff]; exact fun h' => h (isSpecial_iff.1 h')
    have ne : ∀ {d : Char}, isSpecial d = true → c ≠ d := by
      rintro d hd rfl; rw [hc] at hd; cases hd
    have := ne (d := '.') rfl
    have := ne (d := '\\') rfl
    have := ne (d := '[') rfl
    have := ne (d := '(') rfl
    rw [List.cons_append, List.nil_append]
    unfold readAtom
    split <;> simp_all
  | _, _, .escaped (c := c) h, n, hn, u => by
    obtain ⟨m, rfl⟩ : ∃ m, n = m + 1 := ⟨n - 1, by simp at hn; omega⟩
    have hc := isSpecial_iff.2 h
    have : c ≠ 'w' := by rintro rfl; cases hc
    show readAtom (m + 1) ('\\' :: c :: u) = _
    rw [readAtom, if_pos hc]
    exact this
  | _, _, .dot, n, hn, u => by
    obtain ⟨m, rfl⟩ : ∃ m, n = m + 1 := ⟨n - 1, by simp at hn; omega⟩
    rfl
  | _, _, .word, n, hn, u => by
    obtain ⟨m, rfl⟩ : ∃ m, n = m + 1 := ⟨n - 1, by simp at hn; omega⟩
    rfl
  | _, _, .set (t := t) (is := is) h hne, n, hn, u => by
    obtain ⟨m, rfl⟩ : ∃ m, n = m + 1 := ⟨n - 1, by simp at hn; omega⟩
    have e : '[' :: t ++ [']'] ++ u = '[' :: (t ++ ']' :: u) := by simp
    rw [e, readAtom, readSet_complete h]
    cases is with
    | nil => exact absurd rfl hne
    | cons i is => rfl
  | _, _, .group (t := t) (bs := bs) h, n, hn, u => by
    obtain ⟨m, rfl⟩ : ∃ m, n = m + 1 := ⟨n - 1, by simp at hn; omega⟩
    have e : '(' :: t ++ [')'] ++ u = '(' :: (t ++ ')' :: u) := by simp
    have := readChoice_complete h (n := m) (by simp at hn; omega) (u := ')' :: u) (.inr ⟨u, rfl⟩)
    rw [e, readAtom, this, ← altAll_eq]
    rfl
theorem readSeq_complete : ∀ {s : Str} {rs : List Re}, SeqText s rs → ∀ {n : Nat},
    3 * s.length + 1 ≤ n → ∀ {u}, SeqEnd u → readSeq n (s ++ u) = some (rs, u)
  | _, _, .nil, n, hn, u, hu => by
    obtain ⟨m, rfl⟩ : ∃ m, n = m + 1 := ⟨n - 1, by omega⟩
    rcases hu with rfl | ⟨v, rfl | rfl⟩ <;> rfl
  | _, _, .once (s := s) (t := t) h1 h2, n, hn, u, hu => by
    have hs : 0 < s.length := by obtain ⟨c, t, rfl, _⟩ := atom_head h1; simp
    rw [List.length_append] at hn
    obtain ⟨m, rfl⟩ : ∃ m, n = m + 1 := ⟨n - 1, by omega⟩
    rw [List.append_assoc]
    exact readSeq_step h1 (fun v => readAtom_complete h1 (by omega) v) (readRepeat_none h2 hu _)
      (readSeq_complete h2 (by omega) hu)
  | _, _, .star (s := s) (t := t) h1 h2, n, hn, u, hu => by
    have hs : 0 < s.length := by obtain ⟨c, t, rfl, _⟩ := atom_head h1; simp
    rw [List.length_append, List.length_cons] at hn
    obtain ⟨m, rfl⟩ : ∃ m, n = m + 1 := ⟨n - 1, by omega⟩
    rw [List.append_assoc]
    exact readSeq_step h1 (fun v => readAtom_complete h1 (by omega) v) rfl
      (readSeq_complete h2 (by omega) hu)
  | _, _, .plus (s := s) (t := t) h1 h2, n, hn, u, hu => by
    have hs : 0 < s.length := by obtain ⟨c, t, rfl, _⟩ := atom_head h1; simp
    rw [List.length_append, List.length_cons] at hn
    obtain ⟨m, rfl⟩ : ∃ m, n = m + 1 := ⟨n - 1, by omega⟩
    rw [List.append_assoc]
    exact readSeq_step h1 (fun v => readAtom_complete h1 (by omega) v) rfl
      (readSeq_complete h2 (by omega) hu)
  | _, _, .opt (s := s) (t := t) h1 h2, n, hn, u, hu => by
    have hs : 0 < s.length := by obtain ⟨c, t, rfl, _⟩ := atom_head h1; simp
    rw [List.length_append, List.length_cons] at hn
    obtain ⟨m, rfl⟩ : ∃ m, n = m + 1 := ⟨n - 1, by omega⟩
    rw [List.append_assoc]
    exact readSeq_step h1 (fun v => readAtom_complete h1 (by omega) v) rfl
      (readSeq_complete h2 (by omega) hu)
theorem readChoice_complete : ∀ {s : Str} {bs : List Re}, ChoiceText s bs → ∀ {n : Nat},
    3 * s.length + 2 ≤ n → ∀ {u}, (u = [] ∨ ∃ v, u = ')' :: v) →
    readChoice n (s ++ u) = some (bs, u)
  | _, _, .last (t := t) (rs := rs) h, n, hn, u, hu => by
    obtain ⟨m, rfl⟩ : ∃ m, n = m + 1 := ⟨n - 1, by omega⟩
    have hu' : SeqEnd u := hu.imp id fun ⟨v, h⟩ => ⟨v, .inr h⟩
    rw [readChoice, readSeq_complete h (by omega) hu', ← seqAll_eq]
    rcases hu with rfl | ⟨v, rfl⟩ <;> rfl
  | _, _, .more (t := t) (u := t') (rs := rs) (bs := bs) h1 h2, n, hn, u, hu => by
    rw [List.length_append, List.length_cons] at hn
    obtain ⟨m, rfl⟩ : ∃ m, n = m + 1 := ⟨n - 1, by omega⟩
    have e : t ++ '|' :: t' ++ u = t ++ '|' :: (t' ++ u) := by simp
    rw [e, readChoice, readSeq_complete h1 (by omega) (.inr ⟨_, .inl rfl⟩)]
    simp only [readChoice_complete h2 (show 3 * t'.length + 2 ≤ m by omega) hu, ← seqAll_eq]
    rfl
end

/-- C111: a text is read as a pattern exactly if it is written as one. -/
theorem readPattern_iff {t : Str} {p : Pat} : readPattern t = some p ↔ PatternText t p := by
  constructor
  · intro h
    unfold readPattern at h
    split at h
    · rename_i b bs hr
      cases h
      obtain ⟨s, e, hs, _⟩ := (read_sound _).2.2 hr
      rw [List.append_nil] at e
      exact ⟨rfl, e ▸ hs⟩
    · cases h
  · rintro ⟨rfl, h⟩
    have := readChoice_complete h (Nat.le_refl _) (.inl rfl)
    rw [List.append_nil] at this
    rw [readPattern, this]

/-- C111: a text is written as one pattern only. -/
theorem patternText_unique {t : Str} {p q : Pat} (hp : PatternText t p) (hq : PatternText t q) :
    p = q :=
  Option.some.inj ((readPattern_iff.2 hp).symm.trans (readPattern_iff.2 hq))

end Punx

import Verif.Spec.Names
import Verif.Lemmas.Basic

/-! The derivative based matcher computes the language of the expression. -/

namespace Punx
open Spec

variable {word : Char → Bool}

theorem nullable_iff (r : Re) : r.nullable = true ↔ Matches word r [] := by
  induction r with
  | zero => simp [Re.nullable]; intro h; cases h
  | eps => simp [Re.nullable]; exact .eps
  | dot => simp [Re.nullable]; intro h; cases h
  | cls items => simp [Re.nullable]; intro h; cases h
  | seq a b iha ihb =>
    rw [Re.nullable, Bool.and_eq_true, iha, ihb]
    constructor
    · intro ⟨h1, h2⟩; exact .seq (s := []) (t := []) h1 h2
    · intro h
      generalize hs : ([] : Str) = s at h
      cases h with
      | seq h1 h2 =>
        obtain ⟨rfl, rfl⟩ := List.append_eq_nil_iff.1 hs.symm
        exact ⟨h1, h2⟩
  | alt a b iha ihb =>
    rw [Re.nullable, Bool.or_eq_true, iha, ihb]
    constructor
    · rintro (h | h)
      · exact .altL h
      · exact .altR h
    · intro h
      cases h with
      | altL h => exact .inl h
      | altR h => exact .inr h
  | star a _ => simp [Re.nullable]; exact .starNil

/-- A non-empty match of a star starts with a non-empty match of its body. -/
theorem star_cons {a : Re} {c : Char} {s : Str} (h : Matches word (.star a) (c :: s)) :
    ∃ s1 s2, s = s1 ++ s2 ∧ Matches word a (c :: s1) ∧ Matches word (.star a) s2 := by
  generalize hr : Re.star a = r at h
  generalize ht : c :: s = t at h
  induction h with
  | eps => cases hr
  | dot => cases hr
  | cls => cases hr
  | seq => cases hr
  | altL => cases hr
  | altR => cases hr
  | starNil => cases ht
  | @starCons a' s1 t1 h1 h2 _ ih2 =>
    cases hr
    cases s1 with
    | nil => exact ih2 rfl (by simpa using ht)
    | cons d s1 =>
      simp only [List.cons_append, List.cons.injEq] at ht
      obtain ⟨rfl, rfl⟩ := ht
      exact ⟨s1, t1, rfl, h1, h2⟩

theorem deriv_iff (r : Re) (c : Char) (s : Str) :
    Matches word (r.deriv word c) s ↔ Matches word r (c :: s) := by
  induction r generalizing s with
  | zero => rw [Re.deriv]; constructor <;> intro h <;> cases h
  | eps => rw [Re.deriv]; constructor <;> intro h <;> cases h
  | dot =>
    rw [Re.deriv]
    split
    · rename_i h
      constructor
      · intro h; cases h
      · intro h'; cases h' with | dot h' => exact absurd h h'
    · rename_i h
      constructor
      · intro h'; cases h'; exact .dot h
      · intro h'; cases h'; exact .eps
  | cls items =>
    rw [Re.deriv]
    split
    · rename_i h
      obtain ⟨i, hi, hc⟩ := List.any_eq_true.1 h
      constructor
      · intro h'; cases h'; exact .cls hi hc
      · intro h'; cases h'; exact .eps
    · rename_i h
      constructor
      · intro h'; cases h'
      · intro h'
        cases h' with
        | cls hi hc => exact absurd (List.any_eq_true.2 ⟨_, hi, hc⟩) h
  | seq a b iha ihb =>
    have key : Matches word (.seq a b) (c :: s) ↔
        Matches word (.seq (a.deriv word c) b) s ∨
          (Matches word a [] ∧ Matches word (b.deriv word c) s) := by
      constructor
      · intro h
        generalize ht : c :: s = t at h
        cases h with
        | @seq _ _ s1 s2 h1 h2 =>
          cases s1 with
          | nil =>
            right
            simp only [List.nil_append] at ht
            subst ht
            exact ⟨h1, (ihb _).2 h2⟩
          | cons d s1 =>
            left
            simp only [List.cons_append, List.cons.injEq] at ht
            obtain ⟨rfl, rfl⟩ := ht
            exact .seq ((iha _).2 h1) h2
      · rintro (h | ⟨h1, h2⟩)
        · cases h with
          | seq h1 h2 => exact .seq (s := c :: _) ((iha _).1 h1) h2
        · exact .seq (s := []) h1 ((ihb _).1 h2)
    rw [key, Re.deriv]
    split
    · rename_i hn
      rw [nullable_iff (word := word)] at hn
      constructor
      · intro h
        cases h with
        | altL h => exact .inl h
        | altR h => exact .inr ⟨hn, h⟩
      · rintro (h | ⟨_, h⟩)
        · exact .altL h
        · exact .altR h
    · rename_i hn
      rw [nullable_iff (word := word)] at hn
      constructor
      · exact .inl
      · rintro (h | ⟨h, _⟩)
        · exact h
        · exact absurd h hn
  | alt a b iha ihb =>
    rw [Re.deriv]
    constructor
    · intro h
      cases h with
      | altL h => exact .altL ((iha _).1 h)
      | altR h => exact .altR ((ihb _).1 h)
    · intro h
      cases h with
      | altL h => exact .altL ((iha _).2 h)
      | altR h => exact .altR ((ihb _).2 h)
  | star a iha =>
    rw [Re.deriv]
    constructor
    · intro h
      cases h with
      | seq h1 h2 => exact .starCons (s := c :: _) ((iha _).1 h1) h2
    · intro h
      obtain ⟨s1, s2, rfl, h1, h2⟩ := star_cons h
      exact .seq ((iha _).2 h1) h2

/-- `fullMatch` decides the language. -/
theorem fullMatch_iff (r : Re) (s : Str) : r.fullMatch word s = true ↔ Matches word r s := by
  induction s generalizing r with
  | nil => rw [Re.fullMatch, nullable_iff]
  | cons c cs ih => rw [Re.fullMatch, ih, deriv_iff]

/-- `prefixMatch`: some prefix is in the language. -/
theorem prefixMatch_iff (r : Re) (s : Str) :
    r.prefixMatch word s = true ↔ ∃ p, p <+: s ∧ Matches word r p := by
  induction s generalizing r with
  | nil =>
    rw [Re.prefixMatch, nullable_iff (word := word)]
    constructor
    · intro h; exact ⟨[], List.prefix_refl _, h⟩
    · rintro ⟨p, hp, h⟩
      rw [List.prefix_nil] at hp
      rwa [hp] at h
  | cons c cs ih =>
    rw [Re.prefixMatch, Bool.or_eq_true, nullable_iff (word := word), ih]
    constructor
    · rintro (h | ⟨p, hp, h⟩)
      · exact ⟨[], List.nil_prefix, h⟩
      · exact ⟨c :: p, by rw [List.prefix_cons_inj]; exact hp, (deriv_iff _ _ _).1 h⟩
    · rintro ⟨p, hp, h⟩
      cases p with
      | nil => exact .inl h
      | cons d p =>
        rw [List.cons_prefix_cons] at hp
        obtain ⟨rfl, hp⟩ := hp
        exact .inr ⟨p, hp, (deriv_iff _ _ _).2 h⟩

/-- `dollarMatch`: the whole text, up to one newline at its end. -/
theorem dollarMatch_iff (r : Re) (s : Str) :
    dollarMatch word r s = true ↔ OrNewline (Matches word r) s := by
  rw [dollarMatch, Bool.or_eq_true, Bool.and_eq_true, fullMatch_iff, fullMatch_iff, OrNewline]
  refine or_congr Iff.rfl ?_
  constructor
  · rintro ⟨h1, h2⟩
    refine ⟨s.dropLast, ?_, h2⟩
    have h1 := beq_iff_eq.1 h1
    obtain ⟨t, rfl⟩ := List.getLast?_eq_some_iff.1 h1
    simp
  · rintro ⟨t, rfl, h⟩
    simpa using h

theorem matches_cls {items : List ClsItem} {s : Str} :
    Matches word (.cls items) s ↔ ∃ c, s = [c] ∧ ∃ i ∈ items, i.has word c = true := by
  constructor
  · intro h; cases h with | cls hi hc => exact ⟨_, rfl, _, hi, hc⟩
  · rintro ⟨c, rfl, i, hi, hc⟩; exact .cls hi hc

theorem matches_dot {s : Str} : Matches word .dot s ↔ ∃ c, s = [c] ∧ c ≠ '\n' := by
  constructor
  · intro h; cases h with | dot h => exact ⟨_, rfl, h⟩
  · rintro ⟨c, rfl, h⟩; exact .dot h

theorem matches_seq {a b : Re} {s : Str} :
    Matches word (.seq a b) s ↔ ∃ s1 s2, s = s1 ++ s2 ∧ Matches word a s1 ∧ Matches word b s2 := by
  constructor
  · intro h; cases h with | seq h1 h2 => exact ⟨_, _, rfl, h1, h2⟩
  · rintro ⟨s1, s2, rfl, h1, h2⟩; exact .seq h1 h2

/-- A star of an expression for single characters. -/
theorem matches_star_single {a : Re} {P : Char → Prop}
    (ha : ∀ s, Matches word a s ↔ ∃ c, s = [c] ∧ P c) (s : Str) :
    Matches word (.star a) s ↔ ∀ c ∈ s, P c := by
  induction s with
  | nil => simp; exact .starNil
  | cons c s ih =>
    constructor
    · intro h
      obtain ⟨s1, s2, rfl, h1, h2⟩ := star_cons h
      obtain ⟨d, hd, hp⟩ := (ha _).1 h1
      simp only [List.cons.injEq] at hd
      obtain ⟨rfl, rfl⟩ := hd
      intro e he
      rcases List.mem_cons.1 he with rfl | he
      · exact hp
      · exact ih.1 h2 e he
    · intro h
      exact .starCons (s := [c]) ((ha _).2 ⟨c, rfl, h c (by simp)⟩)
        (ih.2 (fun e he => h e (by simp [he])))

theorem patMatch_single (p : Pat) (s : Str) (h : p.rest = []) :
    patMatch word p s = dollarMatch word p.first s := by
  rw [patMatch, h, patMatch.go]

theorem patMatch_go_iff (s : Str) (r : Re) (rs : List Re) :
    patMatch.go word s r rs = true ↔
      (∃ q ∈ (r :: rs).dropLast, ∃ t, t <+: s ∧ Matches word q t) ∨
        OrNewline (Matches word ((r :: rs).getLast (by simp))) s := by
  induction rs generalizing r with
  | nil => rw [patMatch.go, dollarMatch_iff]; simp
  | cons r' rs ih =>
    rw [patMatch.go, Bool.or_eq_true, prefixMatch_iff, ih]
    simp only [List.dropLast_cons_cons, List.mem_cons, exists_eq_or_imp, List.getLast_cons_cons]
    rw [or_assoc]

/-- `patMatch` decides what the pattern accepts. -/
theorem patMatch_iff (p : Pat) (s : Str) : patMatch word p s = true ↔ PatAccepts word p s :=
  patMatch_go_iff s p.first p.rest

theorem toNat_eq_iff {c d : Char} : c.toNat = d.toNat ↔ c = d := by
  constructor
  · intro h
    apply Char.ext
    apply UInt32.toNat_inj.1
    exact h
  · rintro rfl; rfl

theorem range_single {c d : Char} :
    (ClsItem.range d d).has word c = true ↔ c = d := by
  rw [ClsItem.has, Bool.and_eq_true, decide_eq_true_eq, decide_eq_true_eq]
  rw [← toNat_eq_iff (c := c)]
  omega

theorem orNewline_congr {P Q : Str → Prop} (h : ∀ s, P s ↔ Q s) (s : Str) :
    OrNewline P s ↔ OrNewline Q s := by
  simp only [OrNewline, h]

theorem matches_chr_seq {d : Char} {b : Re} {s : Str} :
    Matches word (.seq (.chr d) b) s ↔ ∃ t, s = d :: t ∧ Matches word b t := by
  rw [matches_seq, Re.chr]
  constructor
  · rintro ⟨s1, s2, rfl, h1, h2⟩
    obtain ⟨c, rfl, i, hi, hc⟩ := matches_cls.1 h1
    rw [List.mem_singleton] at hi
    subst hi
    rw [range_single] at hc
    subst hc
    exact ⟨s2, rfl, h2⟩
  · rintro ⟨t, rfl, h⟩
    exact ⟨[d], t, rfl, matches_cls.2 ⟨d, rfl, _, List.mem_singleton.2 rfl, range_single.2 rfl⟩, h⟩

/-- First a character of one class, then any number of another. -/
theorem matches_head_tail {xs ys : List ClsItem} {P Q : Char → Prop}
    (hP : ∀ c, (∃ i ∈ xs, i.has word c = true) ↔ P c)
    (hQ : ∀ c, (∃ i ∈ ys, i.has word c = true) ↔ Q c) (s : Str) :
    Matches word (.seq (.cls xs) (.star (.cls ys))) s ↔
      ∃ c cs, s = c :: cs ∧ P c ∧ ∀ d ∈ cs, Q d := by
  rw [matches_seq]
  have hs : ∀ s, Matches word (.star (.cls ys)) s ↔ ∀ c ∈ s, Q c :=
    matches_star_single (fun s => by rw [matches_cls]; simp only [hQ])
  constructor
  · rintro ⟨s1, s2, rfl, h1, h2⟩
    obtain ⟨c, rfl, h⟩ := matches_cls.1 h1
    exact ⟨c, s2, rfl, (hP c).1 h, (hs _).1 h2⟩
  · rintro ⟨c, cs, rfl, h1, h2⟩
    exact ⟨[c], cs, rfl, matches_cls.2 ⟨c, rfl, (hP c).2 h1⟩, (hs _).2 h2⟩

theorem patMatch_strict (s : Str) : patMatch word strictPat s = true ↔ OrNewline StrictName s := by
  rw [patMatch_single _ _ rfl, dollarMatch_iff]
  refine orNewline_congr (fun s => ?_) s
  rw [strictPat, StrictName]
  refine matches_head_tail (fun c => ?_) (fun c => ?_) s
  · simp only [List.mem_cons, List.not_mem_nil, or_false, exists_eq_or_imp, exists_eq_left,
      range_single]
    simp [ClsItem.has, Lower]
  · simp only [List.mem_cons, List.not_mem_nil, or_false, exists_eq_or_imp, exists_eq_left,
      range_single]
    simp [ClsItem.has, Lower, Digit]

theorem patMatch_relaxed (s : Str) :
    patMatch word relaxedPat s = true ↔ OrNewline (RelaxedName word) s := by
  rw [patMatch_single _ _ rfl, dollarMatch_iff]
  refine orNewline_congr (fun s => ?_) s
  rw [relaxedPat, RelaxedName]
  refine matches_head_tail (fun c => ?_) (fun c => ?_) s
  · simp only [List.mem_cons, List.not_mem_nil, or_false, exists_eq_or_imp, exists_eq_left,
      range_single]
    simp [ClsItem.has, Upper, Lower]
  · simp only [List.mem_cons, List.not_mem_nil, or_false, exists_eq_or_imp, exists_eq_left,
      range_single]
    simp [ClsItem.has]

theorem patMatch_nxClass (s : Str) :
    patMatch word nxClassPat s = true ↔ OrNewline ClassName s := by
  rw [patMatch_single _ _ rfl, dollarMatch_iff]
  refine orNewline_congr (fun s => ?_) s
  rw [nxClassPat]
  simp only [matches_chr_seq, Re.plus]
  have hs : ∀ s, Matches word (.star .dot) s ↔ ∀ c ∈ s, c ≠ '\n' :=
    matches_star_single (fun s => matches_dot)
  rw [ClassName]
  constructor
  · rintro ⟨_, rfl, t, rfl, h⟩
    obtain ⟨s1, s2, rfl, h1, h2⟩ := matches_seq.1 h
    obtain ⟨c, rfl, hc⟩ := matches_dot.1 h1
    refine ⟨c :: s2, rfl, by simp, ?_⟩
    intro hm
    rcases List.mem_cons.1 hm with h | h
    · exact hc h.symm
    · exact (hs _).1 h2 _ h rfl
  · rintro ⟨t, rfl, hne, hn⟩
    refine ⟨_, rfl, _, rfl, ?_⟩
    cases t with
    | nil => exact absurd rfl hne
    | cons c t =>
      refine matches_seq.2 ⟨[c], t, rfl, .dot ?_, (hs _).2 ?_⟩
      · rintro rfl; simp at hn
      · rintro d hd rfl; simp [hd] at hn

end Punx

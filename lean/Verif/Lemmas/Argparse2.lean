import Verif.Lemmas.Argparse

/-!
# Lemmas about reading arguments: what an argument means
-/

namespace Punx

variable {t : Texts} {p : CliParser}

theorem noOption_letter {c : Char} {s : Str} (hc : c ≠ '-') :
    NoOption p ('-' :: c :: s) ↔ ∀ o, ¬ HasName p ['-', c] o := by
  constructor
  · intro h o
    exact h.1 c s rfl o
  · intro h
    refine ⟨?_, ?_⟩
    · intro c' s' he o
      simp at he
      rw [← he.1]
      exact h o
    · rintro n - (he | ⟨v, he⟩) <;> simp at he <;> exact absurd he.1 hc

theorem noOption_long {n : Str} (hp : WellNamed p) (he : '=' ∉ n) :
    NoOption p ('-' :: '-' :: n) ↔ ∀ m o, HasName p m o → ¬ '-' :: '-' :: n <+: m := by
  constructor
  · intro h
    exact h.2 n he (Or.inl rfl)
  · intro h
    refine ⟨?_, ?_⟩
    · intro c s hc o
      simp at hc
      rw [← hc.1]
      exact not_dashes hp o
    · rintro n' he' (h' | ⟨v, h'⟩)
      · simp at h'
        subst h'
        exact h
      · simp at h'
        subst h'
        simp at he

theorem noOption_long_eq {n v : Str} (hp : WellNamed p) (he : '=' ∉ n) :
    NoOption p ('-' :: '-' :: (n ++ '=' :: v)) ↔ ∀ m o, HasName p m o → ¬ '-' :: '-' :: n <+: m := by
  constructor
  · intro h
    exact h.2 n he (Or.inr ⟨v, rfl⟩)
  · intro h
    refine ⟨?_, ?_⟩
    · intro c s hc o
      simp at hc
      rw [← hc.1]
      exact not_dashes hp o
    · rintro n' he' (h' | ⟨v', h'⟩)
      · simp at h'
        subst h'
        simp at he'
      · simp only [List.cons.injEq, true_and] at h'
        rw [← (eq_split_unique he he' h').1]
        exact h

/-- The forms of an argument. -/
theorem arg_cases (a : Str) : a.head? ≠ some '-' ∨ a = ['-'] ∨ (∃ c s, a = '-' :: c :: s ∧ c ≠ '-') ∨
    a = ['-', '-'] ∨ (∃ n, a = '-' :: '-' :: n ∧ n ≠ [] ∧ '=' ∉ n) ∨
    ∃ n v, a = '-' :: '-' :: (n ++ '=' :: v) ∧ '=' ∉ n := by
  match a with
  | [] => exact Or.inl (by simp)
  | [c] =>
    by_cases h : c = '-'
    · exact Or.inr (Or.inl (by rw [h]))
    · exact Or.inl (by simp [h])
  | c :: d :: s =>
    by_cases h : c = '-'
    · subst h
      by_cases h' : d = '-'
      · subst h'
        right; right; right
        rcases eq_cases s with h | ⟨n, v, rfl, h⟩
        · by_cases hs : s = []
          · exact Or.inl (by rw [hs])
          · exact Or.inr (Or.inl ⟨s, rfl, hs, h⟩)
        · exact Or.inr (Or.inr ⟨n, v, rfl, h⟩)
      · exact Or.inr (Or.inr (Or.inl ⟨d, s, rfl, h'⟩))
    · exact Or.inl (by simp [h])

theorem fallback_none {a : Str} :
    fallback t a = .ok none ↔ (t.negative a = true ∨ ' ' ∈ a) := by
  unfold fallback
  by_cases h : t.negative a = true
  · simp [h]
  · by_cases h' : ' ' ∈ a <;> simp [h, h']

theorem fallback_some {a : Str} {u : OptUse} :
    fallback t a = .ok (some u) ↔ u = ⟨a, none, false, false, none⟩ ∧ t.negative a = false ∧ ' ' ∉ a := by
  unfold fallback
  by_cases h : t.negative a = true
  · simp [h]
  · by_cases h' : ' ' ∈ a <;> simp [h, h', eq_comm]

theorem fallback_ok (t : Texts) (a : Str) : ∃ x, fallback t a = .ok x := by
  unfold fallback
  split
  · exact ⟨_, rfl⟩
  · split
    · exact ⟨_, rfl⟩
    · exact ⟨_, rfl⟩

theorem isWord_dash {a : Str} (h : a.head? = some '-') (h1 : a ≠ ['-']) (h2 : a ≠ ['-', '-']) :
    IsWord t p a ↔ NoOption p a ∧ (t.negative a = true ∨ ' ' ∈ a) := by
  unfold IsWord
  simp [h, h1, h2]

theorem isUnknown_dash {a : Str} (h : a.head? = some '-') (h1 : a ≠ ['-']) (h2 : a ≠ ['-', '-']) :
    IsUnknown t p a ↔ NoOption p a ∧ t.negative a = false ∧ ' ' ∉ a := by
  unfold IsUnknown
  simp [h, h1, h2]

/-- An argument that is not `--` is read as a word exactly if it is one. -/
theorem parse_word_iff (hp : WellNamed p) {a : Str} (ha : a ≠ ['-', '-']) :
    parseOptional t p a = .ok none ↔ IsWord t p a := by
  rcases arg_cases a with h | rfl | ⟨c, s, rfl, hc⟩ | h | ⟨n, rfl, hn, he⟩ | ⟨n, v, rfl, he⟩
  · simp [parse_no_dash h, IsWord, h]
  · simp [parse_dash hp, IsWord]
  · rw [isWord_dash (by simp) (by simp) (by simp [hc]), noOption_letter hc]
    by_cases h : ∃ o, HasName p ['-', c] o
    · obtain ⟨o, h⟩ := h
      rw [parse_letter hp h]
      simp only [Except.ok.injEq, reduceCtorEq, false_iff]
      exact fun h' => h'.1 o h
    · have h' : ∀ o, ¬ HasName p ['-', c] o := fun o ho => h ⟨o, ho⟩
      rw [parse_no_letter hp hc h', fallback_none]
      simp [h']
  · exact absurd h ha
  · rw [isWord_dash (by simp) (by simp) ha, noOption_long hp he]
    rcases parse_long (t := t) hp hn he with ⟨o, h1, h2⟩ | ⟨⟨n', he', h0, -, m, o, m', o', h1, -, -, h2, -⟩, -, h3⟩ | ⟨h1, h2⟩
    · rw [h2]
      simp only [Except.ok.injEq, reduceCtorEq, false_iff]
      rintro ⟨h, -⟩
      rcases h1 with h1 | ⟨-, m, h1, h3, -⟩
      · exact h _ _ h1 (List.prefix_refl _)
      · exact h _ _ h1 h3
    · rw [h3]
      simp only [reduceCtorEq, false_iff]
      rintro ⟨h, -⟩
      have : n' = n := by
        rcases h0 with ⟨h0, -⟩ | ⟨v, h0⟩ <;> simp at h0
        · exact h0.symm
        · rw [h0] at he
          simp at he
      subst this
      exact h _ _ h1 h2
    · rw [h2, fallback_none]
      simp only [iff_and_self]
      exact fun _ => h1
  · rw [isWord_dash (by simp) (by simp) ha, noOption_long_eq hp he]
    rcases parse_long_eq (t := t) (v := v) hp he with ⟨o, h1, h2⟩ | ⟨⟨n', he', h0, -, m, o, m', o', h1, -, -, h2, -⟩, -, h3⟩ | ⟨h1, h2⟩
    · rw [h2]
      simp only [Except.ok.injEq, reduceCtorEq, false_iff]
      rintro ⟨h, -⟩
      rcases h1 with h1 | ⟨-, m, h1, h3, -⟩
      · exact h _ _ h1 (List.prefix_refl _)
      · exact h _ _ h1 h3
    · rw [h3]
      simp only [reduceCtorEq, false_iff]
      rintro ⟨h, -⟩
      have : n' = n := by
        rcases h0 with ⟨h0, -⟩ | ⟨v, h0⟩
        · simp at h0
          rw [← h0] at he'
          simp at he'
        · simp only [List.cons.injEq, true_and] at h0
          exact (eq_split_unique he he' h0).1.symm
      subst this
      exact h _ _ h1 h2
    · rw [h2, fallback_none]
      simp only [iff_and_self]
      exact fun _ => h1

/-- Reading an argument fails exactly if it is ambiguous. -/
theorem parse_error_iff (hp : WellNamed p) {a : Str} (ha : a ≠ ['-', '-']) {e : PyErr} :
    parseOptional t p a = .error e ↔ Ambiguous p a ∧ e = .systemExit 2 := by
  have hamb : ∀ {a : Str}, Ambiguous p a → ∃ s, a = '-' :: '-' :: s := by
    rintro a ⟨n, -, (⟨rfl, -⟩ | ⟨v, rfl⟩), -⟩
    · exact ⟨_, rfl⟩
    · exact ⟨_, rfl⟩
  rcases arg_cases a with h | rfl | ⟨c, s, rfl, hc⟩ | h | ⟨n, rfl, hn, he⟩ | ⟨n, v, rfl, he⟩
  · rw [parse_no_dash h]
    simp only [reduceCtorEq, false_iff]
    rintro ⟨h', -⟩
    obtain ⟨s, rfl⟩ := hamb h'
    simp at h
  · rw [parse_dash hp]
    simp only [reduceCtorEq, false_iff]
    rintro ⟨h', -⟩
    obtain ⟨s, h⟩ := hamb h'
    simp at h
  · have hr : ¬ Ambiguous p ('-' :: c :: s) := by
      intro h'
      obtain ⟨s, h⟩ := hamb h'
      simp at h
      exact hc h.1
    by_cases h : ∃ o, HasName p ['-', c] o
    · obtain ⟨o, h⟩ := h
      rw [parse_letter hp h]
      simp [hr]
    · have h' : ∀ o, ¬ HasName p ['-', c] o := fun o ho => h ⟨o, ho⟩
      rw [parse_no_letter hp hc h']
      obtain ⟨x, hx⟩ := fallback_ok t ('-' :: c :: s)
      simp [hx, hr]
  · exact absurd h ha
  · have hr : Ambiguous p ('-' :: '-' :: n) → (∀ o, ¬ HasName p ('-' :: '-' :: n) o) ∧
        ∃ m o m' o', HasName p m o ∧ HasName p m' o' ∧ m ≠ m' ∧ '-' :: '-' :: n <+: m ∧
          '-' :: '-' :: n <+: m' := by
      rintro ⟨n', he', h0, h1⟩
      have : n' = n := by
        rcases h0 with ⟨h0, -⟩ | ⟨v, h0⟩ <;> simp at h0
        · exact h0.symm
        · rw [h0] at he
          simp at he
      subst this
      exact h1
    rcases parse_long (t := t) hp hn he with ⟨o, h1, h2⟩ | ⟨h1, -, h3⟩ | ⟨h1, h2⟩
    · rw [h2]
      simp only [reduceCtorEq, false_iff]
      rintro ⟨h, -⟩
      obtain ⟨h3, m, o1, m', o', h4, h5, h6, h7, h8⟩ := hr h
      rcases h1 with h1 | ⟨-, m'', -, -, h1⟩
      · exact h3 _ h1
      · exact h6 ((h1 _ _ h4 h7).trans (h1 _ _ h5 h8).symm)
    · rw [h3]
      simp [h1, eq_comm]
    · obtain ⟨x, hx⟩ := fallback_ok t ('-' :: '-' :: n)
      rw [h2, hx]
      simp only [reduceCtorEq, false_iff]
      rintro ⟨h, -⟩
      obtain ⟨h3, m, o1, m', o', h4, h5, h6, h7, h8⟩ := hr h
      exact h1 _ _ h4 h7
  · have hr : Ambiguous p ('-' :: '-' :: (n ++ '=' :: v)) → (∀ o, ¬ HasName p ('-' :: '-' :: n) o) ∧
        ∃ m o m' o', HasName p m o ∧ HasName p m' o' ∧ m ≠ m' ∧ '-' :: '-' :: n <+: m ∧
          '-' :: '-' :: n <+: m' := by
      rintro ⟨n', he', h0, h1⟩
      have : n' = n := by
        rcases h0 with ⟨h0, -⟩ | ⟨v, h0⟩
        · simp at h0
          rw [← h0] at he'
          simp at he'
        · simp only [List.cons.injEq, true_and] at h0
          exact (eq_split_unique he he' h0).1.symm
      subst this
      exact h1
    rcases parse_long_eq (t := t) (v := v) hp he with ⟨o, h1, h2⟩ | ⟨h1, -, h3⟩ | ⟨h1, h2⟩
    · rw [h2]
      simp only [reduceCtorEq, false_iff]
      rintro ⟨h, -⟩
      obtain ⟨h3, m, o1, m', o', h4, h5, h6, h7, h8⟩ := hr h
      rcases h1 with h1 | ⟨-, m'', -, -, h1⟩
      · exact h3 _ h1
      · exact h6 ((h1 _ _ h4 h7).trans (h1 _ _ h5 h8).symm)
    · rw [h3]
      simp [h1, eq_comm]
    · obtain ⟨x, hx⟩ := fallback_ok t ('-' :: '-' :: (n ++ '=' :: v))
      rw [h2, hx]
      simp only [reduceCtorEq, false_iff]
      rintro ⟨h, -⟩
      obtain ⟨h3, m, o1, m', o', h4, h5, h6, h7, h8⟩ := hr h
      exact h1 _ _ h4 h7

/-! ## the options in one argument -/

/-- The pieces of an argument. -/
def Uses.pieces (r : Uses) : List Piece :=
  r.done.map (fun d => .option d.1 d.2) ++ r.extra.toList.map .extra

theorem useExplicit_sep {o : CliOpt} {s : Str} {r : Uses} :
    useExplicit p o false true s = .ok r ↔ o.takes = true ∧ r = ⟨[(o, some s)], none, none⟩ := by
  cases s with
  | nil =>
    unfold useExplicit
    by_cases h : o.takes = true <;> simp [h, eq_comm]
  | cons c s =>
    unfold useExplicit
    by_cases h : o.takes = true <;> simp [h, eq_comm]

theorem useExplicit_long {o : CliOpt} {sep : Bool} {s : Str} {r : Uses} :
    useExplicit p o true sep s = .ok r ↔ o.takes = true ∧ r = ⟨[(o, some s)], none, none⟩ := by
  cases s with
  | nil =>
    unfold useExplicit
    by_cases h : o.takes = true <;> simp [h, eq_comm]
  | cons c s =>
    unfold useExplicit
    by_cases h : o.takes = true <;> simp [h, eq_comm]

theorem useAlone_letters {o : CliOpt} {c : Char} (h : HasName p ['-', c] o) :
    Letters p [c] (useAlone o).pieces (useAlone o).awaits := by
  unfold useAlone
  by_cases ht : o.takes = true
  · rw [if_pos ht]
    exact .awaits h ht
  · rw [if_neg ht]
    exact .flag h (by simpa using ht)

theorem letters_single (hp : WellNamed p) {o : CliOpt} {c : Char} {ps : List Piece} {w : Option CliOpt}
    (h : HasName p ['-', c] o) (hl : Letters p [c] ps w) :
    ps = (useAlone o).pieces ∧ w = (useAlone o).awaits := by
  unfold useAlone
  cases hl with
  | flag h' ht =>
    cases h.unique hp h'
    simp [ht, Uses.pieces]
  | flags h' ht hn => nomatch hn
  | text h' ht hs => exact absurd rfl hs
  | awaits h' ht =>
    cases h.unique hp h'
    simp [ht, Uses.pieces]

theorem useExplicit_letters (hp : WellNamed p) : ∀ {s : Str} {c : Char} {o : CliOpt} {r : Uses},
    HasName p ['-', c] o → s ≠ [] → s.head? ≠ some '=' → useExplicit p o false false s = .ok r →
    Letters p (c :: s) r.pieces r.awaits
  | [], _, _, _, _, hs, _, _ => absurd rfl hs
  | d :: s, c, o, r, h, _, hq, hr => by
    have hq' : d ≠ '=' := by simpa using hq
    unfold useExplicit at hr
    by_cases ht : o.takes = true
    · simp only [ht, if_true, Except.ok.injEq] at hr
      subst hr
      exact .text h ht (by simp) hq
    · have htf : o.takes = false := by simpa using ht
      simp only [htf, Bool.false_eq_true, if_false, Bool.false_or] at hr
      by_cases hd : d = '-'
      · simp [hd] at hr
      · have hd' : (d == '-') = false := by simpa using hd
        simp only [hd', Bool.false_eq_true, if_false] at hr
        cases hn : p.named ['-', d] with
        | none =>
          rw [hn] at hr
          simp only [Except.ok.injEq] at hr
          subst hr
          exact .left h htf hd hq' ((named_none hp).1 hn)
        | some o' =>
          rw [hn] at hr
          have h' := (named_some hp).1 hn
          match s with
          | [] =>
            simp only [Except.ok.injEq] at hr
            subst hr
            exact .flags h htf (useAlone_letters h')
          | e :: s' =>
            simp only at hr
            by_cases he : e = '='
            · subst he
              simp only [beq_self_eq_true, if_true] at hr
              cases hx : useExplicit p o' false true s' with
              | error x => rw [hx] at hr; simp at hr
              | ok r' =>
                rw [hx] at hr
                simp only [Except.ok.injEq] at hr
                subst hr
                obtain ⟨ht', rfl⟩ := useExplicit_sep.1 hx
                exact .flags h htf (.textEq h' ht')
            · have he' : (e == '=') = false := by simpa using he
              simp only [he', Bool.false_eq_true, if_false] at hr
              cases hx : useExplicit p o' false false (e :: s') with
              | error x => rw [hx] at hr; simp at hr
              | ok r' =>
                rw [hx] at hr
                simp only [Except.ok.injEq] at hr
                subst hr
                exact .flags h htf (useExplicit_letters hp h' (by simp) (by simpa using he) hx)

theorem letters_useExplicit (hp : WellNamed p) {s : Str} {ps : List Piece} {w : Option CliOpt}
    (hl : Letters p s ps w) : ∀ {c : Char} {s' : Str} {o : CliOpt}, s = c :: s' → HasName p ['-', c] o →
    s' ≠ [] → s'.head? ≠ some '=' →
    ∃ r, useExplicit p o false false s' = .ok r ∧ r.pieces = ps ∧ r.awaits = w := by
  induction hl with
  | flag h ht =>
    intro c s' o he _ hs _
    simp at he
    exact absurd he.2 hs
  | @flags c0 o0 s0 ps w h ht hl ih =>
    rintro c s' o he ho hs hq
    simp only [List.cons.injEq] at he
    obtain ⟨rfl, rfl⟩ := he
    cases ho.unique hp h
    match s0, hs with
    | d :: s, _ =>
      have hq' : d ≠ '=' := by simpa using hq
      have hd : d ≠ '-' := by
        rintro rfl
        cases hl with
        | flag h' => exact not_dashes hp _ h'
        | flags h' => exact not_dashes hp _ h'
        | text h' => exact not_dashes hp _ h'
        | textEq h' => exact not_dashes hp _ h'
        | awaits h' => exact not_dashes hp _ h'
        | left h' => exact not_dashes hp _ h'
      obtain ⟨o', h'⟩ : ∃ o', HasName p ['-', d] o' := by
        cases hl with
        | flag h' => exact ⟨_, h'⟩
        | flags h' => exact ⟨_, h'⟩
        | text h' => exact ⟨_, h'⟩
        | textEq h' => exact ⟨_, h'⟩
        | awaits h' => exact ⟨_, h'⟩
        | left h' => exact ⟨_, h'⟩
      have hd' : (d == '-') = false := by simpa using hd
      unfold useExplicit
      simp only [ht, Bool.false_eq_true, if_false, Bool.false_or, hd', (named_some hp).2 h']
      match s with
      | [] =>
        obtain ⟨rfl, rfl⟩ := letters_single hp h' hl
        exact ⟨_, rfl, rfl, rfl⟩
      | e :: s1 =>
        by_cases he : e = '='
        · subst he
          simp only [beq_self_eq_true, if_true]
          cases hl with
          | flags h1 ht1 hl1 =>
            exfalso
            cases hl1 with
            | flag h' => exact not_eq_letter hp _ h'
            | flags h' => exact not_eq_letter hp _ h'
            | text h' => exact not_eq_letter hp _ h'
            | textEq h' => exact not_eq_letter hp _ h'
            | awaits h' => exact not_eq_letter hp _ h'
            | left h' => exact not_eq_letter hp _ h'
          | text h1 ht1 hs1 hq1 => simp at hq1
          | textEq h1 ht1 =>
            cases h1.unique hp h'
            rw [useExplicit_sep.2 ⟨ht1, rfl⟩]
            exact ⟨_, rfl, rfl, rfl⟩
          | left h1 ht1 hd1 hq1 => exact absurd rfl hq1
        · have he' : (e == '=') = false := by simpa using he
          simp only [he', Bool.false_eq_true, if_false]
          obtain ⟨r, hr, rfl, rfl⟩ := ih rfl h' (by simp) (by simpa using he)
          rw [hr]
          exact ⟨_, rfl, rfl, rfl⟩
  | @text c0 o0 s0 h ht hs0 hq0 =>
    rintro c s' o he ho hs hq
    simp only [List.cons.injEq] at he
    obtain ⟨rfl, rfl⟩ := he
    cases ho.unique hp h
    match s0, hs with
    | d :: s, _ =>
      refine ⟨_, by unfold useExplicit; simp only [ht, if_true]; rfl, rfl, rfl⟩
  | textEq h ht =>
    rintro c s' o he ho hs hq
    simp only [List.cons.injEq] at he
    obtain ⟨rfl, rfl⟩ := he
    simp at hq
  | awaits h ht =>
    intro c s' o he _ hs _
    simp at he
    exact absurd he.2 hs
  | @left c0 o0 d s0 h ht hd hq0 hn =>
    rintro c s' o he ho hs hq
    simp only [List.cons.injEq] at he
    obtain ⟨rfl, rfl⟩ := he
    cases ho.unique hp h
    have hd' : (d == '-') = false := by simpa using hd
    unfold useExplicit
    simp only [ht, Bool.false_eq_true, if_false, Bool.false_or, hd', (named_none hp).2 hn]
    exact ⟨_, rfl, rfl, rfl⟩

/-- The options in an argument that begins with a letter which is an option. -/
theorem use_letter (hp : WellNamed p) {c : Char} {s : Str} {o : CliOpt} (h : HasName p ['-', c] o)
    {ps : List Piece} {w : Option CliOpt} :
    Letters p (c :: s) ps w ↔ ∃ u r, parseOptional t p ('-' :: c :: s) = .ok (some u) ∧
      useOption p u = .ok r ∧ r.pieces = ps ∧ r.awaits = w := by
  rw [parse_letter hp h]
  simp only [Except.ok.injEq, Option.some.injEq, exists_and_left, exists_eq_left']
  match s with
  | [] =>
    simp only [useOption, Except.ok.injEq, exists_eq_left']
    constructor
    · intro hl
      obtain ⟨rfl, rfl⟩ := letters_single hp h hl
      exact ⟨rfl, rfl⟩
    · rintro ⟨rfl, rfl⟩
      exact useAlone_letters h
  | d :: s' =>
    by_cases hd : d = '='
    · subst hd
      simp only [if_true, useOption, useExplicit_sep]
      constructor
      · intro hl
        cases hl with
        | flags h1 ht1 hl1 =>
          exfalso
          cases hl1 with
          | flag h' => exact not_eq_letter hp _ h'
          | flags h' => exact not_eq_letter hp _ h'
          | text h' => exact not_eq_letter hp _ h'
          | textEq h' => exact not_eq_letter hp _ h'
          | awaits h' => exact not_eq_letter hp _ h'
          | left h' => exact not_eq_letter hp _ h'
        | text h1 ht1 hs1 hq1 => simp at hq1
        | textEq h1 ht1 =>
          cases h1.unique hp h
          exact ⟨_, ⟨ht1, rfl⟩, rfl, rfl⟩
        | left h1 ht1 hd1 hq1 => exact absurd rfl hq1
      · rintro ⟨r, ⟨ht, rfl⟩, rfl, rfl⟩
        exact .textEq h ht
    · simp only [if_neg hd, useOption]
      constructor
      · intro hl
        exact letters_useExplicit hp hl rfl h (by simp) (by simpa using hd)
      · rintro ⟨r, hr, rfl, rfl⟩
        exact useExplicit_letters hp h (by simp) (by simpa using hd) hr

theorem useAlone_iff {o : CliOpt} {ps : List Piece} {w : Option CliOpt} :
    (useAlone o).pieces = ps ∧ (useAlone o).awaits = w ↔
      (o.takes = false ∧ ps = [.option o none] ∧ w = none) ∨ (o.takes = true ∧ ps = [] ∧ w = some o) := by
  unfold useAlone
  by_cases h : o.takes = true <;> simp [h, Uses.pieces, eq_comm]

/-- The options in one argument. -/
theorem options_iff (hp : WellNamed p) {a : Str} (ha : a ≠ ['-', '-']) {ps : List Piece}
    {w : Option CliOpt} :
    Options t p a ps w ↔ ∃ u r, parseOptional t p a = .ok (some u) ∧ useOption p u = .ok r ∧
      r.pieces = ps ∧ r.awaits = w := by
  have hlet : ∀ {s ps w}, Letters p s ps w → ∃ c s', s = c :: s' ∧ c ≠ '-' ∧ ∃ o, HasName p ['-', c] o := by
    intro s ps w hl
    have : ∀ {c o}, HasName p ['-', c] o → c ≠ '-' := fun h => by
      rintro rfl
      exact not_dashes hp _ h
    cases hl with
    | flag h' => exact ⟨_, _, rfl, this h', _, h'⟩
    | flags h' => exact ⟨_, _, rfl, this h', _, h'⟩
    | text h' => exact ⟨_, _, rfl, this h', _, h'⟩
    | textEq h' => exact ⟨_, _, rfl, this h', _, h'⟩
    | awaits h' => exact ⟨_, _, rfl, this h', _, h'⟩
    | left h' => exact ⟨_, _, rfl, this h', _, h'⟩
  have hunk : ∀ {a : Str}, a.head? = some '-' → a ≠ ['-'] → a ≠ ['-', '-'] → NoOption p a →
      (IsUnknown t p a ∧ ps = [.extra a] ∧ w = none ↔ ∃ u r, fallback t a = .ok (some u) ∧
        useOption p u = .ok r ∧ r.pieces = ps ∧ r.awaits = w) := by
    intro a h1 h2 h3 h4
    rw [isUnknown_dash h1 h2 h3]
    simp only [fallback_some]
    constructor
    · rintro ⟨⟨-, h5, h6⟩, rfl, rfl⟩
      exact ⟨_, _, ⟨rfl, h5, h6⟩, rfl, rfl, rfl⟩
    · rintro ⟨u, r, ⟨rfl, h5, h6⟩, hr, rfl, rfl⟩
      simp only [useOption, Except.ok.injEq] at hr
      subst hr
      exact ⟨⟨h4, h5, h6⟩, rfl, rfl⟩
  rcases arg_cases a with h | rfl | ⟨c, s, rfl, hc⟩ | h | ⟨n, rfl, hn, he⟩ | ⟨n, v, rfl, he⟩
  · rw [parse_no_dash h]
    simp only [Except.ok.injEq, reduceCtorEq, false_and, exists_false, iff_false]
    intro ho
    cases ho with
    | unknown hu => exact h hu.1
    | _ => simp at h
  · rw [parse_dash hp]
    simp only [Except.ok.injEq, reduceCtorEq, false_and, exists_false, iff_false]
    intro ho
    cases ho with
    | letters hl => nomatch hl
    | unknown hu => exact hu.2.1 rfl
  · by_cases h : ∃ o, HasName p ['-', c] o
    · obtain ⟨o, h⟩ := h
      rw [← use_letter hp h]
      constructor
      · intro ho
        cases ho with
        | letters hl => exact hl
        | long => exact absurd rfl hc
        | longAwaits => exact absurd rfl hc
        | longText => exact absurd rfl hc
        | unknown hu => exact absurd h (hu.2.2.2.1.1 _ _ rfl _)
      · exact .letters
    · have h' : ∀ o, ¬ HasName p ['-', c] o := fun o ho => h ⟨o, ho⟩
      rw [parse_no_letter hp hc h', ← hunk (by simp) (by simp) ha ((noOption_letter hc).2 h')]
      constructor
      · intro ho
        cases ho with
        | letters hl =>
          obtain ⟨c', s', he, -, ho⟩ := hlet hl
          simp at he
          rw [← he.1] at ho
          exact absurd ho h
        | long => exact absurd rfl hc
        | longAwaits => exact absurd rfl hc
        | longText => exact absurd rfl hc
        | unknown hu => exact ⟨hu, rfl, rfl⟩
      · rintro ⟨hu, rfl, rfl⟩
        exact .unknown hu
  · exact absurd h ha
  · have inv : Options t p ('-' :: '-' :: n) ps w ↔
        (∃ o, StandsFor p ('-' :: '-' :: n) o ∧ ((o.takes = false ∧ ps = [.option o none] ∧ w = none) ∨
          (o.takes = true ∧ ps = [] ∧ w = some o))) ∨
        (IsUnknown t p ('-' :: '-' :: n) ∧ ps = [.extra ('-' :: '-' :: n)] ∧ w = none) := by
      constructor
      · generalize hx : '-' :: '-' :: n = x
        intro ho
        cases ho with
        | letters hl =>
          obtain ⟨c', s', rfl, hc, -⟩ := hlet hl
          simp at hx
          exact absurd hx.1.symm hc
        | long h1 h2 h3 h4 => exact Or.inl ⟨_, h3, Or.inl ⟨h4, rfl, rfl⟩⟩
        | longAwaits h1 h2 h3 h4 => exact Or.inl ⟨_, h3, Or.inr ⟨h4, rfl, rfl⟩⟩
        | longText h1 h2 h3 =>
          simp at hx
          rw [hx] at he
          simp at he
        | unknown hu => exact Or.inr ⟨hu, rfl, rfl⟩
      · rintro (⟨o, h1, ⟨h2, rfl, rfl⟩ | ⟨h2, rfl, rfl⟩⟩ | ⟨hu, rfl, rfl⟩)
        · exact .long hn he h1 h2
        · exact .longAwaits hn he h1 h2
        · exact .unknown hu
    rw [inv]
    rcases parse_long (t := t) hp hn he with ⟨o, h1, h2⟩ | ⟨h1, h0, h3⟩ | ⟨h1, h2⟩
    · rw [h2]
      simp only [Except.ok.injEq, Option.some.injEq, exists_and_left, exists_eq_left', useOption,
        useAlone_iff]
      have hno : ¬ NoOption p ('-' :: '-' :: n) := by
        rw [noOption_long hp he]
        intro h
        rcases h1 with h1 | ⟨-, m, h1, h3, -⟩
        · exact h _ _ h1 (List.prefix_refl _)
        · exact h _ _ h1 h3
      constructor
      · rintro (⟨o', h3, h4⟩ | ⟨hu, -⟩)
        · cases h3.unique hp h1
          exact h4
        · exact absurd hu.2.2.2.1 hno
      · intro h
        exact Or.inl ⟨o, h1, h⟩
    · rw [h3]
      simp only [reduceCtorEq, false_and, exists_false, iff_false]
      rintro (⟨o', h3, h4⟩ | ⟨hu, -⟩)
      · exact h0 _ h3
      · obtain ⟨n', he', h5, -, m, o, m', o', h6, -, -, h7, -⟩ := h1
        have : n' = n := by
          rcases h5 with ⟨h0, -⟩ | ⟨v, h0⟩ <;> simp at h0
          · exact h0.symm
          · rw [h0] at he
            simp at he
        subst this
        exact (noOption_long hp he).1 hu.2.2.2.1 _ _ h6 h7
    · rw [h2, ← hunk (by simp) (by simp) ha ((noOption_long hp he).2 h1)]
      constructor
      · rintro (⟨o', h3, h4⟩ | hu)
        · rcases h3 with h3 | ⟨-, m, h3, h4, -⟩
          · exact absurd (List.prefix_refl _) (h1 _ _ h3)
          · exact absurd h4 (h1 _ _ h3)
        · exact hu
      · exact Or.inr
  · have inv : Options t p ('-' :: '-' :: (n ++ '=' :: v)) ps w ↔
        (∃ o, StandsFor p ('-' :: '-' :: n) o ∧ o.takes = true ∧ ps = [.option o (some v)] ∧ w = none) ∨
        (IsUnknown t p ('-' :: '-' :: (n ++ '=' :: v)) ∧
          ps = [.extra ('-' :: '-' :: (n ++ '=' :: v))] ∧ w = none) := by
      constructor
      · generalize hx : '-' :: '-' :: (n ++ '=' :: v) = x
        intro ho
        cases ho with
        | letters hl =>
          obtain ⟨c', s', rfl, hc, -⟩ := hlet hl
          simp at hx
          exact absurd hx.1.symm hc
        | long h1 h2 h3 h4 =>
          simp at hx
          rw [← hx] at h2
          simp at h2
        | longAwaits h1 h2 h3 h4 =>
          simp at hx
          rw [← hx] at h2
          simp at h2
        | longText h1 h2 h3 =>
          simp only [List.cons.injEq, true_and] at hx
          obtain ⟨rfl, rfl⟩ := eq_split_unique he h1 hx
          exact Or.inl ⟨_, h2, h3, rfl, rfl⟩
        | unknown hu => exact Or.inr ⟨hu, rfl, rfl⟩
      · rintro (⟨o, h1, h2, rfl, rfl⟩ | ⟨hu, rfl, rfl⟩)
        · exact .longText he h1 h2
        · exact .unknown hu
    rw [inv]
    rcases parse_long_eq (t := t) (v := v) hp he with ⟨o, h1, h2⟩ | ⟨h1, h0, h3⟩ | ⟨h1, h2⟩
    · rw [h2]
      simp only [Except.ok.injEq, Option.some.injEq, exists_and_left, exists_eq_left', useOption,
        useExplicit_long]
      have hno : ¬ NoOption p ('-' :: '-' :: (n ++ '=' :: v)) := by
        rw [noOption_long_eq hp he]
        intro h
        rcases h1 with h1 | ⟨-, m, h1, h3, -⟩
        · exact h _ _ h1 (List.prefix_refl _)
        · exact h _ _ h1 h3
      constructor
      · rintro (⟨o', h3, h4, rfl, rfl⟩ | ⟨hu, -⟩)
        · cases h3.unique hp h1
          exact ⟨_, ⟨h4, rfl⟩, rfl, rfl⟩
        · exact absurd hu.2.2.2.1 hno
      · rintro ⟨r, ⟨h3, rfl⟩, rfl, rfl⟩
        exact Or.inl ⟨o, h1, h3, rfl, rfl⟩
    · rw [h3]
      simp only [reduceCtorEq, false_and, exists_false, iff_false]
      rintro (⟨o', h3, h4⟩ | ⟨hu, -⟩)
      · exact h0 _ h3
      · obtain ⟨n', he', h5, -, m, o, m', o', h6, -, -, h7, -⟩ := h1
        have : n' = n := by
          rcases h5 with ⟨h0, -⟩ | ⟨v, h0⟩
          · simp at h0
            rw [← h0] at he'
            simp at he'
          · simp only [List.cons.injEq, true_and] at h0
            exact (eq_split_unique he he' h0).1.symm
        subst this
        exact (noOption_long_eq hp he).1 hu.2.2.2.1 _ _ h6 h7
    · rw [h2, ← hunk (by simp) (by simp) ha ((noOption_long_eq hp he).2 h1)]
      constructor
      · rintro (⟨o', h3, h4⟩ | hu)
        · rcases h3 with h3 | ⟨-, m, h3, h5, -⟩
          · exact absurd (List.prefix_refl _) (h1 _ _ h3)
          · exact absurd h5 (h1 _ _ h3)
        · exact hu
      · exact Or.inr

end Punx

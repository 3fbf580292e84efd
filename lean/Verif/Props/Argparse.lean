import Verif.Lemmas.Argparse5

/-!
# Reading the arguments of a sub-command

The arguments of a sub-command are read exactly as the grammar of `Spec/Argparse.lean` says: they are
accepted exactly if they consist of pieces of the grammar, with the words that the command wants; help
is shown exactly if it is asked for before anything that is wrong; everything else is an error.
-/

namespace Punx

variable {t : Texts} {p : CliParser}

/-- The result of reading arguments whose pieces are known. -/
theorem known_consists (hp : WellNamed p) (hr : p.rest ≠ .command) {args : List Str} {ps : List Piece}
    (h : Consists t p args ps) :
    parseKnown t p args =
      match checkPieces t ps with
      | .error e => .error e
      | .ok () =>
        if p.rest == .one && (feed p.rest (.fresh, .empty) ps).2.words.isEmpty then .error (.systemExit 2)
        else .ok (feed p.rest (.fresh, .empty) ps).2 := by
  obtain ⟨is, h1, h2⟩ := consists_gather hp h
  unfold parseKnown
  rw [h1]
  simp only
  rw [eat_gather hr h2]
  cases checkPieces t ps <;> rfl

theorem wordsFor_iff (hr : p.rest ≠ .command) {ps : List Piece} (ha : WordsAfter ps) {ws : List Str} :
    ((p.rest == .one && (feed p.rest (.fresh, .empty) ps).2.words.isEmpty) = false ∧
      (feed p.rest (.fresh, .empty) ps).2.extras = [] ∧
      (feed p.rest (.fresh, .empty) ps).2.words = ws) ↔ WordsFor p.rest ps ws := by
  unfold WordsFor
  cases hq : p.rest with
  | command => exact absurd hq hr
  | none =>
    have := feed_closed (rest := .none) (ph := .fresh) (s := .empty) (ps := ps) (Or.inl rfl) rfl
    rw [this.1, this.2]
    exact ⟨fun h => ⟨h.2.1, h.2.2.symm⟩, fun h => ⟨rfl, h.1, h.2.symm⟩⟩
  | one =>
    rw [← feed_one (s := .empty) rfl rfl ha]
    constructor
    · rintro ⟨h1, h2, rfl⟩
      exact ⟨h2, rfl, by simpa using h1⟩
    · rintro ⟨h1, rfl, h2⟩
      exact ⟨by simpa using h2, h1, rfl⟩
  | many =>
    rw [← feed_many (s := .empty) rfl rfl]
    simp

/-- Arguments are accepted exactly if they consist of pieces none of which leaves the program, with the
words that are wanted. -/
theorem known_iff (hp : WellNamed p) (hr : p.rest ≠ .command) {args : List Str} {ws : List Str}
    {ds : List (CliOpt × Option Str)} :
    (∃ s, parseKnown t p args = .ok s ∧ s.extras = [] ∧ s.words = ws ∧ s.options = ds) ↔
      ∃ ps, Consists t p args ps ∧ (∀ x ∈ ps, x.Fine t) ∧ WordsFor p.rest ps ws ∧ ds = optionsOf ps := by
  constructor
  · rintro ⟨s, h, h1, h2, rfl⟩
    have h0 := h
    unfold parseKnown at h0
    cases hc : classify t p args with
    | error e => rw [hc] at h0; simp at h0
    | ok is =>
      rw [hc] at h0
      simp only at h0
      rcases gather_or (t := t) hr is with ⟨ps, hg⟩ | ⟨i, j, ps, -, -, he, -⟩
      · have hcon := gather_consists hp hg hc
        rw [known_consists hp hr hcon] at h
        cases hk : checkPieces t ps with
        | error e => rw [hk] at h; simp at h
        | ok _ =>
          rw [hk] at h
          simp only at h
          split at h
          · simp at h
          · rename_i hb
            simp only [Except.ok.injEq] at h
            subst h
            refine ⟨ps, hcon, check_ok_iff.1 hk, ?_, ?_⟩
            · exact (wordsFor_iff hr (consists_wordsAfter hcon)).1 ⟨by simpa using hb, h1, h2⟩
            · rw [feed_options_all]
              simp [Seen.empty]
      · rw [he] at h0
        cases hk : checkPieces t ps <;> rw [hk] at h0 <;> simp at h0
  · rintro ⟨ps, hcon, hf, hw, rfl⟩
    obtain ⟨h1, h2, h3⟩ := (wordsFor_iff hr (consists_wordsAfter hcon)).2 hw
    refine ⟨(feed p.rest (.fresh, .empty) ps).2, ?_, h2, h3, ?_⟩
    · rw [known_consists hp hr hcon, check_ok_iff.2 hf]
      simp only [h1, Bool.false_eq_true, if_false]
    · rw [feed_options_all]
      simp [Seen.empty]

theorem classify_split (hp : WellNamed p) {i j : List CliItem} : ∀ {args : List Str},
    classify t p args = .ok (i ++ j) → ∃ pre post, args = pre ++ post ∧ classify t p pre = .ok i := by
  induction i with
  | nil =>
    intro args _
    exact ⟨[], args, rfl, rfl⟩
  | cons x i ih =>
    intro args h
    rw [List.cons_append] at h
    rcases classify_inv hp h with ⟨-, h'⟩ | ⟨as, rfl, h'⟩ | ⟨a, as, is', rfl, h', h1, h2⟩ |
      ⟨a, as, u, is', rfl, ha, h', h1, h2⟩
    · simp at h'
    · simp only [List.cons.injEq] at h'
      obtain ⟨rfl, h'⟩ := h'
      obtain ⟨as1, as2, rfl, rfl, -⟩ := List.append_eq_map_iff.1 h'
      exact ⟨['-', '-'] :: as1, as2, rfl, classify_dashes as1⟩
    · simp only [List.cons.injEq] at h'
      obtain ⟨rfl, rfl⟩ := h'
      obtain ⟨pre, post, rfl, h3⟩ := ih h2
      have ha : a ≠ ['-', '-'] := by
        rintro rfl
        exact isWord_not_dashes h1
      refine ⟨a :: pre, post, rfl, ?_⟩
      rw [classify_cons ha, (parse_word_iff hp ha).2 h1, h3]
    · simp only [List.cons.injEq] at h'
      obtain ⟨rfl, rfl⟩ := h'
      obtain ⟨pre, post, rfl, h3⟩ := ih h2
      refine ⟨a :: pre, post, rfl, ?_⟩
      rw [classify_cons ha, h1, h3]

theorem classify_append {pre post : List Str} {i is : List CliItem}
    (h1 : classify t p pre = .ok i) (h2 : classify t p (pre ++ post) = .ok is) : ∃ j, is = i ++ j := by
  induction pre generalizing i is with
  | nil =>
    simp only [classify, Except.ok.injEq] at h1
    subst h1
    exact ⟨is, rfl⟩
  | cons a pre ih =>
    by_cases ha : a = ['-', '-']
    · subst ha
      rw [classify_dashes, Except.ok.injEq] at h1
      rw [List.cons_append, classify_dashes, Except.ok.injEq] at h2
      subst h1 h2
      exact ⟨post.map .word, by simp⟩
    · rw [classify_cons ha] at h1
      rw [List.cons_append, classify_cons ha] at h2
      cases hx : parseOptional t p a with
      | error e => rw [hx] at h1; simp at h1
      | ok x =>
        rw [hx] at h1 h2
        cases h3 : classify t p pre with
        | error e => rw [h3] at h1; cases x <;> simp at h1
        | ok i' =>
          cases h4 : classify t p (pre ++ post) with
          | error e => rw [h4] at h2; cases x <;> simp at h2
          | ok is' =>
            obtain ⟨j, rfl⟩ := ih h3 h4
            rw [h3] at h1
            rw [h4] at h2
            refine ⟨j, ?_⟩
            cases x <;> simp only [Except.ok.injEq] at h1 h2 <;> rw [← h1, ← h2] <;> rfl

/-- Help is shown exactly if no argument is ambiguous and help is asked for before anything is wrong. -/
theorem known_help_iff (hp : WellNamed p) (hr : p.rest ≠ .command) {args : List Str} :
    parseKnown t p args = .error (.systemExit 0) ↔
      (∀ a ∈ beforeDashes args, ¬ Ambiguous p a) ∧
      ∃ pre post ps, args = pre ++ post ∧ Consists t p pre ps ∧ AsksHelp t ps := by
  rw [← classify_ok_iff (t := t) hp]
  constructor
  · intro h
    unfold parseKnown at h
    cases hc : classify t p args with
    | error e =>
      rw [hc] at h
      have := classify_error hp hc
      subst this
      simp at h
    | ok is =>
      refine ⟨⟨is, rfl⟩, ?_⟩
      rw [hc] at h
      simp only at h
      rcases gather_or (t := t) hr is with ⟨ps, hg⟩ | ⟨i, j, ps, rfl, hg, he, -⟩
      · rw [eat_gather hr hg] at h
        refine ⟨args, [], ps, by simp, gather_consists hp hg hc, check_help_iff.1 ?_⟩
        cases hk : checkPieces t ps with
        | error e =>
          rw [hk] at h
          simpa using h
        | ok _ =>
          rw [hk] at h
          simp only at h
          split at h <;> simp at h
      · rw [he] at h
        obtain ⟨pre, post, rfl, h3⟩ := classify_split hp hc
        refine ⟨pre, post, ps, rfl, gather_consists hp hg h3, check_help_iff.1 ?_⟩
        cases hk : checkPieces t ps with
        | error e =>
          rw [hk] at h
          simpa using h
        | ok _ => rw [hk] at h; simp at h
  · rintro ⟨⟨is, hc⟩, pre, post, ps, rfl, hcon, hh⟩
    obtain ⟨i, h1, h2⟩ := consists_gather hp hcon
    obtain ⟨j, rfl⟩ := classify_append h1 hc
    unfold parseKnown
    rw [hc]
    simp only
    rw [eat_prefix hr h2 j .fresh .empty (check_help_iff.2 hh)]

/-- Everything else is an error of the arguments. -/
theorem known_error (hp : WellNamed p) (hr : p.rest ≠ .command) {args : List Str} {e : PyErr}
    (h : parseKnown t p args = .error e) : e = .systemExit 0 ∨ e = .systemExit 2 := by
  unfold parseKnown at h
  cases hc : classify t p args with
  | error e' =>
    rw [hc] at h
    simp only [Except.error.injEq] at h
    subst h
    exact Or.inr (classify_error hp hc)
  | ok is =>
    rw [hc] at h
    simp only at h
    have hsplit : ∀ (x : Except PyErr Seen), (∀ e', x = .error e' → e' = .systemExit 0 ∨ e' = .systemExit 2) →
        (match x with
        | .error e => .error e
        | .ok s => if p.rest == .one && s.words.isEmpty then .error (.systemExit 2) else .ok s) =
          (.error e : Except PyErr Seen) → e = .systemExit 0 ∨ e = .systemExit 2 := by
      intro x hx h
      cases x with
      | error e' =>
        simp only [Except.error.injEq] at h
        subst h
        exact hx _ rfl
      | ok s =>
        simp only at h
        split at h
        · simp only [Except.error.injEq] at h
          exact Or.inr h.symm
        · simp at h
    refine hsplit _ ?_ h
    intro e' he'
    rcases gather_or (t := t) hr is with ⟨ps, hg⟩ | ⟨i, j, ps, rfl, hg, he, -⟩
    · rw [eat_gather hr hg] at he'
      cases hk : checkPieces t ps with
      | error e =>
        rw [hk] at he'
        simp only [Except.error.injEq] at he'
        subst he'
        exact check_error hk
      | ok _ => rw [hk] at he'; simp at he'
    · rw [he] at he'
      cases hk : checkPieces t ps with
      | error e =>
        rw [hk] at he'
        simp only [Except.error.injEq] at he'
        subst he'
        exact check_error hk
      | ok _ =>
        rw [hk] at he'
        simp only [Except.error.injEq] at he'
        exact Or.inr he'.symm

end Punx

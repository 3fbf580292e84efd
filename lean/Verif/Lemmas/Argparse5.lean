import Verif.Lemmas.Argparse4

/-!
# Lemmas about reading arguments: words and what is left over
-/

namespace Punx

variable {t : Texts} {p : CliParser}

theorem feed_options_all (rest : Rest) (x : Phase × Seen) (ps : List Piece) :
    (feed rest x ps).2.options = x.2.options ++ optionsOf ps := by
  induction ps generalizing x with
  | nil => simp [optionsOf]
  | cons a ps ih =>
    rw [feed_cons, ih]
    obtain ⟨ph, s⟩ := x
    cases a with
    | option o v => simp [step, optionsOf]
    | extra w => simp [step, optionsOf]
    | word w => cases rest <;> cases ph <;> simp [step, optionsOf]
    | dashes => cases rest <;> cases ph <;> simp [step, optionsOf]

theorem step_extras (rest : Rest) (x : Phase × Seen) (a : Piece) (h : x.2.extras ≠ []) :
    (step rest x a).2.extras ≠ [] := by
  obtain ⟨ph, s⟩ := x
  cases a with
  | option o v => exact h
  | extra w => simp [step]
  | word w => cases rest <;> cases ph <;> simp_all [step]
  | dashes => cases rest <;> cases ph <;> simp_all [step]

theorem feed_extras (rest : Rest) (x : Phase × Seen) (ps : List Piece) (h : x.2.extras ≠ []) :
    (feed rest x ps).2.extras ≠ [] := by
  induction ps generalizing x with
  | nil => exact h
  | cons a ps ih => exact ih _ (step_extras rest x a h)

/-- No words can come any more. -/
def Closed (rest : Rest) (ph : Phase) : Prop := rest = .none ∨ ph = .done

theorem Closed.close {rest : Rest} {ph : Phase} (h : Closed rest ph) : Closed rest ph.close := by
  rcases h with h | h
  · exact Or.inl h
  · exact Or.inr (by rw [h]; rfl)

theorem onlyOptions_cons {a : Piece} {ps : List Piece} :
    OnlyOptions (a :: ps) ↔ (∃ o v, a = .option o v) ∧ OnlyOptions ps := by
  unfold OnlyOptions
  rw [List.forall_mem_cons]

theorem onlyOptions_append {as bs : List Piece} :
    OnlyOptions (as ++ bs) ↔ OnlyOptions as ∧ OnlyOptions bs := by
  unfold OnlyOptions
  rw [List.forall_mem_append]

theorem onlyOptions_nil : OnlyOptions [] := fun _ h => by simp at h

theorem feed_closed {rest : Rest} {ph : Phase} {s : Seen} {ps : List Piece} (hc : Closed rest ph)
    (hs : s.extras = []) :
    ((feed rest (ph, s) ps).2.extras = [] ↔ OnlyOptions ps) ∧
      (feed rest (ph, s) ps).2.words = s.words := by
  induction ps generalizing ph s with
  | nil => simp [hs, onlyOptions_nil]
  | cons a ps ih =>
    have hbad : ∀ x : Phase × Seen, x.2.extras ≠ [] → (¬ ∃ o v, a = .option o v) →
        ((feed rest x ps).2.extras = [] ↔ OnlyOptions (a :: ps)) := by
      intro x h1 h2
      simp [feed_extras rest x ps h1, onlyOptions_cons, h2]
    have hw : ∀ (x : Phase × Seen), Closed rest x.1 → x.2.words = s.words →
        (feed rest x ps).2.words = s.words := by
      clear ih hbad
      induction ps with
      | nil => intro x _ h; exact h
      | cons b ps ih2 =>
        rintro ⟨ph', s'⟩ h1 h2
        rw [feed_cons]
        refine ih2 _ ?_ ?_
        · cases b with
          | option o v => exact h1.close
          | extra w => exact h1.close
          | word w =>
            rcases h1 with h1 | h1
            · exact Or.inl h1
            · simp only at h1
              subst h1
              right
              cases rest <;> rfl
          | dashes =>
            rcases h1 with h1 | h1
            · exact Or.inl h1
            · simp only at h1
              subst h1
              right
              cases rest <;> rfl
        · cases b with
          | option o v => exact h2
          | extra w => exact h2
          | word w =>
            rcases h1 with h1 | h1
            · subst h1
              exact h2
            · simp only at h1
              subst h1
              cases rest <;> exact h2
          | dashes =>
            rcases h1 with h1 | h1
            · subst h1
              exact h2
            · simp only at h1
              subst h1
              cases rest <;> exact h2
    rw [feed_cons]
    cases a with
    | option o v =>
      have := ih (ph := ph.close) (s := { s with options := s.options ++ [(o, v)] }) hc.close hs
      simp only [step]
      refine ⟨?_, this.2⟩
      rw [this.1, onlyOptions_cons]
      simp
    | extra w =>
      refine ⟨hbad _ ?_ (by simp), hw _ ?_ ?_⟩
      · simp [step]
      · exact hc.close
      · rfl
    | word w =>
      have h1 : (step rest (ph, s) (.word w)) = (ph.close, { s with extras := s.extras ++ [w] }) := by
        rcases hc with rfl | rfl
        · rfl
        · cases rest <;> rfl
      rw [h1]
      exact ⟨hbad _ (by simp) (by simp), hw _ hc.close rfl⟩
    | dashes =>
      have h1 : (step rest (ph, s) .dashes) = (ph, { s with extras := s.extras ++ [s%"--"] }) := by
        rcases hc with rfl | rfl
        · rfl
        · cases rest <;> rfl
      rw [h1]
      exact ⟨hbad _ (by simp) (by simp), hw _ hc rfl⟩

/-- After `--` there are only words. -/
def WordsAfter (ps : List Piece) : Prop :=
  ∀ as bs, ps = as ++ .dashes :: bs → ∀ x ∈ bs, ∃ w, x = .word w

theorem WordsAfter.tail {a : Piece} {ps : List Piece} (h : WordsAfter (a :: ps)) : WordsAfter ps :=
  fun as bs he => h (a :: as) bs (by rw [he]; rfl)

theorem consists_wordsAfter {args : List Str} {ps : List Piece} (h : Consists t p args ps) :
    WordsAfter ps := by
  have hopt : ∀ {a qs w}, Options t p a qs w → .dashes ∉ qs := by
    have hl : ∀ {s qs w}, Letters p s qs w → .dashes ∉ qs := by
      intro s qs w h
      induction h with
      | flags _ _ _ ih => simpa using ih
      | _ => simp
    intro a qs w h
    cases h with
    | letters h => exact hl h
    | _ => simp
  have hpre : ∀ {qs ps : List Piece}, .dashes ∉ qs → WordsAfter ps → WordsAfter (qs ++ ps) := by
    intro qs ps hq hw as bs he
    rcases List.append_eq_append_iff.1 he with ⟨as', h1, h2⟩ | ⟨cs, h1, h2⟩
    · exact hw _ _ h2
    · cases cs with
      | nil =>
        simp only [List.nil_append] at h2
        exact hw [] bs h2.symm
      | cons c cs =>
        simp only [List.cons_append, List.cons.injEq] at h2
        rw [h1, ← h2.1] at hq
        simp at hq
  induction h with
  | nil =>
    intro as bs he
    simp at he
  | word _ _ ih => exact hpre (qs := [.word _]) (by simp) ih
  | options h _ ih => exact hpre (hopt h) ih
  | @optionsText a v as qs o ps h _ _ ih =>
    rw [show qs ++ .option o (some v) :: ps = (qs ++ [.option o (some v)]) ++ ps by simp]
    exact hpre (by simpa using hopt h) ih
  | @dashes as' =>
    intro as bs he
    have hb : ∀ x ∈ bs, x ∈ as'.map Piece.word := by
      intro x hx
      cases as with
      | nil =>
        simp only [List.nil_append, List.cons.injEq, true_and] at he
        rw [he]
        exact hx
      | cons a as =>
        simp only [List.cons_append, List.cons.injEq] at he
        rw [he.2]
        simp [hx]
    intro x hx
    obtain ⟨w, -, rfl⟩ := List.mem_map.1 (hb x hx)
    exact ⟨w, rfl⟩

theorem feed_one_taking {s : Seen} {ps : List Piece} (hs : s.extras = []) :
    ((feed .one (.taking, s) ps).2.extras = [] ↔ OnlyOptions ps ∨
      ∃ qs, ps = .dashes :: qs ∧ OnlyOptions qs) ∧ (feed .one (.taking, s) ps).2.words = s.words := by
  cases ps with
  | nil => simp [hs, onlyOptions_nil]
  | cons a ps =>
    rw [feed_cons]
    cases a with
    | option o v =>
      have := feed_closed (rest := .one) (ph := .done) (s := { s with options := s.options ++ [(o, v)] })
        (ps := ps) (Or.inr rfl) hs
      refine ⟨?_, this.2⟩
      rw [onlyOptions_cons]
      simpa [step, Phase.close] using this.1
    | extra w =>
      have := feed_closed (rest := .one) (ph := .done) (s := s) (ps := .extra w :: ps) (Or.inr rfl) hs
      refine ⟨?_, this.2⟩
      rw [show step .one (.taking, s) (.extra w) = step .one (.done, s) (.extra w) from rfl, ← feed_cons,
        this.1]
      simp
    | word w =>
      have := feed_closed (rest := .one) (ph := .done) (s := s) (ps := .word w :: ps) (Or.inr rfl) hs
      refine ⟨?_, this.2⟩
      rw [show step .one (.taking, s) (.word w) = step .one (.done, s) (.word w) from rfl, ← feed_cons,
        this.1]
      simp
    | dashes =>
      have := feed_closed (rest := .one) (ph := .done) (s := s) (ps := ps) (Or.inr rfl) hs
      refine ⟨?_, this.2⟩
      rw [show step .one (.taking, s) .dashes = (.done, s) from rfl, this.1, onlyOptions_cons]
      simp

theorem oneWord_option {o : CliOpt} {v : Option Str} {ps : List Piece} {w : Str} :
    OneWord (.option o v :: ps) w ↔ OneWord ps w := by
  constructor
  · rintro ⟨as, bs, h1, h2, h3⟩
    cases as with
    | nil => rcases h3 with h3 | h3 | h3 <;> simp at h3
    | cons a as =>
      refine ⟨as, bs, (onlyOptions_cons.1 h1).2, h2, ?_⟩
      rcases h3 with h3 | h3 | h3 <;> simp only [List.cons_append, List.cons.injEq] at h3 <;>
        simp [h3.2]
  · rintro ⟨as, bs, h1, h2, h3⟩
    refine ⟨.option o v :: as, bs, onlyOptions_cons.2 ⟨⟨_, _, rfl⟩, h1⟩, h2, ?_⟩
    rcases h3 with h3 | h3 | h3 <;> simp [h3]

theorem oneWord_word {x : Str} {ps : List Piece} {w : Str} :
    OneWord (.word x :: ps) w ↔ x = w ∧ (OnlyOptions ps ∨ ∃ qs, ps = .dashes :: qs ∧ OnlyOptions qs) := by
  constructor
  · rintro ⟨as, bs, h1, h2, h3⟩
    cases as with
    | nil =>
      rcases h3 with h3 | h3 | h3 <;> simp at h3
      · exact ⟨h3.1, Or.inl (h3.2 ▸ h2)⟩
      · exact ⟨h3.1, Or.inr ⟨bs, h3.2, h2⟩⟩
    | cons a as =>
      obtain ⟨⟨o, v, rfl⟩, -⟩ := onlyOptions_cons.1 h1
      rcases h3 with h3 | h3 | h3 <;> simp at h3
  · rintro ⟨rfl, h | ⟨qs, rfl, h⟩⟩
    · exact ⟨[], ps, onlyOptions_nil, h, Or.inl rfl⟩
    · exact ⟨[], qs, onlyOptions_nil, h, Or.inr (Or.inr rfl)⟩

theorem oneWord_dashes {ps : List Piece} {w : Str} :
    OneWord (.dashes :: ps) w ↔ ∃ qs, ps = .word w :: qs ∧ OnlyOptions qs := by
  constructor
  · rintro ⟨as, bs, h1, h2, h3⟩
    cases as with
    | nil =>
      rcases h3 with h3 | h3 | h3 <;> simp at h3
      exact ⟨bs, h3, h2⟩
    | cons a as =>
      obtain ⟨⟨o, v, rfl⟩, -⟩ := onlyOptions_cons.1 h1
      rcases h3 with h3 | h3 | h3 <;> simp at h3
  · rintro ⟨qs, rfl, h⟩
    exact ⟨[], qs, onlyOptions_nil, h, Or.inr (Or.inl rfl)⟩

theorem oneWord_extra {x : Str} {ps : List Piece} {w : Str} : ¬ OneWord (.extra x :: ps) w := by
  rintro ⟨as, bs, h1, h2, h3⟩
  cases as with
  | nil => rcases h3 with h3 | h3 | h3 <;> simp at h3
  | cons a as =>
    obtain ⟨⟨o, v, rfl⟩, -⟩ := onlyOptions_cons.1 h1
    rcases h3 with h3 | h3 | h3 <;> simp at h3

theorem oneWord_nil {w : Str} : ¬ OneWord [] w := by
  rintro ⟨as, bs, h1, h2, h3⟩
  rcases h3 with h3 | h3 | h3 <;> simp at h3

/-- One word is read. -/
theorem feed_one {s : Seen} {ps : List Piece} (hs : s.extras = []) (hw : s.words = [])
    (ha : WordsAfter ps) (ws : List Str) :
    ((feed .one (.fresh, s) ps).2.extras = [] ∧ (feed .one (.fresh, s) ps).2.words = ws ∧ ws ≠ []) ↔
      ∃ w, ws = [w] ∧ OneWord ps w := by
  induction ps generalizing s with
  | nil =>
    simp only [feed_nil, oneWord_nil, and_false, exists_false, iff_false, hw]
    rintro ⟨-, rfl, h⟩
    exact h rfl
  | cons a ps ih =>
    rw [feed_cons]
    cases a with
    | option o v =>
      simp only [oneWord_option]
      exact ih (s := { s with options := s.options ++ [(o, v)] }) hs hw ha.tail
    | extra x =>
      simp only [oneWord_extra, and_false, exists_false, iff_false]
      rintro ⟨h, -⟩
      exact feed_extras _ _ ps (by simp [step]) h
    | word x =>
      have := feed_one_taking (s := { s with words := s.words ++ [x] }) (ps := ps) hs
      rw [show step .one (.fresh, s) (.word x) = (.taking, { s with words := s.words ++ [x] }) from rfl,
        this.1, this.2]
      simp only [oneWord_word, hw, List.nil_append]
      constructor
      · rintro ⟨h1, rfl, -⟩
        exact ⟨x, rfl, rfl, h1⟩
      · rintro ⟨w, rfl, rfl, h1⟩
        exact ⟨h1, rfl, by simp⟩
    | dashes =>
      have hall : ∀ x ∈ ps, ∃ w, x = .word w := ha [] ps rfl
      rw [show step .one (.fresh, s) .dashes = (.fresh, s) from rfl]
      simp only [oneWord_dashes]
      rw [ih hs hw ha.tail]
      constructor
      · rintro ⟨w, rfl, h⟩
        refine ⟨w, rfl, ?_⟩
        cases ps with
        | nil => exact absurd h oneWord_nil
        | cons b ps =>
          obtain ⟨x, rfl⟩ := hall b (by simp)
          obtain ⟨rfl, h | ⟨qs, rfl, h⟩⟩ := oneWord_word.1 h
          · exact ⟨ps, rfl, h⟩
          · obtain ⟨y, hy⟩ := hall .dashes (by simp)
            simp at hy
      · rintro ⟨w, rfl, qs, rfl, h⟩
        exact ⟨w, rfl, oneWord_word.2 ⟨rfl, Or.inl h⟩⟩

/-- Words without an option between them, from the beginning. -/
def RunThen (ps : List Piece) (ws : List Str) : Prop :=
  ∃ run bs, OnlyOptions bs ∧ (∀ x ∈ run, x = .dashes ∨ ∃ w, x = .word w) ∧ ps = run ++ bs ∧
    wordsOf run = ws

theorem feed_many_taking {s : Seen} {ps : List Piece} (hs : s.extras = []) (ws : List Str) :
    ((feed .many (.taking, s) ps).2.extras = [] ∧
      (feed .many (.taking, s) ps).2.words = s.words ++ ws) ↔ RunThen ps ws := by
  induction ps generalizing s ws with
  | nil =>
    simp only [feed_nil, hs, true_and]
    constructor
    · intro h
      have : ws = [] := by simpa using h
      subst this
      exact ⟨[], [], onlyOptions_nil, by simp, rfl, rfl⟩
    · rintro ⟨run, bs, -, -, h, rfl⟩
      simp only [List.nil_eq, List.append_eq_nil_iff] at h
      simp [h.1, wordsOf]
  | cons a ps ih =>
    rw [feed_cons]
    cases a with
    | option o v =>
      have := feed_closed (rest := .many) (ph := .done) (s := { s with options := s.options ++ [(o, v)] })
        (ps := ps) (Or.inr rfl) hs
      rw [show step .many (.taking, s) (.option o v) =
        (.done, { s with options := s.options ++ [(o, v)] }) from rfl, this.1, this.2]
      constructor
      · rintro ⟨h1, h2⟩
        have : ws = [] := by simpa using h2
        subst this
        exact ⟨[], .option o v :: ps, onlyOptions_cons.2 ⟨⟨_, _, rfl⟩, h1⟩, by simp, rfl, rfl⟩
      · rintro ⟨run, bs, h1, h2, h3, rfl⟩
        cases run with
        | nil =>
          simp only [List.nil_append] at h3
          rw [← h3] at h1
          exact ⟨(onlyOptions_cons.1 h1).2, by simp [wordsOf]⟩
        | cons x run =>
          simp only [List.cons_append, List.cons.injEq] at h3
          rcases h2 x (by simp) with h | ⟨w, h⟩ <;> rw [← h3.1] at h <;> simp at h
    | extra x =>
      constructor
      · rintro ⟨h, -⟩
        exact absurd h (feed_extras _ _ ps (by simp [step]))
      · rintro ⟨run, bs, h1, h2, h3, rfl⟩
        cases run with
        | nil =>
          simp only [List.nil_append] at h3
          rw [← h3] at h1
          simpa using (onlyOptions_cons.1 h1).1
        | cons x run =>
          simp only [List.cons_append, List.cons.injEq] at h3
          rcases h2 x (by simp) with h | ⟨w, h⟩ <;> rw [← h3.1] at h <;> simp at h
    | word x =>
      have hst : step .many (.taking, s) (.word x) = (.taking, { s with words := s.words ++ [x] }) := rfl
      rw [hst]
      constructor
      · rintro ⟨h1, h2⟩
        obtain ⟨ws', rfl⟩ : ∃ ws', ws = x :: ws' := by
          have hw : ∀ (ps : List Piece) (y : Phase × Seen), ∃ l, (feed .many y ps).2.words =
              y.2.words ++ l := by
            intro ps
            induction ps with
            | nil => intro y; exact ⟨[], by simp⟩
            | cons b ps ih =>
              intro y
              obtain ⟨l, hl⟩ := ih (step .many y b)
              obtain ⟨ph, s⟩ := y
              rw [feed_cons, hl]
              cases b with
              | option o v => exact ⟨l, rfl⟩
              | extra w => exact ⟨l, rfl⟩
              | word w =>
                cases ph
                · exact ⟨w :: l, by simp [step]⟩
                · exact ⟨w :: l, by simp [step]⟩
                · exact ⟨l, rfl⟩
              | dashes => cases ph <;> exact ⟨l, rfl⟩
          obtain ⟨l, hl⟩ := hw ps (.taking, { s with words := s.words ++ [x] })
          rw [hl] at h2
          simp only [List.append_assoc, List.append_cancel_left_eq, List.cons_append,
            List.nil_append] at h2
          exact ⟨l, h2.symm⟩
        obtain ⟨run, bs, h3, h4, rfl, rfl⟩ := (ih (s := { s with words := s.words ++ [x] }) hs ws').1
          ⟨h1, by rw [h2]; simp⟩
        refine ⟨.word x :: run, bs, h3, ?_, rfl, by simp [wordsOf]⟩
        intro y hy
        rcases List.mem_cons.1 hy with rfl | hy
        · exact Or.inr ⟨_, rfl⟩
        · exact h4 y hy
      · rintro ⟨run, bs, h1, h2, h3, rfl⟩
        cases run with
        | nil =>
          simp only [List.nil_append] at h3
          rw [← h3] at h1
          simpa using (onlyOptions_cons.1 h1).1
        | cons y run =>
          simp only [List.cons_append, List.cons.injEq] at h3
          obtain ⟨rfl, rfl⟩ := h3
          have := (ih (s := { s with words := s.words ++ [x] }) hs (wordsOf run)).2
            ⟨run, bs, h1, fun y hy => h2 y (by simp [hy]), rfl, rfl⟩
          refine ⟨this.1, ?_⟩
          rw [this.2]
          simp [wordsOf]
    | dashes =>
      rw [show step .many (.taking, s) .dashes = (.taking, s) from rfl, ih hs]
      constructor
      · rintro ⟨run, bs, h3, h4, rfl, rfl⟩
        refine ⟨.dashes :: run, bs, h3, ?_, rfl, by simp [wordsOf]⟩
        intro y hy
        rcases List.mem_cons.1 hy with rfl | hy
        · exact Or.inl rfl
        · exact h4 y hy
      · rintro ⟨run, bs, h1, h2, h3, rfl⟩
        cases run with
        | nil =>
          simp only [List.nil_append] at h3
          rw [← h3] at h1
          simpa using (onlyOptions_cons.1 h1).1
        | cons y run =>
          simp only [List.cons_append, List.cons.injEq] at h3
          obtain ⟨rfl, rfl⟩ := h3
          exact ⟨run, bs, h1, fun y hy => h2 y (by simp [hy]), rfl, by simp [wordsOf]⟩

theorem together_option {o : CliOpt} {v : Option Str} {ps : List Piece} {ws : List Str} :
    WordsTogether (.option o v :: ps) ws ↔ WordsTogether ps ws := by
  constructor
  · rintro ⟨as, run, bs, h1, h2, h3, h4, h5⟩
    cases as with
    | cons a as =>
      simp only [List.cons_append, List.cons.injEq] at h4
      exact ⟨as, run, bs, (onlyOptions_cons.1 h1).2, h2, h3, h4.2, h5⟩
    | nil =>
      cases run with
      | cons x run =>
        simp only [List.nil_append, List.cons_append, List.cons.injEq] at h4
        rcases h3 x (by simp) with h | ⟨w, h⟩ <;> rw [← h4.1] at h <;> simp at h
      | nil =>
        simp only [List.nil_append] at h4
        rw [← h4] at h2
        exact ⟨[], [], ps, onlyOptions_nil, (onlyOptions_cons.1 h2).2, by simp, rfl, h5⟩
  · rintro ⟨as, run, bs, h1, h2, h3, rfl, h5⟩
    exact ⟨.option o v :: as, run, bs, onlyOptions_cons.2 ⟨⟨_, _, rfl⟩, h1⟩, h2, h3, rfl, h5⟩

theorem together_run {a : Piece} (ha : ¬ ∃ o v, a = .option o v) {ps : List Piece} {ws : List Str} :
    WordsTogether (a :: ps) ws ↔ RunThen (a :: ps) ws := by
  constructor
  · rintro ⟨as, run, bs, h1, h2, h3, h4, h5⟩
    cases as with
    | cons b as =>
      simp only [List.cons_append, List.cons.injEq] at h4
      rw [← h4.1] at h1
      exact absurd (onlyOptions_cons.1 h1).1 ha
    | nil => exact ⟨run, bs, h2, h3, h4, h5⟩
  · rintro ⟨run, bs, h2, h3, h4, h5⟩
    exact ⟨[], run, bs, onlyOptions_nil, h2, h3, h4, h5⟩

/-- Any number of words is read. -/
theorem feed_many {s : Seen} {ps : List Piece} (hs : s.extras = []) (hw : s.words = []) (ws : List Str) :
    ((feed .many (.fresh, s) ps).2.extras = [] ∧ (feed .many (.fresh, s) ps).2.words = ws) ↔
      WordsTogether ps ws := by
  induction ps generalizing s with
  | nil =>
    simp only [feed_nil, hs, hw, true_and]
    constructor
    · rintro rfl
      exact ⟨[], [], [], onlyOptions_nil, onlyOptions_nil, by simp, rfl, rfl⟩
    · rintro ⟨as, run, bs, -, -, -, h, rfl⟩
      simp only [List.nil_eq, List.append_eq_nil_iff] at h
      simp [h.1.2, wordsOf]
  | cons a ps ih =>
    cases a with
    | option o v =>
      rw [together_option, feed_cons]
      exact ih (s := { s with options := s.options ++ [(o, v)] }) hs hw
    | extra x =>
      rw [together_run (by simp), ← feed_many_taking hs, feed_cons, feed_cons]
      simp only [hw, List.nil_append]
      constructor
      · rintro ⟨h, -⟩
        exact absurd h (feed_extras _ _ ps (by simp [step]))
      · rintro ⟨h, -⟩
        exact absurd h (feed_extras _ _ ps (by simp [step]))
    | word x =>
      rw [together_run (by simp), ← feed_many_taking hs, feed_cons, feed_cons]
      simp only [hw, List.nil_append]
      rfl
    | dashes =>
      rw [together_run (by simp), ← feed_many_taking hs, feed_cons, feed_cons]
      simp only [hw, List.nil_append]
      rfl

end Punx

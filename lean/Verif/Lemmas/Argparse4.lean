import Verif.Lemmas.Argparse3

/-!
# Lemmas about reading arguments: the result
-/

namespace Punx

variable {t : Texts} {p : CliParser}

/-- The first option that leaves the program. -/
def checkPieces (t : Texts) : List Piece → Except PyErr Unit
  | [] => .ok ()
  | .option o v :: ps =>
    match takeOne t o v with
    | .error e => .error e
    | .ok () => checkPieces t ps
  | .word _ :: ps => checkPieces t ps
  | .extra _ :: ps => checkPieces t ps
  | .dashes :: ps => checkPieces t ps

theorem takeOne_fine {o : CliOpt} {v : Option Str} :
    takeOne t o v = .ok () ↔ (Piece.option o v).Fine t := by
  unfold takeOne Piece.Fine
  cases hk : o.kind <;> cases v <;> simp [hk, Option.isSome_iff_exists]

theorem takeOne_error {o : CliOpt} {v : Option Str} {e : PyErr} (h : takeOne t o v = .error e) :
    (o.kind = .exits ∧ e = .systemExit 0) ∨ (o.kind ≠ .exits ∧ e = .systemExit 2) := by
  unfold takeOne at h
  split at h
  · rename_i hk
    simp only [Except.error.injEq] at h
    exact Or.inl ⟨hk, h.symm⟩
  · rename_i hk
    split at h
    · simp at h
    · simp only [Except.error.injEq] at h
      exact Or.inr ⟨by rw [hk]; simp, h.symm⟩
  · simp at h

theorem takeOne_exits {o : CliOpt} {v : Option Str} (h : o.kind = .exits) :
    takeOne t o v = .error (.systemExit 0) := by
  unfold takeOne
  rw [h]

theorem check_append (as bs : List Piece) :
    checkPieces t (as ++ bs) =
      match checkPieces t as with
      | .error e => .error e
      | .ok () => checkPieces t bs := by
  induction as with
  | nil => rfl
  | cons a as ih =>
    cases a with
    | option o v =>
      simp only [List.cons_append, checkPieces]
      cases takeOne t o v with
      | error e => rfl
      | ok _ => exact ih
    | word w => exact ih
    | extra w => exact ih
    | dashes => exact ih

theorem check_ok_iff {ps : List Piece} : checkPieces t ps = .ok () ↔ ∀ x ∈ ps, x.Fine t := by
  induction ps with
  | nil => simp [checkPieces]
  | cons a as ih =>
    rw [List.forall_mem_cons, ← ih]
    cases a with
    | option o v =>
      simp only [checkPieces]
      rw [← takeOne_fine]
      cases takeOne t o v with
      | error e => simp
      | ok _ => simp
    | word w => simp [checkPieces, Piece.Fine]
    | extra w => simp [checkPieces, Piece.Fine]
    | dashes => simp [checkPieces, Piece.Fine]

theorem check_error {ps : List Piece} {e : PyErr} (h : checkPieces t ps = .error e) :
    e = .systemExit 0 ∨ e = .systemExit 2 := by
  induction ps with
  | nil => simp [checkPieces] at h
  | cons a as ih =>
    cases a with
    | option o v =>
      simp only [checkPieces] at h
      cases hx : takeOne t o v with
      | error e' =>
        rw [hx] at h
        simp only [Except.error.injEq] at h
        subst h
        rcases takeOne_error hx with h | h
        · exact Or.inl h.2
        · exact Or.inr h.2
      | ok _ => rw [hx] at h; exact ih h
    | word w => exact ih h
    | extra w => exact ih h
    | dashes => exact ih h

theorem check_help_iff {ps : List Piece} :
    checkPieces t ps = .error (.systemExit 0) ↔ AsksHelp t ps := by
  constructor
  · intro h
    induction ps with
    | nil => simp [checkPieces] at h
    | cons a as ih =>
      have hrec : a.Fine t → checkPieces t as = .error (.systemExit 0) → AsksHelp t (a :: as) := by
        intro hf h
        obtain ⟨xs, o, v, ys, rfl, h1, h2⟩ := ih h
        exact ⟨a :: xs, o, v, ys, rfl, h1, by simpa [hf] using h2⟩
      cases a with
      | option o v =>
        simp only [checkPieces] at h
        cases hx : takeOne t o v with
        | error e' =>
          rw [hx] at h
          simp only [Except.error.injEq] at h
          subst h
          rcases takeOne_error hx with h | h
          · exact ⟨[], o, v, as, rfl, h.1, by simp⟩
          · simp at h
        | ok u =>
          rw [hx] at h
          exact hrec (takeOne_fine.1 hx) h
      | word w => exact hrec trivial h
      | extra w => exact hrec trivial h
      | dashes => exact hrec trivial h
  · rintro ⟨as, o, v, bs, rfl, h1, h2⟩
    rw [check_append, check_ok_iff.2 h2]
    simp [checkPieces, takeOne_exits h1]

theorem takeActions_check (ds : List (CliOpt × Option Str)) :
    takeActions t ds = checkPieces t (ds.map fun d => .option d.1 d.2) := by
  induction ds with
  | nil => rfl
  | cons d ds ih =>
    simp only [takeActions, List.map_cons, checkPieces, ih]
    rfl

/-- One piece. -/
def step (rest : Rest) : Phase × Seen → Piece → Phase × Seen
  | (ph, s), .option o v => (ph.close, { s with options := s.options ++ [(o, v)] })
  | (ph, s), .extra x => (ph.close, { s with extras := s.extras ++ [x] })
  | (ph, s), .word w =>
    match rest, ph with
    | .one, .fresh => (.taking, { s with words := s.words ++ [w] })
    | .many, .fresh => (.taking, { s with words := s.words ++ [w] })
    | .many, .taking => (.taking, { s with words := s.words ++ [w] })
    | _, _ => (ph.close, { s with extras := s.extras ++ [w] })
  | (ph, s), .dashes =>
    match rest, ph with
    | .one, .fresh => (.fresh, s)
    | .one, .taking => (.done, s)
    | .many, .fresh => (.taking, s)
    | .many, .taking => (.taking, s)
    | _, _ => (ph, { s with extras := s.extras ++ [s%"--"] })

/-- All pieces. -/
def feed (rest : Rest) (x : Phase × Seen) (ps : List Piece) : Phase × Seen := ps.foldl (step rest) x

@[simp] theorem feed_nil (rest : Rest) (x : Phase × Seen) : feed rest x [] = x := rfl

@[simp] theorem feed_cons (rest : Rest) (x : Phase × Seen) (a : Piece) (ps : List Piece) :
    feed rest x (a :: ps) = feed rest (step rest x a) ps := rfl

theorem feed_append (rest : Rest) (x : Phase × Seen) (as bs : List Piece) :
    feed rest x (as ++ bs) = feed rest (feed rest x as) bs := by
  unfold feed
  rw [List.foldl_append]

@[simp] theorem close_close (ph : Phase) : ph.close.close = ph.close := by cases ph <;> rfl

theorem feed_options (rest : Rest) (ph : Phase) (s : Seen) (ds : List (CliOpt × Option Str)) :
    feed rest (ph, s) (ds.map fun d => .option d.1 d.2) =
      (if ds = [] then ph else ph.close, { s with options := s.options ++ ds }) := by
  induction ds generalizing ph s with
  | nil => simp
  | cons d ds ih =>
    simp only [List.map_cons, feed_cons, step]
    rw [ih]
    simp

theorem feed_pieces (rest : Rest) (ph : Phase) (s : Seen) (r : Uses)
    (h : r.done ≠ [] ∨ r.extra.isSome = true) :
    feed rest (ph, s) r.pieces =
      (ph.close, { s with options := s.options ++ r.done, extras := s.extras ++ r.extra.toList }) := by
  unfold Uses.pieces
  rw [feed_append, feed_options]
  cases hx : r.extra with
  | none =>
    rw [hx] at h
    have : r.done ≠ [] := by simpa using h
    simp [this]
  | some x =>
    simp only [Option.toList_some, List.map_cons, List.map_nil, feed_cons, feed_nil, step]
    by_cases hd : r.done = [] <;> simp [hd]

theorem feed_text (rest : Rest) (ph : Phase) (s : Seen) (r : Uses) (o : CliOpt) (v : Str)
    (h : r.extra = none) :
    feed rest (ph, s) (r.pieces ++ [.option o (some v)]) =
      (ph.close, { s with options := s.options ++ (r.done ++ [(o, some v)]) }) := by
  have : r.pieces ++ [.option o (some v)] =
      (r.done ++ [(o, some v)]).map fun d => Piece.option d.1 d.2 := by
    unfold Uses.pieces
    simp [h]
  rw [this, feed_options]
  simp

/-- What is read, when the pieces are known. -/
theorem eat_gather (hr : p.rest ≠ .command) {is : List CliItem} {ps : List Piece} (hg : Gather p is ps) :
    ∀ (ph : Phase) (s : Seen), eat t p ph s is =
      match checkPieces t ps with
      | .error e => .error e
      | .ok () => .ok (feed p.rest (ph, s) ps).2 := by
  induction hg with
  | nil =>
    intro ph s
    unfold eat
    rfl
  | @word w is ps hg ih =>
    intro ph s
    unfold eat
    simp only [checkPieces, feed_cons, step]
    cases hq : p.rest with
    | command => exact absurd hq hr
    | none => simp only [ih, hq]
    | one => cases ph <;> simp only [ih, hq]
    | many => cases ph <;> simp only [ih, hq]
  | @option u r is ps hu ha hg ih =>
    intro ph s
    unfold eat
    have hsh := (useOption_shape hu).2 ha
    have hc : checkPieces t r.pieces = takeActions t r.done := by
      unfold Uses.pieces
      rw [check_append, ← takeActions_check]
      cases takeActions t r.done with
      | error e => rfl
      | ok _ => cases r.extra <;> rfl
    simp only [hu, ha]
    rw [check_append, hc]
    cases takeActions t r.done with
    | error e => rfl
    | ok _ =>
      simp only [ih]
      rw [feed_append, feed_pieces _ _ _ _ hsh]
  | @optionText u r o v is ps hu ha hg ih =>
    intro ph s
    unfold eat
    have hx := (useOption_shape hu).1 (by simp [ha])
    have hc : checkPieces t (r.pieces ++ [.option o (some v)]) =
        takeActions t (r.done ++ [(o, some v)]) := by
      rw [takeActions_check]
      unfold Uses.pieces
      simp [hx]
    simp only [hu, ha]
    rw [show r.pieces ++ .option o (some v) :: ps = (r.pieces ++ [.option o (some v)]) ++ ps by simp,
      check_append, hc]
    cases takeActions t (r.done ++ [(o, some v)]) with
    | error e => rfl
    | ok _ =>
      simp only [ih]
      rw [feed_append, feed_text _ _ _ _ _ _ hx]
  | @dashes is ps hg ih =>
    intro ph s
    unfold eat
    simp only [checkPieces, feed_cons, step]
    cases hq : p.rest with
    | command => exact absurd hq hr
    | none => simp only [ih, hq]
    | one => cases ph <;> simp only [ih, hq]
    | many => cases ph <;> simp only [ih, hq]

/-- When the pieces of the first arguments leave the program, the other arguments do not matter. -/
theorem eat_prefix (hr : p.rest ≠ .command) {is : List CliItem} {ps : List Piece} (hg : Gather p is ps)
    {e : PyErr} (rest : List CliItem) :
    ∀ (ph : Phase) (s : Seen), checkPieces t ps = .error e → eat t p ph s (is ++ rest) = .error e := by
  induction hg with
  | nil =>
    intro ph s h
    simp [checkPieces] at h
  | @word w is ps hg ih =>
    intro ph s h
    simp only [checkPieces] at h
    rw [List.cons_append]
    unfold eat
    cases hq : p.rest with
    | command => exact absurd hq hr
    | none => simp only [ih _ _ h]
    | one => cases ph <;> simp only [ih _ _ h]
    | many => cases ph <;> simp only [ih _ _ h]
  | @option u r is ps hu ha hg ih =>
    intro ph s h
    rw [List.cons_append]
    unfold eat
    have hc : checkPieces t r.pieces = takeActions t r.done := by
      unfold Uses.pieces
      rw [check_append, ← takeActions_check]
      cases takeActions t r.done with
      | error e => rfl
      | ok _ => cases r.extra <;> rfl
    simp only [hu, ha]
    rw [check_append, hc] at h
    cases hx : takeActions t r.done with
    | error e' =>
      rw [hx] at h
      simpa using h
    | ok _ =>
      rw [hx] at h
      exact ih _ _ h
  | @optionText u r o v is ps hu ha hg ih =>
    intro ph s h
    rw [List.cons_append, List.cons_append]
    unfold eat
    have hx := (useOption_shape hu).1 (by simp [ha])
    have hc : checkPieces t (r.pieces ++ [.option o (some v)]) =
        takeActions t (r.done ++ [(o, some v)]) := by
      rw [takeActions_check]
      unfold Uses.pieces
      simp [hx]
    simp only [hu, ha]
    rw [show r.pieces ++ .option o (some v) :: ps = (r.pieces ++ [.option o (some v)]) ++ ps by simp,
      check_append, hc] at h
    cases hy : takeActions t (r.done ++ [(o, some v)]) with
    | error e' =>
      rw [hy] at h
      simpa using h
    | ok _ =>
      rw [hy] at h
      exact ih _ _ h
  | @dashes is ps hg ih =>
    intro ph s h
    simp only [checkPieces] at h
    rw [List.cons_append]
    unfold eat
    cases hq : p.rest with
    | command => exact absurd hq hr
    | none => simp only [ih _ _ h]
    | one => cases ph <;> simp only [ih _ _ h]
    | many => cases ph <;> simp only [ih _ _ h]

/-- Either the arguments have pieces, or something is wrong with one of them, and the pieces before it
are all that counts. -/
theorem gather_or (hr : p.rest ≠ .command) : ∀ (is : List CliItem), (∃ ps, Gather p is ps) ∨
    ∃ i j ps, is = i ++ j ∧ Gather p i ps ∧ (∀ ph s, eat t p ph s is =
      match checkPieces t ps with
      | .error e => .error e
      | .ok () => .error (.systemExit 2)) ∧ ¬ ∃ ps', Gather p is ps'
  | [] => Or.inl ⟨[], .nil⟩
  | .word w :: is => by
    rcases gather_or hr is with ⟨ps, h⟩ | ⟨i, j, ps, rfl, h1, h2, h3⟩
    · exact Or.inl ⟨_, .word h⟩
    · refine Or.inr ⟨.word w :: i, j, _, rfl, .word h1, fun ph s => ?_, ?_⟩
      · unfold eat
        simp only [checkPieces]
        cases hq : p.rest with
        | command => exact absurd hq hr
        | none => simp only [h2]
        | one => cases ph <;> simp only [h2]
        | many => cases ph <;> simp only [h2]
      · rintro ⟨ps', h⟩
        cases h with
        | word h => exact h3 ⟨_, h⟩
  | .dashes :: is => by
    rcases gather_or hr is with ⟨ps, h⟩ | ⟨i, j, ps, rfl, h1, h2, h3⟩
    · exact Or.inl ⟨_, .dashes h⟩
    · refine Or.inr ⟨.dashes :: i, j, _, rfl, .dashes h1, fun ph s => ?_, ?_⟩
      · unfold eat
        simp only [checkPieces]
        cases hq : p.rest with
        | command => exact absurd hq hr
        | none => simp only [h2]
        | one => cases ph <;> simp only [h2]
        | many => cases ph <;> simp only [h2]
      · rintro ⟨ps', h⟩
        cases h with
        | dashes h => exact h3 ⟨_, h⟩
  | .option u :: is => by
    cases hu : useOption p u with
    | error e =>
      refine Or.inr ⟨[], .option u :: is, [], rfl, .nil, fun ph s => ?_, ?_⟩
      · unfold eat
        simp [hu, checkPieces, useOption_error hu]
      · rintro ⟨ps', h⟩
        cases h with
        | option h => rw [hu] at h; simp at h
        | optionText h => rw [hu] at h; simp at h
    | ok r =>
      cases ha : r.awaits with
      | none =>
        rcases gather_or hr is with ⟨ps, h⟩ | ⟨i, j, ps, hij, h1, h2, h3⟩
        · exact Or.inl ⟨_, .option hu ha h⟩
        · refine Or.inr ⟨.option u :: i, j, _, by rw [hij]; rfl, .option hu ha h1, fun ph s => ?_, ?_⟩
          · unfold eat
            have hc : checkPieces t r.pieces = takeActions t r.done := by
              unfold Uses.pieces
              rw [check_append, ← takeActions_check]
              cases takeActions t r.done with
              | error e => rfl
              | ok _ => cases r.extra <;> rfl
            simp only [hu, ha]
            rw [check_append, hc]
            cases takeActions t r.done with
            | error e => rfl
            | ok _ => simp only [h2]
          · rintro ⟨ps', h⟩
            cases h with
            | option _ _ h => exact h3 ⟨_, h⟩
            | optionText hu' ha' h =>
              rw [hu] at hu'
              simp only [Except.ok.injEq] at hu'
              subst hu'
              rw [ha] at ha'
              simp at ha'
      | some o =>
        have hbad : (∀ v is', is ≠ .word v :: is') → ∃ i j ps, .option u :: is = i ++ j ∧ Gather p i ps ∧
            (∀ ph s, eat t p ph s (.option u :: is) =
              match checkPieces t ps with
              | .error e => .error e
              | .ok () => .error (.systemExit 2)) ∧ ¬ ∃ ps', Gather p (.option u :: is) ps' := by
          intro hn
          refine ⟨[], .option u :: is, [], rfl, .nil, fun ph s => ?_, ?_⟩
          · unfold eat
            simp only [hu, ha, checkPieces]
          · rintro ⟨ps', h⟩
            cases h with
            | option hu' ha' h =>
              rw [hu] at hu'
              simp only [Except.ok.injEq] at hu'
              subst hu'
              rw [ha] at ha'
              simp at ha'
            | optionText hu' ha' h => exact hn _ _ rfl
        match is with
        | [] => exact Or.inr (hbad (by simp))
        | .dashes :: is' => exact Or.inr (hbad (by simp))
        | .option u' :: is' => exact Or.inr (hbad (by simp))
        | .word v :: is' =>
          rcases gather_or hr is' with ⟨ps, h⟩ | ⟨i, j, ps, rfl, h1, h2, h3⟩
          · exact Or.inl ⟨_, .optionText hu ha h⟩
          · refine Or.inr ⟨.option u :: .word v :: i, j, _, rfl, .optionText hu ha h1, fun ph s => ?_, ?_⟩
            · unfold eat
              have hx := (useOption_shape hu).1 (by simp [ha])
              have hc : checkPieces t (r.pieces ++ [.option o (some v)]) =
                  takeActions t (r.done ++ [(o, some v)]) := by
                rw [takeActions_check]
                unfold Uses.pieces
                simp [hx]
              simp only [hu, ha]
              rw [show r.pieces ++ .option o (some v) :: ps =
                  (r.pieces ++ [.option o (some v)]) ++ ps by simp, check_append, hc]
              cases takeActions t (r.done ++ [(o, some v)]) with
              | error e => rfl
              | ok _ => simp only [h2]
            · rintro ⟨ps', h⟩
              cases h with
              | option hu' ha' h =>
                rw [hu] at hu'
                simp only [Except.ok.injEq] at hu'
                subst hu'
                rw [ha] at ha'
                simp at ha'
              | optionText hu' ha' h => exact h3 ⟨_, h⟩

end Punx

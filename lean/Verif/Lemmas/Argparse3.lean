import Verif.Lemmas.Argparse2

/-!
# Lemmas about reading arguments: all arguments
-/

namespace Punx

variable {t : Texts} {p : CliParser}

theorem useExplicit_shape {n : Nat} : ∀ {s : Str} {o : CliOpt} {long sep : Bool} {r : Uses},
    s.length ≤ n → useExplicit p o long sep s = .ok r →
    (r.awaits.isSome = true → r.extra = none) ∧ r.done ≠ [] := by
  induction n with
  | zero =>
    intro s o long sep r hs h
    match s with
    | [] =>
      unfold useExplicit at h
      split at h
      · simp only [Except.ok.injEq] at h
        subst h
        simp
      · simp at h
    | _ :: _ => simp at hs
  | succ n ih =>
    intro s o long sep r hs h
    match s with
    | [] =>
      unfold useExplicit at h
      split at h
      · simp only [Except.ok.injEq] at h
        subst h
        simp
      · simp at h
    | c :: s =>
      unfold useExplicit at h
      split at h
      · simp only [Except.ok.injEq] at h
        subst h
        simp
      · split at h
        · simp at h
        · split at h
          · simp at h
          · cases hn : p.named ['-', c] with
            | none =>
              rw [hn] at h
              simp only [Except.ok.injEq] at h
              subst h
              simp
            | some o' =>
              rw [hn] at h
              match s with
              | [] =>
                simp only [Except.ok.injEq] at h
                subst h
                refine ⟨fun _ => ?_, by simp⟩
                unfold useAlone
                split <;> rfl
              | d :: s' =>
                simp only at h
                by_cases hd : (d == '=') = true
                · rw [if_pos hd] at h
                  cases hx : useExplicit p o' false true s' with
                  | error x => rw [hx] at h; simp at h
                  | ok r' =>
                    rw [hx] at h
                    simp only [Except.ok.injEq] at h
                    subst h
                    have := ih (by simp at hs; omega) hx
                    exact ⟨this.1, by simp⟩
                · rw [if_neg hd] at h
                  cases hx : useExplicit p o' false false (d :: s') with
                  | error x => rw [hx] at h; simp at h
                  | ok r' =>
                    rw [hx] at h
                    simp only [Except.ok.injEq] at h
                    subst h
                    have := ih (by simp at hs ⊢; omega) hx
                    exact ⟨this.1, by simp⟩

theorem useOption_shape {u : OptUse} {r : Uses} (h : useOption p u = .ok r) :
    (r.awaits.isSome = true → r.extra = none) ∧ (r.awaits = none → r.done ≠ [] ∨ r.extra.isSome = true) := by
  unfold useOption at h
  cases hu : u.opt with
  | none =>
    rw [hu] at h
    simp only [Except.ok.injEq] at h
    subst h
    simp
  | some o =>
    rw [hu] at h
    cases he : u.explicit with
    | none =>
      rw [he] at h
      simp only [Except.ok.injEq] at h
      subst h
      unfold useAlone
      split <;> simp
    | some s =>
      rw [he] at h
      have := useExplicit_shape (n := s.length) (Nat.le_refl _) h
      exact ⟨this.1, fun _ => Or.inl this.2⟩

theorem useExplicit_error {n : Nat} : ∀ {s : Str} {o : CliOpt} {long sep : Bool} {e : PyErr},
    s.length ≤ n → useExplicit p o long sep s = .error e → e = .systemExit 2 := by
  induction n with
  | zero =>
    intro s o long sep e hs h
    match s with
    | [] =>
      unfold useExplicit at h
      split at h
      · simp at h
      · simpa [eq_comm] using h
    | _ :: _ => simp at hs
  | succ n ih =>
    intro s o long sep e hs h
    match s with
    | [] =>
      unfold useExplicit at h
      split at h
      · simp at h
      · simpa [eq_comm] using h
    | c :: s =>
      unfold useExplicit at h
      split at h
      · simp at h
      · split at h
        · simpa [eq_comm] using h
        · split at h
          · simpa [eq_comm] using h
          · cases hn : p.named ['-', c] with
            | none =>
              rw [hn] at h
              simp at h
            | some o' =>
              rw [hn] at h
              match s with
              | [] => simp at h
              | d :: s' =>
                simp only at h
                by_cases hd : (d == '=') = true
                · rw [if_pos hd] at h
                  cases hx : useExplicit p o' false true s' with
                  | error x =>
                    rw [hx] at h
                    simp only [Except.error.injEq] at h
                    subst h
                    exact ih (by simp at hs; omega) hx
                  | ok r' => rw [hx] at h; simp at h
                · rw [if_neg hd] at h
                  cases hx : useExplicit p o' false false (d :: s') with
                  | error x =>
                    rw [hx] at h
                    simp only [Except.error.injEq] at h
                    subst h
                    exact ih (by simp at hs ⊢; omega) hx
                  | ok r' => rw [hx] at h; simp at h

theorem useOption_error {u : OptUse} {e : PyErr} (h : useOption p u = .error e) : e = .systemExit 2 := by
  unfold useOption at h
  cases hu : u.opt with
  | none => rw [hu] at h; simp at h
  | some o =>
    rw [hu] at h
    cases he : u.explicit with
    | none => rw [he] at h; simp at h
    | some s =>
      rw [he] at h
      exact useExplicit_error (Nat.le_refl _) h

/-! ## the pieces of all arguments -/

/-- The pieces of the arguments, from what each of them is. -/
inductive Gather (p : CliParser) : List CliItem → List Piece → Prop
  | nil : Gather p [] []
  | word {w is ps} : Gather p is ps → Gather p (.word w :: is) (.word w :: ps)
  | option {u r is ps} : useOption p u = .ok r → r.awaits = none → Gather p is ps →
      Gather p (.option u :: is) (r.pieces ++ ps)
  | optionText {u r o v is ps} : useOption p u = .ok r → r.awaits = some o → Gather p is ps →
      Gather p (.option u :: .word v :: is) (r.pieces ++ .option o (some v) :: ps)
  | dashes {is ps} : Gather p is ps → Gather p (.dashes :: is) (.dashes :: ps)

theorem gather_words (as : List Str) : Gather p (as.map .word) (as.map .word) := by
  induction as with
  | nil => exact .nil
  | cons a as ih => exact .word ih

theorem gather_words_eq {as : List Str} {ps : List Piece} (h : Gather p (as.map .word) ps) :
    ps = as.map .word := by
  induction as generalizing ps with
  | nil =>
    cases h
    rfl
  | cons a as ih =>
    cases h with
    | word h => rw [ih h]; rfl

/-- `classify` for an argument that is not `--`. -/
theorem classify_cons {a : Str} (ha : a ≠ ['-', '-']) (as : List Str) :
    classify t p (a :: as) =
      match parseOptional t p a with
      | .error e => .error e
      | .ok none =>
        match classify t p as with
        | .error e => .error e
        | .ok is => .ok (.word a :: is)
      | .ok (some u) =>
        match classify t p as with
        | .error e => .error e
        | .ok is => .ok (.option u :: is) := by
  have : (a == s%"--") = false := beq_eq_false_iff_ne.2 ha
  conv_lhs => unfold classify
  rw [this]
  rfl

theorem classify_dashes (as : List Str) :
    classify t p (['-', '-'] :: as) = .ok (.dashes :: as.map .word) := by
  unfold classify
  rw [show (['-', '-'] == s%"--") = true from rfl]
  rfl

theorem options_not_dashes (hp : WellNamed p) {ps : List Piece} {w : Option CliOpt} :
    ¬ Options t p ['-', '-'] ps w := by
  generalize hx : ['-', '-'] = x
  intro h
  cases h with
  | letters hl =>
    simp at hx
    subst hx
    cases hl with
    | flag h' => exact not_dashes hp _ h'
    | flags h' => exact not_dashes hp _ h'
    | text h' => exact not_dashes hp _ h'
    | awaits h' => exact not_dashes hp _ h'
  | long h1 => simp at hx; exact h1 hx
  | longAwaits h1 => simp at hx; exact h1 hx
  | longText => simp at hx
  | unknown hu => exact hu.2.2.1 hx.symm

theorem isWord_not_dashes {t : Texts} {p : CliParser} : ¬ IsWord t p ['-', '-'] := by
  rintro (h | h | h)
  · simp at h
  · simp at h
  · exact h.1 rfl

/-- The grammar is what `classify` and `useOption` give. -/
theorem consists_gather (hp : WellNamed p) {args : List Str} {ps : List Piece}
    (h : Consists t p args ps) : ∃ is, classify t p args = .ok is ∧ Gather p is ps := by
  induction h with
  | nil => exact ⟨[], rfl, .nil⟩
  | @word a as ps hw _ ih =>
    obtain ⟨is, h1, h2⟩ := ih
    have ha : a ≠ ['-', '-'] := by
      rintro rfl
      exact isWord_not_dashes hw
    refine ⟨.word a :: is, ?_, .word h2⟩
    rw [classify_cons ha, (parse_word_iff hp ha).2 hw, h1]
  | @options a as qs ps ho _ ih =>
    obtain ⟨is, h1, h2⟩ := ih
    have ha : a ≠ ['-', '-'] := by
      rintro rfl
      exact options_not_dashes hp ho
    obtain ⟨u, r, h3, h4, rfl, h6⟩ := (options_iff hp ha).1 ho
    refine ⟨.option u :: is, ?_, .option h4 h6 h2⟩
    rw [classify_cons ha, h3, h1]
  | @optionsText a v as qs o ps ho hw _ ih =>
    obtain ⟨is, h1, h2⟩ := ih
    have ha : a ≠ ['-', '-'] := by
      rintro rfl
      exact options_not_dashes hp ho
    have hv : v ≠ ['-', '-'] := by
      rintro rfl
      exact isWord_not_dashes hw
    obtain ⟨u, r, h3, h4, rfl, h6⟩ := (options_iff hp ha).1 ho
    refine ⟨.option u :: .word v :: is, ?_, .optionText h4 h6 h2⟩
    rw [classify_cons ha, h3, classify_cons hv, (parse_word_iff hp hv).2 hw, h1]
  | @dashes as =>
    exact ⟨_, classify_dashes as, .dashes (gather_words as)⟩

theorem classify_inv (hp : WellNamed p) {args : List Str} {is : List CliItem}
    (h : classify t p args = .ok is) :
    (args = [] ∧ is = []) ∨ (∃ as, args = ['-', '-'] :: as ∧ is = .dashes :: as.map .word) ∨
    (∃ a as is', args = a :: as ∧ is = .word a :: is' ∧ IsWord t p a ∧ classify t p as = .ok is') ∨
    (∃ a as u is', args = a :: as ∧ a ≠ ['-', '-'] ∧ is = .option u :: is' ∧
      parseOptional t p a = .ok (some u) ∧ classify t p as = .ok is') := by
  match args with
  | [] =>
    simp only [classify, Except.ok.injEq] at h
    exact Or.inl ⟨rfl, h.symm⟩
  | a :: as =>
    by_cases ha : a = ['-', '-']
    · subst ha
      rw [classify_dashes, Except.ok.injEq] at h
      exact Or.inr (Or.inl ⟨as, rfl, h.symm⟩)
    · rw [classify_cons ha] at h
      cases hx : parseOptional t p a with
      | error e => rw [hx] at h; simp at h
      | ok x =>
        rw [hx] at h
        cases x with
        | none =>
          simp only at h
          cases hc : classify t p as with
          | error e => rw [hc] at h; simp at h
          | ok is' =>
            rw [hc] at h
            simp only [Except.ok.injEq] at h
            exact Or.inr (Or.inr (Or.inl ⟨a, as, is', rfl, h.symm, (parse_word_iff hp ha).1 hx, hc⟩))
        | some u =>
          simp only at h
          cases hc : classify t p as with
          | error e => rw [hc] at h; simp at h
          | ok is' =>
            rw [hc] at h
            simp only [Except.ok.injEq] at h
            exact Or.inr (Or.inr (Or.inr ⟨a, as, u, is', rfl, ha, h.symm, hx, hc⟩))

theorem gather_consists (hp : WellNamed p) {is : List CliItem} {ps : List Piece} (hg : Gather p is ps) :
    ∀ {args : List Str}, classify t p args = .ok is → Consists t p args ps := by
  induction hg with
  | nil =>
    intro args h
    rcases classify_inv hp h with ⟨rfl, -⟩ | ⟨as, -, h'⟩ | ⟨a, as, is', -, h', -⟩ | ⟨a, as, u, is', -, -, h', -⟩
    · exact .nil
    · simp at h'
    · simp at h'
    · simp at h'
  | word hg ih =>
    intro args h
    rcases classify_inv hp h with ⟨-, h'⟩ | ⟨as, -, h'⟩ | ⟨a, as, is', rfl, h', h1, h2⟩ | ⟨a, as, u, is', -, -, h', -⟩
    · simp at h'
    · simp at h'
    · simp only [List.cons.injEq, CliItem.word.injEq] at h'
      obtain ⟨rfl, rfl⟩ := h'
      exact .word h1 (ih h2)
    · simp at h'
  | option hu hr hg ih =>
    intro args h
    rcases classify_inv hp h with ⟨-, h'⟩ | ⟨as, -, h'⟩ | ⟨a, as, is', -, h', -⟩ | ⟨a, as, u, is', rfl, ha, h', h1, h2⟩
    · simp at h'
    · simp at h'
    · simp at h'
    · simp only [List.cons.injEq, CliItem.option.injEq] at h'
      obtain ⟨rfl, rfl⟩ := h'
      exact .options ((options_iff hp ha).2 ⟨_, _, h1, hu, rfl, hr⟩) (ih h2)
  | optionText hu hr hg ih =>
    intro args h
    rcases classify_inv hp h with ⟨-, h'⟩ | ⟨as, -, h'⟩ | ⟨a, as, is', -, h', -⟩ | ⟨a, as, u, is', rfl, ha, h', h1, h2⟩
    · simp at h'
    · simp at h'
    · simp at h'
    · simp only [List.cons.injEq, CliItem.option.injEq] at h'
      obtain ⟨rfl, rfl⟩ := h'
      rcases classify_inv hp h2 with ⟨-, h'⟩ | ⟨as, -, h'⟩ | ⟨v, as, is', rfl, h', h3, h4⟩ | ⟨a, as, u, is', -, -, h', -⟩
      · simp at h'
      · simp at h'
      · simp only [List.cons.injEq, CliItem.word.injEq] at h'
        obtain ⟨rfl, rfl⟩ := h'
        exact .optionsText ((options_iff hp ha).2 ⟨_, _, h1, hu, rfl, hr⟩) h3 (ih h4)
      · simp at h'
  | dashes hg ih =>
    intro args h
    rcases classify_inv hp h with ⟨-, h'⟩ | ⟨as, rfl, h'⟩ | ⟨a, as, is', -, h', -⟩ | ⟨a, as, u, is', -, -, h', -⟩
    · simp at h'
    · simp only [List.cons.injEq, true_and] at h'
      subst h'
      rw [gather_words_eq hg]
      exact .dashes
    · simp at h'
    · simp at h'

theorem consists_iff (hp : WellNamed p) {args : List Str} {ps : List Piece} :
    Consists t p args ps ↔ ∃ is, classify t p args = .ok is ∧ Gather p is ps :=
  ⟨consists_gather hp, fun ⟨_, h1, h2⟩ => gather_consists hp h2 h1⟩

/-- Looking at the arguments fails exactly if one before `--` is ambiguous. -/
theorem classify_ok_iff (hp : WellNamed p) {args : List Str} :
    (∃ is, classify t p args = .ok is) ↔ ∀ a ∈ beforeDashes args, ¬ Ambiguous p a := by
  unfold beforeDashes
  induction args with
  | nil => simp [classify]
  | cons a as ih =>
    by_cases ha : a = ['-', '-']
    · subst ha
      simp [classify_dashes]
    · have hb : (a != s%"--") = true := by simpa using ha
      rw [List.takeWhile_cons, if_pos hb, List.forall_mem_cons, ← ih, classify_cons ha]
      cases hx : parseOptional t p a with
      | error e =>
        simp only [reduceCtorEq, exists_false, false_iff]
        exact fun h => h.1 ((parse_error_iff hp ha).1 hx).1
      | ok x =>
        have hn : ¬ Ambiguous p a := fun h => by
          rw [(parse_error_iff (t := t) hp ha).2 ⟨h, rfl⟩] at hx
          simp at hx
        simp only [hn, not_false_iff, true_and]
        cases classify t p as with
        | error e => cases x <;> simp
        | ok is => cases x <;> simp

theorem classify_error (hp : WellNamed p) {args : List Str} {e : PyErr} (h : classify t p args = .error e) :
    e = .systemExit 2 := by
  induction args with
  | nil => simp [classify] at h
  | cons a as ih =>
    by_cases ha : a = ['-', '-']
    · subst ha
      simp [classify_dashes] at h
    · rw [classify_cons ha] at h
      cases hx : parseOptional t p a with
      | error e' =>
        rw [hx] at h
        simp only [Except.error.injEq] at h
        subst h
        exact ((parse_error_iff hp ha).1 hx).2
      | ok x =>
        rw [hx] at h
        cases hc : classify t p as with
        | error e' =>
          rw [hc] at h ih
          cases x <;> simp only [Except.error.injEq] at h <;> exact ih (by rw [h])
        | ok is =>
          rw [hc] at h
          cases x <;> simp at h

/-- The arguments themselves. -/
theorem parse_raw {a : Str} {u : OptUse} (h : parseOptional t p a = .ok (some u)) : u.raw = a := by
  have htup : ∀ u ∈ optionTuples p a, u.raw = a := by
    intro u hu
    unfold optionTuples at hu
    split at hu
    · obtain ⟨e, -, rfl⟩ := List.mem_map.1 hu
      rfl
    · obtain ⟨e, -, he⟩ := List.mem_filterMap.1 hu
      split at he
      · simp only [Option.some.injEq] at he
        rw [← he]
      · split at he
        · simp only [Option.some.injEq] at he
          rw [← he]
        · simp at he
  unfold parseOptional at h
  split at h
  · simp at h
  · split at h
    · simp only [Except.ok.injEq, Option.some.injEq] at h
      rw [← h]
    · split at h
      · simp at h
      · split at h
        · simp only [Except.ok.injEq, Option.some.injEq] at h
          rw [← h]
        · split at h
          · simp at h
          · rename_i u' hu
            simp only [Except.ok.injEq, Option.some.injEq] at h
            rw [← h]
            exact htup _ (by rw [hu]; simp)
          · split at h
            · simp at h
            · split at h
              · simp at h
              · simp only [Except.ok.injEq, Option.some.injEq] at h
                rw [← h]

theorem classify_raw (hp : WellNamed p) {args : List Str} {is : List CliItem}
    (h : classify t p args = .ok is) : is.map CliItem.raw = args := by
  induction args generalizing is with
  | nil =>
    simp only [classify, Except.ok.injEq] at h
    subst h
    rfl
  | cons a as ih =>
    rcases classify_inv hp h with ⟨h', -⟩ | ⟨as', h', rfl⟩ | ⟨a', as', is', h', rfl, h1, h2⟩ |
      ⟨a', as', u, is', h', ha, rfl, h1, h2⟩
    · simp at h'
    · simp only [List.cons.injEq] at h'
      obtain ⟨rfl, rfl⟩ := h'
      simp [CliItem.raw, Function.comp_def]
    · simp only [List.cons.injEq] at h'
      obtain ⟨rfl, rfl⟩ := h'
      simp [CliItem.raw, ih h2]
    · simp only [List.cons.injEq] at h'
      obtain ⟨rfl, rfl⟩ := h'
      simp [CliItem.raw, ih h2, parse_raw h1]

end Punx

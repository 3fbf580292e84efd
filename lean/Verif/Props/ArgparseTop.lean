import Verif.Props.Usage
import Verif.Spec.ArgparseTop

/-!
# C115: when help or the version is shown

All lists of arguments with which the program leaves with status 0.
-/

namespace Punx

open Spec

variable {t : Texts}

theorem options_extra {p : CliParser} {a b : Str} (h : Options t p a [.extra b] none) : IsUnknown t p a := by
  generalize hps : [Piece.extra b] = ps at h
  cases h with
  | letters h => cases h <;> simp at hps
  | long => simp at hps
  | longText => simp at hps
  | unknown h => exact h

theorem IsUnknown.not_word {p : CliParser} {a : Str} (h : IsUnknown t p a) : ¬ IsWord t p a := by
  obtain ⟨h1, h2, h3, h4, h5, h6⟩ := h
  rintro (h | h | ⟨-, -, h | h⟩)
  · exact h h1
  · exact h2 h
  · rw [h5] at h
    simp at h
  · exact h6 h

/-- An argument that is read as an option: it does not exist, or it shows something, or it is wrong. -/
theorem eat_top_option {a : Str} {u : OptUse} (ha : a ≠ ['-', '-'])
    (hu : parseOptional t topParser a = .ok (some u)) (s : Seen) (is : List CliItem) :
    (IsUnknown t topParser a ∧ ¬ OwnOption t a ∧ eat t topParser .fresh s (.option u :: is) =
      eat t topParser .fresh { s with extras := s.extras ++ [a] } is) ∨
    (¬ IsUnknown t topParser a ∧ OwnOption t a ∧
      eat t topParser .fresh s (.option u :: is) = .error (.systemExit 0)) ∨
    (¬ IsUnknown t topParser a ∧ ¬ OwnOption t a ∧
      eat t topParser .fresh s (.option u :: is) = .error (.systemExit 2)) := by
  have hunk : ∀ r, useOption topParser u = .ok r → IsUnknown t topParser a → r.pieces = [.extra a] := by
    intro r hr h
    obtain ⟨u', r', h1, h2, h3, -⟩ := (options_iff (t := t) top_named ha).1 (.unknown h)
    rw [hu] at h1
    simp only [Except.ok.injEq, Option.some.injEq] at h1
    subst h1
    rw [hr] at h2
    simp only [Except.ok.injEq] at h2
    subst h2
    exact h3
  have hown : ∀ r, useOption topParser u = .ok r → OwnOption t a →
      ∃ o v qs, r.pieces = .option o v :: qs := by
    rintro r hr ⟨o, v, qs, h⟩
    obtain ⟨u', r', h1, h2, h3, -⟩ := (options_iff (t := t) top_named ha).1 h
    rw [hu] at h1
    simp only [Except.ok.injEq, Option.some.injEq] at h1
    subst h1
    rw [hr] at h2
    simp only [Except.ok.injEq] at h2
    subst h2
    exact ⟨o, v, qs, h3⟩
  cases hr : useOption topParser u with
  | error e =>
    right; right
    refine ⟨?_, ?_, ?_⟩
    · intro h
      obtain ⟨u', r', h1, h2, -⟩ := (options_iff (t := t) top_named ha).1 (.unknown h)
      rw [hu] at h1
      simp only [Except.ok.injEq, Option.some.injEq] at h1
      subst h1
      rw [hr] at h2
      simp at h2
    · rintro ⟨o, v, qs, h⟩
      obtain ⟨u', r', h1, h2, -⟩ := (options_iff (t := t) top_named ha).1 h
      rw [hu] at h1
      simp only [Except.ok.injEq, Option.some.injEq] at h1
      subst h1
      rw [hr] at h2
      simp at h2
    · have := useOption_error hr
      subst this
      unfold eat
      rw [hr]
  | ok r =>
    have ho' : Options t topParser a r.pieces r.awaits :=
      (options_iff (t := t) top_named ha).2 ⟨u, r, hu, hr, rfl, rfl⟩
    have ho := options_mem ho'
    have hex : ∀ o ∈ topParser.opts, o.kind = .exits ∧ o.takes = false := by decide
    cases hx : r.awaits with
    | some o =>
      have := ho.2.1 o hx
      rw [(hex o this.1).2] at this
      simp at this
    | none =>
      rw [hx] at ho'
      rcases ho.2.2 hx with ⟨o, v, qs, hps⟩ | hps
      · right; left
        refine ⟨?_, ⟨o, v, qs, hps ▸ ho'⟩, ?_⟩
        · intro h
          have := hunk r hr h
          rw [hps] at this
          simp at this
        · have hk := (hex o (ho.1 o v (by rw [hps]; simp))).1
          have hcp : checkPieces t r.pieces = .error (.systemExit 0) := by
            rw [hps]
            simp [checkPieces, takeOne_exits hk]
          have htk : takeActions t r.done = checkPieces t r.pieces := by
            unfold Uses.pieces
            rw [check_append, ← takeActions_check]
            cases takeActions t r.done with
            | error e => rfl
            | ok _ => cases r.extra <;> rfl
          unfold eat
          rw [hr]
          simp only [hx]
          rw [htk, hcp]
      · left
        refine ⟨options_extra (hps ▸ ho'), ?_, ?_⟩
        · intro h
          obtain ⟨o, v, qs, h⟩ := hown r hr h
          rw [hps] at h
          simp at h
        · have hd : r.done = [] := by
            cases hd : r.done with
            | nil => rfl
            | cons d ds =>
              unfold Uses.pieces at hps
              rw [hd] at hps
              simp at hps
          have hxt : r.extra = some a := by
            unfold Uses.pieces at hps
            rw [hd] at hps
            cases hy : r.extra with
            | none => rw [hy] at hps; simp at hps
            | some y => rw [hy] at hps; simpa using hps
          conv_lhs => unfold eat
          rw [hr]
          simp only [hx]
          rw [hd, hxt]
          simp [takeActions, Phase.close]

theorem foreign_cons {u : Str} {us : List Str} :
    Foreign t (u :: us) ↔ IsUnknown t topParser u ∧ Foreign t us := by
  simp [Foreign]

theorem unknown_not_dashes {p : CliParser} : ¬ IsUnknown t p ['-', '-'] := fun h => h.2.2.1 rfl

theorem own_dash {a : Str} (h : OwnOption t a) : a.head? = some '-' := by
  obtain ⟨o, v, qs, h⟩ := h
  cases h <;> rfl

theorem own_not_dashes : ¬ OwnOption t ['-', '-'] := by
  rintro ⟨o, v, qs, h⟩
  generalize hx : ['-', '-'] = x at h
  cases h with
  | letters h =>
    simp only [List.cons.injEq, true_and] at hx
    subst hx
    have hd : ∀ o, ¬ HasName topParser ['-', '-'] o := by
      rintro o ⟨h1, h2⟩
      revert h2
      have : ∀ o ∈ topParser.opts, ['-', '-'] ∉ o.names := by decide
      exact this o h1
    generalize hy : ['-'] = y at h
    cases h with
    | flag h => simp only [List.cons.injEq, and_true] at hy; subst hy; exact hd _ h
    | flags h => simp only [List.cons.injEq] at hy; obtain ⟨rfl, -⟩ := hy; exact hd _ h
    | text h => simp only [List.cons.injEq] at hy; obtain ⟨rfl, -⟩ := hy; exact hd _ h
    | textEq h => simp only [List.cons.injEq] at hy; obtain ⟨rfl, -⟩ := hy; exact hd _ h
    | left h => simp only [List.cons.injEq] at hy; obtain ⟨rfl, -⟩ := hy; exact hd _ h
  | long hn => simp at hx; exact hn hx
  | longText => simp at hx

/-- What is read before anything else is done. -/
theorem eat_top_iff : ∀ {args : List Str} {is : List CliItem}, classify t topParser args = .ok is →
    ∀ (s : Seen), s.words = [] →
    (eat t topParser .fresh s is = .error (.systemExit 0) ↔
      ∃ us a post, args = us ++ a :: post ∧ Foreign t us ∧ OwnOption t a) ∧
    (∀ name rest, (∃ s', eat t topParser .fresh s is = .ok s' ∧ s'.words = name :: rest) ↔
      ∃ us, args = us ++ name :: rest ∧ Foreign t us ∧
        (IsWord t topParser name ∨ name = ['-', '-'] ∧ rest ≠ [])) := by
  intro args
  induction args with
  | nil =>
    intro is h s hs
    simp only [classify, Except.ok.injEq] at h
    subst h
    simp [eat, hs]
  | cons a as ih =>
    intro is h s hs
    have hraw := classify_raw top_named h
    rcases classify_inv top_named h with ⟨h', -⟩ | ⟨as, h', rfl⟩ | ⟨a, as, is', h', rfl, h1, h2⟩ |
      ⟨a, as, u, is', h', ha, rfl, h1, h2⟩
    · simp at h'
    · simp only [List.cons.injEq] at h'
      obtain ⟨rfl, rfl⟩ := h'
      have hfirst : ∀ us (b : Str) post, ['-', '-'] :: as = us ++ b :: post → Foreign t us →
          us = [] ∧ b = ['-', '-'] ∧ post = as := by
        intro us b post he hf
        cases us with
        | nil => simp at he; exact ⟨rfl, he.1.symm, he.2.symm⟩
        | cons u us =>
          simp only [List.cons_append, List.cons.injEq] at he
          exact absurd (he.1 ▸ (foreign_cons.1 hf).1) unknown_not_dashes
      have hok : ∃ s', eat t topParser .fresh s (.dashes :: as.map .word) = .ok s' ∧
          s'.words = if as = [] then [] else ['-', '-'] :: as := by
        unfold eat
        simp only [show topParser.rest = .command from rfl]
        cases as with
        | nil => exact ⟨_, rfl, by simpa using hs⟩
        | cons b as =>
          refine ⟨_, rfl, ?_⟩
          have : (CliItem.raw ∘ CliItem.word) = id := rfl
          simp [hs, CliItem.raw, this]
      obtain ⟨s', hs1, hs2⟩ := hok
      constructor
      · rw [hs1]
        simp only [reduceCtorEq, false_iff]
        rintro ⟨us, b, post, he, hf, hb⟩
        obtain ⟨-, rfl, -⟩ := hfirst us b post he hf
        exact own_not_dashes hb
      · intro name rest
        rw [hs1]
        simp only [Except.ok.injEq, exists_eq_left']
        rw [hs2]
        constructor
        · intro hn
          split at hn
          · simp at hn
          · rename_i hne
            simp only [List.cons.injEq] at hn
            obtain ⟨rfl, rfl⟩ := hn
            exact ⟨[], rfl, by simp [Foreign], Or.inr ⟨rfl, hne⟩⟩
        · rintro ⟨us, he, hf, hb⟩
          obtain ⟨-, rfl, rfl⟩ := hfirst us name rest he hf
          rcases hb with hb | ⟨-, hb⟩
          · exact absurd hb isWord_not_dashes
          · rw [if_neg hb]
    · simp only [List.cons.injEq] at h'
      obtain ⟨rfl, rfl⟩ := h'
      have hfirst : ∀ us (b : Str) post, a :: as = us ++ b :: post → Foreign t us →
          us = [] ∧ b = a ∧ post = as := by
        intro us b post he hf
        cases us with
        | nil => simp at he; exact ⟨rfl, he.1.symm, he.2.symm⟩
        | cons u us =>
          simp only [List.cons_append, List.cons.injEq] at he
          exact absurd h1 (he.1 ▸ (foreign_cons.1 hf).1).not_word
      have hok : eat t topParser .fresh s (.word a :: is') = .ok { s with words := a :: as } := by
        unfold eat
        simp only [show topParser.rest = .command from rfl, hs, List.nil_append, classify_raw top_named h2]
      have hna : ¬ OwnOption t a := by
        rintro ⟨o, v, qs, ho⟩
        have hd : a ≠ ['-', '-'] := by
          rintro rfl
          exact isWord_not_dashes h1
        obtain ⟨u', r', h3, -⟩ := (options_iff (t := t) top_named hd).1 ho
        rw [(parse_word_iff top_named hd).2 h1] at h3
        simp at h3
      constructor
      · rw [hok]
        simp only [reduceCtorEq, false_iff]
        rintro ⟨us, b, post, he, hf, hb⟩
        obtain ⟨-, rfl, -⟩ := hfirst us b post he hf
        exact hna hb
      · intro name rest
        rw [hok]
        simp only [Except.ok.injEq, exists_eq_left', List.cons.injEq]
        constructor
        · rintro ⟨rfl, rfl⟩
          exact ⟨[], rfl, by simp [Foreign], Or.inl h1⟩
        · rintro ⟨us, he, hf, -⟩
          obtain ⟨-, rfl, rfl⟩ := hfirst us name rest he hf
          exact ⟨rfl, rfl⟩
    · simp only [List.cons.injEq] at h'
      obtain ⟨rfl, rfl⟩ := h'
      have hnw : ¬ IsWord t topParser a := by
        intro hw
        rw [(parse_word_iff top_named ha).2 hw] at h1
        simp at h1
      have hsplit : ∀ {P : Str → List Str → Prop},
          (∃ us b post, a :: as = us ++ b :: post ∧ Foreign t us ∧ P b post) ↔
            P a as ∨ IsUnknown t topParser a ∧
              ∃ us b post, as = us ++ b :: post ∧ Foreign t us ∧ P b post := by
        intro P
        constructor
        · rintro ⟨us, b, post, he, hf, hb⟩
          cases us with
          | nil =>
            simp only [List.nil_append, List.cons.injEq] at he
            obtain ⟨rfl, rfl⟩ := he
            exact Or.inl hb
          | cons u us =>
            simp only [List.cons_append, List.cons.injEq] at he
            obtain ⟨rfl, rfl⟩ := he
            obtain ⟨hf1, hf2⟩ := foreign_cons.1 hf
            exact Or.inr ⟨hf1, us, b, post, rfl, hf2, hb⟩
        · rintro (hb | ⟨hu, us, b, post, rfl, hf, hb⟩)
          · exact ⟨[], a, as, rfl, by simp [Foreign], hb⟩
          · exact ⟨a :: us, b, post, rfl, foreign_cons.2 ⟨hu, hf⟩, hb⟩
      have hname : ∀ name rest, (∃ us, a :: as = us ++ name :: rest ∧ Foreign t us ∧
          (IsWord t topParser name ∨ name = ['-', '-'] ∧ rest ≠ [])) ↔
          IsUnknown t topParser a ∧ ∃ us, as = us ++ name :: rest ∧ Foreign t us ∧
            (IsWord t topParser name ∨ name = ['-', '-'] ∧ rest ≠ []) := by
        intro name rest
        constructor
        · rintro ⟨us, he, hf, hb⟩
          cases us with
          | nil =>
            simp only [List.nil_append, List.cons.injEq] at he
            obtain ⟨rfl, rfl⟩ := he
            rcases hb with hb | ⟨hb, -⟩
            · exact absurd hb hnw
            · exact absurd hb ha
          | cons u us =>
            simp only [List.cons_append, List.cons.injEq] at he
            obtain ⟨rfl, rfl⟩ := he
            obtain ⟨hf1, hf2⟩ := foreign_cons.1 hf
            exact ⟨hf1, us, rfl, hf2, hb⟩
        · rintro ⟨hu, us, rfl, hf, hb⟩
          exact ⟨a :: us, rfl, foreign_cons.2 ⟨hu, hf⟩, hb⟩
      rw [hsplit (P := fun b _ => OwnOption t b)]
      rcases eat_top_option ha h1 s is' with ⟨hu, ho, he⟩ | ⟨hu, ho, he⟩ | ⟨hu, ho, he⟩
      · rw [he]
        obtain ⟨ih1, ih2⟩ := ih h2 { s with extras := s.extras ++ [a] } hs
        constructor
        · rw [ih1]
          simp [hu, ho]
        · intro name rest
          rw [ih2, hname]
          simp [hu]
      · rw [he]
        constructor
        · simp [ho]
        · intro name rest
          rw [hname]
          simp [hu]
      · rw [he]
        constructor
        · simp [ho, hu]
        · intro name rest
          rw [hname]
          simp [hu]

/-- `parse_args` of the parser for everything shows something exactly in these cases. -/
theorem args_help_iff {ref : Option Str} {args : List Str} :
    parseArgs t ref args = .error (.systemExit 0) ↔ Unambiguous topParser args ∧
      ((∃ us a post, args = us ++ a :: post ∧ Foreign t us ∧ OwnOption t a) ∨
        ∃ us name rest q, args = us ++ name :: rest ∧ Foreign t us ∧ subParser name = some q ∧
          AskedOf t q rest) := by
  unfold Unambiguous
  rw [← classify_ok_iff (t := t) top_named]
  unfold parseArgs parseKnown
  cases hc : classify t topParser args with
  | error e =>
    have := classify_error top_named hc
    subst this
    simp
  | ok is =>
    obtain ⟨h1, h2⟩ := eat_top_iff hc .empty rfl
    simp only [Except.ok.injEq, exists_eq', true_and]
    rw [← h1]
    have hword : ∀ {name : Str} {q : CliParser}, subParser name = some q → IsWord t topParser name :=
      fun hq => Or.inl (commands_no_dash _ (sub_some_iff.1 ⟨_, hq⟩))
    cases he : eat t topParser .fresh .empty is with
    | error e =>
      simp only [Except.error.injEq]
      constructor
      · exact Or.inl
      · rintro (h | ⟨us, name, rest, q, rfl, hf, hq, -⟩)
        · exact h
        · obtain ⟨s', h3, -⟩ := (h2 name rest).2 ⟨us, rfl, hf, Or.inl (hword hq)⟩
          rw [he] at h3
          simp at h3
    | ok s =>
      simp only [show (topParser.rest == .one) = false from rfl, Bool.false_and, Bool.false_eq_true,
        if_false, reduceCtorEq, false_or]
      rw [he] at h2
      simp only [Except.ok.injEq, exists_eq_left'] at h2
      cases hw : s.words with
      | nil =>
        rw [hw] at h2
        simp only
        constructor
        · intro h
          split at h <;> simp at h
        · rintro ⟨us, name, rest, q, rfl, hf, hq, -⟩
          have := (h2 name rest).2 ⟨us, rfl, hf, Or.inl (hword hq)⟩
          simp at this
      | cons name rest =>
        rw [hw] at h2
        obtain ⟨us, hus, hf, -⟩ := (h2 name rest).1 rfl
        simp only
        cases hq : subParser name with
        | none =>
          simp only [Except.error.injEq, PyErr.systemExit.injEq, OfNat.ofNat_ne_zero, false_iff]
          rintro ⟨us', name', rest', q, h3, hf', hq', -⟩
          have := (h2 name' rest').2 ⟨us', h3, hf', Or.inl (hword hq')⟩
          simp only [List.cons.injEq] at this
          obtain ⟨rfl, -⟩ := this
          rw [hq] at hq'
          simp at hq'
        | some q =>
          have hk := known_help_iff (t := t) (sub_named hq).1 (sub_named hq).2 (args := rest)
          have hother : (match parseKnown t q rest with
              | .error e => .error e
              | .ok s' => if (s.extras ++ s'.extras).isEmpty then commandOf t ref name s'
                  else .error (.systemExit 2)) = Except.error (.systemExit 0) ↔
              parseKnown t q rest = .error (.systemExit 0) := by
            cases parseKnown t q rest with
            | error e => simp
            | ok s' =>
              simp only [reduceCtorEq, iff_false]
              split
              · obtain ⟨cmd, hcmd⟩ := commandOf_ok (t := t) (ref := ref) (sub_some_iff.1 ⟨q, hq⟩) s'
                simp [hcmd]
              · simp
          refine Iff.trans hother (hk.trans ?_)
          constructor
          · intro h
            exact ⟨us, name, rest, q, hus, hf, hq, h⟩
          · rintro ⟨us', name', rest', q', h3, hf', hq', h4⟩
            have := (h2 name' rest').2 ⟨us', h3, hf', Or.inl (hword hq')⟩
            simp only [List.cons.injEq] at this
            obtain ⟨rfl, rfl⟩ := this
            rw [hq] at hq'
            simp only [Option.some.injEq] at hq'
            subst hq'
            exact h4

/-- **C115**: help or the version is shown (status 0) exactly in the ways of asking for it. -/
theorem shows_help_iff {ref : Option Str} {args : List Str} :
    parseCommandLine t ref args = .error (.systemExit 0) ↔ ShowsHelp t args := by
  have hcalls : ∀ {c name : Str} {q : CliParser}, Calls c name → subParser name = some q →
      c.head? ≠ some '-' := by
    intro c name q hc hq h
    obtain ⟨b, rfl⟩ := hc.2
    refine commands_no_dash _ (sub_some_iff.1 ⟨q, hq⟩) ?_
    match c, h with
    | x :: c, h => exact h
  have hforeign : ∀ {us : List Str}, Foreign t us → us ≠ [] → ∀ {b : List Str} {w ws},
      us ++ b = w :: ws → w.head? = some '-' := by
    intro us hf hn b w ws he
    cases us with
    | nil => simp at hn
    | cons u us =>
      simp only [List.cons_append, List.cons.injEq] at he
      exact he.1 ▸ (foreign_cons.1 hf).1.1
  cases args with
  | nil =>
    rw [no_arguments]
    simp only [Except.error.injEq, PyErr.systemExit.injEq, one_ne_zero, false_iff]
    generalize hx : ([] : List Str) = x
    intro h
    cases h <;> simp at hx
  | cons w ws =>
    by_cases hw : w.head? = some '-'
    · simp only [parseCommandLine]
      rw [if_pos (starts_head.2 hw), args_help_iff]
      constructor
      · rintro ⟨hu, ⟨us, a, post, he, hf, ho⟩ | ⟨us, name, rest, q, he, hf, hq, ha⟩⟩
        · rw [he] at hu ⊢
          exact .itself hf ho hu
        · rw [he] at hu ⊢
          refine .later ?_ hf hq hu ha
          rintro rfl
          simp only [List.nil_append, List.cons.injEq] at he
          rw [he.1] at hw
          exact commands_no_dash _ (sub_some_iff.1 ⟨q, hq⟩) hw
      · generalize hx : w :: ws = x
        intro h
        cases h with
        | itself hf ho hu => exact ⟨hu, Or.inl ⟨_, _, _, rfl, hf, ho⟩⟩
        | command hc hq hu ha =>
          simp only [List.cons.injEq] at hx
          exact absurd (hx.1 ▸ hw) (hcalls hc hq)
        | later hn hf hq hu ha => exact ⟨hu, Or.inr ⟨_, _, _, _, rfl, hf, hq, ha⟩⟩
    · have hcom : ShowsHelp t (w :: ws) ↔ ∃ name q, Calls w name ∧ subParser name = some q ∧
          Unambiguous topParser ws ∧ AskedOf t q ws := by
        constructor
        · generalize hx : w :: ws = x
          intro h
          cases h with
          | @itself us a post hf ho hu =>
            exfalso
            cases us with
            | nil =>
              simp only [List.nil_append, List.cons.injEq] at hx
              exact hw (hx.1 ▸ own_dash ho)
            | cons u us => exact hw (hforeign hf (by simp) hx.symm)
          | command hc hq hu ha =>
            simp only [List.cons.injEq] at hx
            obtain ⟨rfl, rfl⟩ := hx
            exact ⟨_, _, hc, hq, hu, ha⟩
          | later hn hf hq hu ha => exact absurd (hforeign hf hn hx.symm) hw
        · rintro ⟨name, q, hc, hq, hu, ha⟩
          exact .command hc hq hu ha
      rw [hcom]
      by_cases hc : ∃ name q, Calls w name ∧ subParser name = some q
      · obtain ⟨name, q, hc, hq⟩ := hc
        rw [command_help_iff hq hc]
        constructor
        · rintro ⟨h1, h2⟩
          exact ⟨name, q, hc, hq, fun a ha => (h1 a ha).1, fun a ha => (h1 a ha).2, h2⟩
        · rintro ⟨name', q', hc', hq', h1, h2, h3⟩
          have e1 := calls_iff.2 ⟨sub_some_iff.1 ⟨q, hq⟩, hc⟩
          have e2 := calls_iff.2 ⟨sub_some_iff.1 ⟨q', hq'⟩, hc'⟩
          rw [e1] at e2
          simp only [Except.ok.injEq] at e2
          subst e2
          rw [hq] at hq'
          simp only [Option.some.injEq] at hq'
          subst hq'
          exact ⟨fun a ha => ⟨h1 a ha, h2 a ha⟩, h3⟩
      · have : ¬ ∃ name q, Calls w name ∧ subParser name = some q ∧
            Unambiguous topParser ws ∧ AskedOf t q ws := by
          rintro ⟨name, q, h1, h2, -⟩
          exact hc ⟨name, q, h1, h2⟩
        simp only [this, iff_false]
        simp only [parseCommandLine]
        rw [if_neg (by rwa [starts_head])]
        cases he : expandCommand commands w with
        | error e =>
          have := expand_rejects _ _ _ he
          subst this
          simp
        | ok c =>
          exfalso
          obtain ⟨h1, h2⟩ := calls_iff.1 he
          obtain ⟨q, hq⟩ := sub_some_iff.2 h1
          exact hc ⟨c, q, h2, hq⟩

/-- **C115**: an option that does not exist does not keep help of a command from being shown, if the name
of the command is written out: `punx --quiet validate -h`. -/
theorem later_help_case : parseCommandLine ⟨fun _ => none, fun _ => false⟩ none
    [s%"--quiet", s%"validate", s%"-h"] = .error (.systemExit 0) := rfl

/-- **C115**: and a shortened name is not understood there: `punx --quiet val -h`. -/
theorem later_short_case : parseCommandLine ⟨fun _ => none, fun _ => false⟩ none
    [s%"--quiet", s%"val", s%"-h"] = .error (.systemExit 2) := rfl

end Punx

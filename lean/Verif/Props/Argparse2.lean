import Verif.Props.Argparse
import Verif.Props.Cli

/-!
# Reading the command line: the sub-command
-/

namespace Punx

variable {t : Texts} {p : CliParser}

/-! ## the parsers of `punx` -/

theorem top_named : WellNamed topParser := by
  refine ⟨?_, by decide⟩
  rintro n o ⟨h1, h2⟩
  simp only [topParser, helpOpt, List.mem_cons, List.not_mem_nil, or_false] at h1
  rcases h1 with rfl | rfl <;> simp only [List.mem_cons, List.not_mem_nil, or_false] at h2 <;>
    rcases h2 with rfl | rfl <;>
    first | exact Or.inl ⟨_, rfl, by decide, by decide⟩ | exact Or.inr ⟨_, rfl, by decide, by decide⟩

theorem configuration_named : WellNamed configurationParser := by
  refine ⟨?_, by decide⟩
  rintro n o ⟨h1, h2⟩
  simp only [configurationParser, helpOpt, List.mem_cons, List.not_mem_nil, or_false] at h1
  rcases h1 with rfl
  simp only [List.mem_cons, List.not_mem_nil, or_false] at h2
  rcases h2 with rfl | rfl <;>
    first | exact Or.inl ⟨_, rfl, by decide, by decide⟩ | exact Or.inr ⟨_, rfl, by decide, by decide⟩

theorem install_named : WellNamed installParser := by
  refine ⟨?_, by decide⟩
  rintro n o ⟨h1, h2⟩
  simp only [installParser, helpOpt, updateOpt, List.mem_cons, List.not_mem_nil, or_false] at h1
  rcases h1 with rfl | rfl <;> simp only [List.mem_cons, List.not_mem_nil, or_false] at h2 <;>
    rcases h2 with rfl | rfl <;>
    first | exact Or.inl ⟨_, rfl, by decide, by decide⟩ | exact Or.inr ⟨_, rfl, by decide, by decide⟩

theorem tree_named : WellNamed treeParser := by
  refine ⟨?_, by decide⟩
  rintro n o ⟨h1, h2⟩
  simp only [treeParser, helpOpt, attributesOpt, itemsOpt, List.mem_cons, List.not_mem_nil, or_false] at h1
  rcases h1 with rfl | rfl | rfl <;> simp only [List.mem_cons, List.not_mem_nil, or_false] at h2
  · rcases h2 with rfl | rfl <;>
      first | exact Or.inl ⟨_, rfl, by decide, by decide⟩ | exact Or.inr ⟨_, rfl, by decide, by decide⟩
  · subst h2
    exact Or.inl ⟨_, rfl, by decide, by decide⟩
  · rcases h2 with rfl | rfl <;>
      first | exact Or.inl ⟨_, rfl, by decide, by decide⟩ | exact Or.inr ⟨_, rfl, by decide, by decide⟩

theorem validate_named : WellNamed validateParser := by
  refine ⟨?_, by decide⟩
  rintro n o ⟨h1, h2⟩
  simp only [validateParser, helpOpt, fileSetOpt, reportOpt, List.mem_cons, List.not_mem_nil, or_false] at h1
  rcases h1 with rfl | rfl | rfl <;> simp only [List.mem_cons, List.not_mem_nil, or_false] at h2
  · rcases h2 with rfl | rfl <;>
      first | exact Or.inl ⟨_, rfl, by decide, by decide⟩ | exact Or.inr ⟨_, rfl, by decide, by decide⟩
  · rcases h2 with rfl | rfl <;>
      first | exact Or.inl ⟨_, rfl, by decide, by decide⟩ | exact Or.inr ⟨_, rfl, by decide, by decide⟩
  · subst h2
    exact Or.inr ⟨_, rfl, by decide, by decide⟩

/-- Every sub-command has a parser with proper names, and it does not have sub-commands. -/
theorem sub_named {name : Str} {q : CliParser} (h : subParser name = some q) :
    WellNamed q ∧ q.rest ≠ .command := by
  unfold subParser at h
  repeat' split at h
  all_goals simp only [Option.some.injEq, reduceCtorEq] at h
  all_goals subst h
  · exact ⟨configuration_named, by decide⟩
  · exact ⟨configuration_named, by decide⟩
  · exact ⟨install_named, by decide⟩
  · exact ⟨tree_named, by decide⟩
  · exact ⟨validate_named, by decide⟩

theorem sub_some_iff {name : Str} : (∃ q, subParser name = some q) ↔ name ∈ commands := by
  unfold subParser commands
  simp only [List.mem_cons, List.not_mem_nil, or_false]
  by_cases h1 : name = s%"configuration"
  · simp [h1]
  by_cases h2 : name = s%"demonstrate"
  · simp [h2]
  by_cases h3 : name = s%"install"
  · simp [h3]
  by_cases h4 : name = s%"tree"
  · simp [h4]
  by_cases h5 : name = s%"validate"
  · simp [h5]
  simp [h1, h2, h3, h4, h5]

theorem commands_no_dash : ∀ c ∈ commands, c.head? ≠ some '-' := by decide

/-! ## the sub-command -/

theorem calls_iff {w c : Str} : expandCommand commands w = .ok c ↔ c ∈ commands ∧ Calls w c := by
  constructor
  · intro h
    rcases (expand_iff (by decide) (by decide) w c).1 h with ⟨h1, rfl⟩ | ⟨-, h1, h2, h3, -⟩
    · refine ⟨h1, ?_, List.prefix_refl _⟩
      have : ∀ x ∈ commands, 2 ≤ x.length := by decide
      exact this _ h1
    · exact ⟨h2, h1, h3⟩
  · rintro ⟨h1, h2, h3⟩
    by_cases hw : w ∈ commands
    · refine (expand_iff (by decide) (by decide) w c).2 (Or.inl ⟨hw, ?_⟩)
      have hd : ∀ a ∈ commands, ∀ b ∈ commands, a <+: b → a = b := by decide
      exact (hd w hw c h1 h3).symm
    · refine (expand_iff (by decide) (by decide) w c).2 (Or.inr ⟨hw, h2, h1, h3, ?_⟩)
      have hu : ∀ x ∈ commands, ∀ y ∈ commands, x.head? = y.head? → x = y := by decide
      intro c' hc' hp
      refine hu c' hc' c h1 ?_
      obtain ⟨a, rfl⟩ := hp
      obtain ⟨b, rfl⟩ := h3
      match w, h2 with
      | x :: w, _ => rfl

/-- Arguments are looked at with the names of the parser for everything first. -/
theorem top_word {c : Str} (hc : c.head? ≠ some '-') (args : List Str) :
    parseKnown t topParser (c :: args) =
      match classify t topParser args with
      | .error e => .error e
      | .ok _ => .ok ⟨[], c :: args, []⟩ := by
  have hd : c ≠ ['-', '-'] := by
    rintro rfl
    simp at hc
  unfold parseKnown
  rw [classify_cons hd, parse_no_dash hc]
  cases h : classify t topParser args with
  | error e => rfl
  | ok is =>
    simp only
    unfold eat
    simp only [show topParser.rest = .command from rfl, Seen.empty, List.nil_append,
      classify_raw top_named h]
    rfl

/-- The sub-command is read by its own parser. -/
theorem args_iff {ref : Option Str} {c : Str} (hc : c ∈ commands) {args : List Str} {cmd : Command} :
    parseArgs t ref (c :: args) = .ok cmd ↔
      (∃ is, classify t topParser args = .ok is) ∧ ∃ q s, subParser c = some q ∧
        parseKnown t q args = .ok s ∧ s.extras = [] ∧ commandOf t ref c s = .ok cmd := by
  unfold parseArgs
  rw [top_word (commands_no_dash c hc)]
  cases h : classify t topParser args with
  | error e => simp
  | ok is =>
    obtain ⟨q, hq⟩ := sub_some_iff.2 hc
    simp only [hq, List.nil_append, Option.some.injEq]
    cases hk : parseKnown t q args with
    | error e =>
      simp only [reduceCtorEq, Except.ok.injEq, exists_eq', true_and, false_iff]
      rintro ⟨q', s, rfl, h', -⟩
      rw [hk] at h'
      simp at h'
    | ok s =>
      simp only [Except.ok.injEq, exists_eq', true_and]
      constructor
      · intro h'
        split at h'
        · rename_i he
          exact ⟨q, s, rfl, hk, by simpa using he, h'⟩
        · simp at h'
      · rintro ⟨q', s', rfl, h', h1, h2⟩
        rw [hk] at h'
        simp only [Except.ok.injEq] at h'
        subst h'
        simp [h1, h2]

/-! ## arguments that begin with a dash -/

/-- Reading goes on: what is left over stays, and only the statuses 0 and 2 are possible. -/
theorem eat_outcome : ∀ (is : List CliItem) (ph : Phase) (s : Seen),
    (∀ s', eat t p ph s is = .ok s' → s.extras <+: s'.extras) ∧
    (∀ e, eat t p ph s is = .error e → e = .systemExit 0 ∨ e = .systemExit 2)
  | [], ph, s => by
    unfold eat
    simp
  | .word w :: is, ph, s => by
    have h1 := fun ph s => eat_outcome is ph s
    have h2 : ∀ ph', (∀ s', eat t p ph' { s with extras := s.extras ++ [w] } is = .ok s' →
        s.extras <+: s'.extras) ∧ _ := fun ph' =>
      ⟨fun s' h => (List.prefix_append _ _).trans ((h1 ph' { s with extras := s.extras ++ [w] }).1 s' h),
        (h1 ph' { s with extras := s.extras ++ [w] }).2⟩
    unfold eat
    cases p.rest <;> cases ph <;> simp only <;>
      first
      | exact h2 _
      | exact h1 _ { s with words := s.words ++ [w] }
      | simp
  | .dashes :: is, ph, s => by
    have h1 := fun ph s => eat_outcome is ph s
    have h2 : ∀ ph', (∀ s', eat t p ph' { s with extras := s.extras ++ [s%"--"] } is = .ok s' →
        s.extras <+: s'.extras) ∧ _ := fun ph' =>
      ⟨fun s' h => (List.prefix_append _ _).trans
          ((h1 ph' { s with extras := s.extras ++ [s%"--"] }).1 s' h),
        (h1 ph' { s with extras := s.extras ++ [s%"--"] }).2⟩
    unfold eat
    cases p.rest <;> cases ph <;> simp only <;>
      first
      | exact h2 _
      | exact h1 _ s
      | (split <;> simp)
  | .option u :: is, ph, s => by
    unfold eat
    cases hu : useOption p u with
    | error e => simp [useOption_error hu]
    | ok r =>
      simp only
      cases ha : r.awaits with
      | none =>
        simp only
        cases hk : takeActions t r.done with
        | error e =>
          rw [takeActions_check] at hk
          simpa using check_error hk
        | ok _ =>
          have := eat_outcome is ph.close
            { s with options := s.options ++ r.done, extras := s.extras ++ r.extra.toList }
          exact ⟨fun s' h => (List.prefix_append _ _).trans (this.1 s' h), this.2⟩
      | some o =>
        match is with
        | .word v :: is' =>
          simp only
          cases hk : takeActions t (r.done ++ [(o, some v)]) with
          | error e =>
            rw [takeActions_check] at hk
            simpa using check_error hk
          | ok _ => exact eat_outcome is' ph.close _
        | [] => simp
        | .dashes :: is' => simp
        | .option u' :: is' => simp

theorem letters_mem {s : Str} {ps : List Piece} {w : Option CliOpt} (h : Letters p s ps w) :
    (∀ o v, Piece.option o v ∈ ps → o ∈ p.opts) ∧ (∀ o, w = some o → o ∈ p.opts ∧ o.takes = true) ∧
      (w = none → ∃ o v qs, ps = .option o v :: qs) := by
  induction h with
  | flag h _ =>
    refine ⟨?_, by simp, fun _ => ⟨_, _, _, rfl⟩⟩
    rintro o v hm
    simp at hm
    rw [hm.1]
    exact h.1
  | flags h _ _ ih =>
    refine ⟨?_, ih.2.1, fun _ => ⟨_, _, _, rfl⟩⟩
    rintro o v hm
    rcases List.mem_cons.1 hm with hm | hm
    · simp at hm
      rw [hm.1]
      exact h.1
    · exact ih.1 o v hm
  | text h _ _ _ =>
    refine ⟨?_, by simp, fun _ => ⟨_, _, _, rfl⟩⟩
    rintro o v hm
    simp at hm
    rw [hm.1]
    exact h.1
  | textEq h _ =>
    refine ⟨?_, by simp, fun _ => ⟨_, _, _, rfl⟩⟩
    rintro o v hm
    simp at hm
    rw [hm.1]
    exact h.1
  | awaits h ht =>
    refine ⟨by simp, ?_, by simp⟩
    rintro o ho
    simp only [Option.some.injEq] at ho
    subst ho
    exact ⟨h.1, ht⟩
  | left h _ _ _ _ =>
    refine ⟨?_, by simp, fun _ => ⟨_, _, _, rfl⟩⟩
    rintro o v hm
    simp at hm
    rw [hm.1]
    exact h.1

theorem StandsFor.mem {n : Str} {o : CliOpt} (h : StandsFor p n o) : o ∈ p.opts := by
  rcases h with h | ⟨-, m, h, -⟩ <;> exact h.1

theorem options_mem {a : Str} {ps : List Piece} {w : Option CliOpt} (h : Options t p a ps w) :
    (∀ o v, Piece.option o v ∈ ps → o ∈ p.opts) ∧ (∀ o, w = some o → o ∈ p.opts ∧ o.takes = true) ∧
      (w = none → (∃ o v qs, ps = .option o v :: qs) ∨ ps = [.extra a]) := by
  cases h with
  | letters h =>
    have := letters_mem h
    exact ⟨this.1, this.2.1, fun h => Or.inl (this.2.2 h)⟩
  | long _ _ h _ =>
    refine ⟨?_, by simp, fun _ => Or.inl ⟨_, _, _, rfl⟩⟩
    rintro o v hm
    simp at hm
    rw [hm.1]
    exact h.mem
  | longAwaits _ _ h ht =>
    refine ⟨by simp, ?_, by simp⟩
    rintro o ho
    simp only [Option.some.injEq] at ho
    subst ho
    exact ⟨h.mem, ht⟩
  | longText _ h _ =>
    refine ⟨?_, by simp, fun _ => Or.inl ⟨_, _, _, rfl⟩⟩
    rintro o v hm
    simp at hm
    rw [hm.1]
    exact h.mem
  | unknown h => exact ⟨by simp, by simp, fun _ => Or.inr rfl⟩

/-- A first argument with a dash leaves something over or is taken for the name of a sub-command. -/
theorem top_dash {w : Str} (hw : w.head? = some '-') {ws : List Str} {s : Seen}
    (h : parseKnown t topParser (w :: ws) = .ok s) : s.extras ≠ [] ∨ ∃ ws', s.words = w :: ws' := by
  unfold parseKnown at h
  cases hc : classify t topParser (w :: ws) with
  | error e => rw [hc] at h; simp at h
  | ok is =>
    rw [hc] at h
    simp only at h
    cases he : eat t topParser .fresh .empty is with
    | error e => rw [he] at h; simp at h
    | ok s' =>
      rw [he] at h
      simp only [show (topParser.rest == .one) = false from rfl, Bool.false_and, Bool.false_eq_true,
        if_false, Except.ok.injEq] at h
      subst h
      rcases classify_inv top_named hc with ⟨h', -⟩ | ⟨as, h', rfl⟩ | ⟨a, as, is', h', rfl, h1, h2⟩ |
        ⟨a, as, u, is', h', ha, rfl, h1, h2⟩
      · simp at h'
      · simp only [List.cons.injEq] at h'
        obtain ⟨rfl, rfl⟩ := h'
        unfold eat at he
        simp only [show topParser.rest = .command from rfl, Seen.empty, List.nil_append] at he
        cases ws with
        | nil =>
          simp only [List.map_nil, Except.ok.injEq] at he
          left
          rw [← he]
          simp
        | cons a ws =>
          simp only [List.map_cons, Except.ok.injEq] at he
          right
          exact ⟨_, by rw [← he]⟩
      · simp only [List.cons.injEq] at h'
        obtain ⟨rfl, rfl⟩ := h'
        unfold eat at he
        simp only [show topParser.rest = .command from rfl, Seen.empty, List.nil_append,
          Except.ok.injEq] at he
        right
        exact ⟨_, by rw [← he]⟩
      · simp only [List.cons.injEq] at h'
        obtain ⟨rfl, rfl⟩ := h'
        unfold eat at he
        cases hu : useOption topParser u with
        | error e => rw [hu] at he; simp at he
        | ok r =>
          have ho := options_mem ((options_iff (t := t) top_named ha).2 ⟨u, r, h1, hu, rfl, rfl⟩)
          have hex : ∀ o ∈ topParser.opts, o.kind = .exits ∧ o.takes = false := by decide
          rw [hu] at he
          simp only at he
          cases hx : r.awaits with
          | some o =>
            have := ho.2.1 o hx
            rw [(hex o this.1).2] at this
            simp at this
          | none =>
            rw [hx] at he
            simp only at he
            rcases ho.2.2 hx with ⟨o, v, qs, hps⟩ | hps
            · have hk := (hex o (ho.1 o v (by rw [hps]; simp))).1
              have hcp : checkPieces t r.pieces = .error (.systemExit 0) := by
                rw [hps]
                simp [checkPieces, takeOne_exits hk]
              have htk : takeActions t r.done = checkPieces t r.pieces := by
                unfold Uses.pieces
                rw [check_append, ← takeActions_check]
                cases takeActions t r.done with
                | error e => rfl
                | ok _ => cases r.extra <;> rfl
              rw [htk, hcp] at he
              simp at he
            · have hd : r.done = [] := by
                cases hd : r.done with
                | nil => rfl
                | cons d ds =>
                  unfold Uses.pieces at hps
                  rw [hd] at hps
                  simp at hps
              have hxt : r.extra = some w := by
                unfold Uses.pieces at hps
                rw [hd] at hps
                cases hy : r.extra with
                | none => rw [hy] at hps; simp at hps
                | some y => rw [hy] at hps; simpa using hps
              rw [hd, hxt] at he
              simp only [takeActions] at he
              have := (eat_outcome _ _ _).1 _ he
              left
              intro hs
              rw [hs] at this
              simp [Seen.empty] at this

theorem dash_not_command {w : Str} (hw : w.head? = some '-') : subParser w = none := by
  cases h : subParser w with
  | none => rfl
  | some q => exact absurd hw (commands_no_dash w (sub_some_iff.1 ⟨q, h⟩))

theorem commandOf_ok {ref : Option Str} {c : Str} (hc : c ∈ commands) (s : Seen) :
    ∃ cmd, commandOf t ref c s = .ok cmd := by
  simp only [commands, List.mem_cons, List.not_mem_nil, or_false] at hc
  unfold commandOf
  rcases hc with rfl | rfl | rfl | rfl | rfl
  · exact ⟨_, rfl⟩
  · exact ⟨_, rfl⟩
  · exact ⟨_, rfl⟩
  · exact ⟨_, rfl⟩
  · exact ⟨_, rfl⟩

theorem args_error {ref : Option Str} {args : List Str} {e : PyErr} (h : parseArgs t ref args = .error e) :
    e = .systemExit 0 ∨ (args = [] ∧ e = .systemExit 1) ∨ e = .systemExit 2 := by
  unfold parseArgs at h
  cases hk : parseKnown t topParser args with
  | error e' =>
    rw [hk] at h
    simp only [Except.error.injEq] at h
    subst h
    unfold parseKnown at hk
    cases hc : classify t topParser args with
    | error e'' =>
      rw [hc] at hk
      simp only [Except.error.injEq] at hk
      subst hk
      exact Or.inr (Or.inr (classify_error top_named hc))
    | ok is =>
      rw [hc] at hk
      simp only at hk
      cases he : eat t topParser .fresh .empty is with
      | error e'' =>
        rw [he] at hk
        simp only [Except.error.injEq] at hk
        subst hk
        rcases (eat_outcome _ _ _).2 _ he with h | h
        · exact Or.inl h
        · exact Or.inr (Or.inr h)
      | ok s =>
        rw [he] at hk
        simp [show (topParser.rest == .one) = false from rfl] at hk
  | ok s =>
    rw [hk] at h
    simp only at h
    cases hw : s.words with
    | nil =>
      rw [hw] at h
      simp only at h
      split at h
      · rename_i hx
        simp only [Except.error.injEq] at h
        subst h
        refine Or.inr (Or.inl ⟨?_, rfl⟩)
        match args with
        | [] => rfl
        | w :: ws =>
          exfalso
          by_cases hd : w.head? = some '-'
          · rcases top_dash hd hk with h1 | ⟨ws', h1⟩
            · simp at hx
              exact h1 hx
            · rw [hw] at h1
              simp at h1
          · rw [top_word hd] at hk
            cases hc : classify t topParser ws with
            | error e => rw [hc] at hk; simp at hk
            | ok is =>
              rw [hc] at hk
              simp only [Except.ok.injEq] at hk
              rw [← hk] at hw
              simp at hw
      · simp only [Except.error.injEq] at h
        exact Or.inr (Or.inr h.symm)
    | cons name rest =>
      rw [hw] at h
      simp only at h
      cases hq : subParser name with
      | none =>
        rw [hq] at h
        simp only [Except.error.injEq] at h
        exact Or.inr (Or.inr h.symm)
      | some q =>
        rw [hq] at h
        simp only at h
        cases hk' : parseKnown t q rest with
        | error e' =>
          rw [hk'] at h
          simp only [Except.error.injEq] at h
          subst h
          rcases known_error (sub_named hq).1 (sub_named hq).2 hk' with h | h
          · exact Or.inl h
          · exact Or.inr (Or.inr h)
        | ok s' =>
          rw [hk'] at h
          simp only at h
          split at h
          · obtain ⟨cmd, hcmd⟩ := commandOf_ok (t := t) (ref := ref) (sub_some_iff.1 ⟨q, hq⟩) s'
            rw [hcmd] at h
            simp at h
          · simp only [Except.error.injEq] at h
            exact Or.inr (Or.inr h.symm)

/-- With a dash at the beginning no sub-command is run. -/
theorem args_dash {ref : Option Str} {w : Str} (hw : w.head? = some '-') (ws : List Str) (cmd : Command) :
    parseArgs t ref (w :: ws) ≠ .ok cmd := by
  intro h
  unfold parseArgs at h
  cases hk : parseKnown t topParser (w :: ws) with
  | error e => rw [hk] at h; simp at h
  | ok s =>
    rw [hk] at h
    simp only at h
    rcases top_dash hw hk with h1 | ⟨ws', h1⟩
    · cases hx : s.words with
      | nil =>
        rw [hx] at h
        simp only at h
        split at h <;> simp at h
      | cons name rest =>
        rw [hx] at h
        simp only at h
        cases hq : subParser name with
        | none => rw [hq] at h; simp at h
        | some q =>
          rw [hq] at h
          simp only at h
          cases hk' : parseKnown t q rest with
          | error e => rw [hk'] at h; simp at h
          | ok s' =>
            rw [hk'] at h
            simp only at h
            split at h
            · rename_i hi
              simp at hi
              exact h1 hi.1
            · simp at h
    · rw [h1] at h
      simp only [dash_not_command hw] at h
      simp at h

theorem starts_head {w : Str} : startsWith w s%"-" = true ↔ w.head? = some '-' := by
  rw [startsWith_iff]
  constructor
  · rintro ⟨b, rfl⟩
    rfl
  · intro h
    match w with
    | c :: w =>
      simp only [List.head?_cons, Option.some.injEq] at h
      exact ⟨w, by rw [h]; rfl⟩

/-- Which sub-command is run, and by which parser its arguments are read. -/
theorem line_iff {ref : Option Str} {args : List Str} {cmd : Command} :
    parseCommandLine t ref args = .ok cmd ↔
      ∃ c rest name q s, args = c :: rest ∧ name ∈ commands ∧ Calls c name ∧
        (∃ is, classify t topParser rest = .ok is) ∧ subParser name = some q ∧
        parseKnown t q rest = .ok s ∧ s.extras = [] ∧ commandOf t ref name s = .ok cmd := by
  match args with
  | [] =>
    simp only [parseCommandLine, reduceCtorEq, false_and, exists_false, iff_false]
    intro h
    simp [parseArgs, parseKnown, classify, eat, Seen.empty, topParser] at h
  | w :: ws =>
    simp only [parseCommandLine]
    by_cases hw : w.head? = some '-'
    · rw [if_pos (starts_head.2 hw)]
      constructor
      · exact fun h => absurd h (args_dash hw ws cmd)
      · rintro ⟨c, rest, name, q, s, h1, h2, ⟨h3, h4⟩, -⟩
        simp only [List.cons.injEq] at h1
        obtain ⟨rfl, rfl⟩ := h1
        obtain ⟨b, rfl⟩ := h4
        refine absurd ?_ (commands_no_dash _ h2)
        match w, hw with
        | x :: w, hw => exact hw
    · rw [if_neg (by rwa [starts_head])]
      cases he : expandCommand commands w with
      | error e =>
        simp only [reduceCtorEq, false_iff]
        rintro ⟨c, rest, name, q, s, h1, h2, h3, -⟩
        simp only [List.cons.injEq] at h1
        obtain ⟨rfl, rfl⟩ := h1
        rw [calls_iff.2 ⟨h2, h3⟩] at he
        simp at he
      | ok c =>
        obtain ⟨h1, h2⟩ := calls_iff.1 he
        simp only
        rw [args_iff h1]
        constructor
        · rintro ⟨h3, q, s, h4, h5, h6, h7⟩
          exact ⟨w, ws, c, q, s, rfl, h1, h2, h3, h4, h5, h6, h7⟩
        · rintro ⟨c', rest, name, q, s, h3, h4, h5, h6, h7, h8, h9, h10⟩
          simp only [List.cons.injEq] at h3
          obtain ⟨rfl, rfl⟩ := h3
          have := calls_iff.2 ⟨h4, h5⟩
          rw [he] at this
          simp only [Except.ok.injEq] at this
          subst this
          exact ⟨h6, q, s, h7, h8, h9, h10⟩

/-- **C115**: there is nothing else: a sub-command is run, or help or the version is shown (status 0),
or there are no arguments at all (status 1), or the arguments are wrong (status 2). -/
theorem line_outcomes (t : Texts) (ref : Option Str) (args : List Str) :
    (∃ cmd, parseCommandLine t ref args = .ok cmd) ∨
    parseCommandLine t ref args = .error (.systemExit 0) ∨
    (args = [] ∧ parseCommandLine t ref args = .error (.systemExit 1)) ∨
    parseCommandLine t ref args = .error (.systemExit 2) := by
  cases h : parseCommandLine t ref args with
  | ok cmd => exact Or.inl ⟨cmd, rfl⟩
  | error e =>
    right
    simp only [Except.error.injEq]
    match args with
    | [] =>
      simp only [parseCommandLine] at h
      rcases args_error h with h | h | h
      · exact Or.inl h
      · exact Or.inr (Or.inl h)
      · exact Or.inr (Or.inr h)
    | w :: ws =>
      simp only [parseCommandLine] at h
      split at h
      · rcases args_error h with h | h | h
        · exact Or.inl h
        · simp at h
        · exact Or.inr (Or.inr h)
      · cases he : expandCommand commands w with
        | error e' =>
          rw [he] at h
          simp only [Except.error.injEq] at h
          subst h
          exact Or.inr (Or.inr (expand_rejects _ _ _ he))
        | ok c =>
          rw [he] at h
          simp only at h
          rcases args_error h with h | h | h
          · exact Or.inl h
          · simp at h
          · exact Or.inr (Or.inr h)

/-- **C115**: without any argument the status is 1. -/
theorem no_arguments (t : Texts) (ref : Option Str) :
    parseCommandLine t ref [] = .error (.systemExit 1) := by
  simp [parseCommandLine, parseArgs, parseKnown, classify, eat, Seen.empty, topParser]

end Punx

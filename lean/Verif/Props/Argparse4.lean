import Verif.Props.Argparse3
import Verif.Props.Command
import Verif.Props.Configuration

/-!
# C116: the order of the arguments; C117: the set that is used
-/

namespace Punx

open Spec

variable {t : Texts} {p : CliParser}

/-! ## arguments after each other -/

theorem consists_append {as bs : List Str} {ps qs : List Piece} (h : Consists t p as ps)
    (hd : Piece.dashes ∉ ps) (h2 : Consists t p bs qs) : Consists t p (as ++ bs) (ps ++ qs) := by
  induction h with
  | nil => exact h2
  | word h _ ih => exact .word h (ih (by simpa using hd))
  | options h _ ih =>
    rw [List.append_assoc]
    exact .options h (ih (fun h' => hd (List.mem_append.2 (Or.inr h'))))
  | optionsText h hv _ ih =>
    rw [List.append_assoc]
    exact .optionsText h hv (ih (fun h' => hd (List.mem_append.2 (Or.inr (List.mem_cons_of_mem _ h')))))
  | dashes => simp at hd

/-- No words and no `--`. -/
def NoWords (ps : List Piece) : Prop := ∀ x ∈ ps, (∃ o v, x = .option o v) ∨ ∃ s, x = .extra s

theorem NoWords.dashes {ps : List Piece} (h : NoWords ps) : Piece.dashes ∉ ps := by
  intro hm
  rcases h _ hm with ⟨o, v, h⟩ | ⟨s, h⟩ <;> simp at h

theorem OnlyOptions.noWords {ps : List Piece} (h : OnlyOptions ps) : NoWords ps :=
  fun x hx => Or.inl (h x hx)

/-- What is left over of pieces without words. -/
def extrasOf (ps : List Piece) : List Str := ps.filterMap fun | .extra s => some s | _ => none

theorem OnlyOptions.extras {ps : List Piece} (h : OnlyOptions ps) : extrasOf ps = [] := by
  unfold extrasOf
  rw [List.filterMap_eq_nil_iff]
  intro x hx
  obtain ⟨o, v, rfl⟩ := h x hx
  rfl

theorem feed_noWords {rest : Rest} {ph : Phase} {s : Seen} {ps : List Piece} (h : NoWords ps) :
    feed rest (ph, s) ps = (if ps = [] then ph else ph.close,
      { s with options := s.options ++ optionsOf ps, extras := s.extras ++ extrasOf ps }) := by
  induction ps generalizing ph s with
  | nil => simp [optionsOf, extrasOf]
  | cons x ps ih =>
    have ih := fun ph s => ih (ph := ph) (s := s) (fun y hy => h y (List.mem_cons_of_mem _ hy))
    rcases h x (by simp) with ⟨o, v, rfl⟩ | ⟨e, rfl⟩
    · simp [feed_cons, step, ih, optionsOf, extrasOf]
    · simp [feed_cons, step, ih, optionsOf, extrasOf]

theorem check_words (as bs : List Piece) (w : Str) :
    checkPieces t (as ++ .word w :: bs) = checkPieces t (as ++ bs) := by
  rw [check_append, check_append]
  rfl

/-- The parser for everything accepts what the parser of a sub-command with words accepts. -/
theorem sub_top {name : Str} {q : CliParser} (hq : subParser name = some q) (hr : q.rest ≠ .none)
    {args : List Str} {ps : List Piece} (h : Consists t q args ps) :
    ∃ is, classify t topParser args = .ok is := by
  obtain ⟨is, hi⟩ := consists_classify (sub_named hq).1 h
  unfold subParser at hq
  repeat' split at hq
  all_goals simp only [Option.some.injEq, reduceCtorEq] at hq
  all_goals subst hq
  · exact absurd rfl hr
  · exact absurd rfl hr
  · exact top_accepts install_named (m := s%"help") (m' := s%"update") (o := helpOpt) (o' := updateOpt)
      ⟨by decide, by decide⟩ ⟨by decide, by decide⟩ (by decide) hi
  · exact top_accepts tree_named (m := s%"help") (m' := s%"max_array_items") (o := helpOpt) (o' := itemsOpt)
      ⟨by decide, by decide⟩ ⟨by decide, by decide⟩ (by decide) hi
  · exact top_accepts validate_named (m := s%"help") (m' := s%"report") (o := helpOpt) (o' := reportOpt)
      ⟨by decide, by decide⟩ ⟨by decide, by decide⟩ (by decide) hi

/-- What happens to arguments that consist of these pieces. -/
theorem line_pieces {ref : Option Str} {c name : Str} {q : CliParser} {rest : List Str} {ps : List Piece}
    (hq : subParser name = some q) (hr : q.rest ≠ .none) (hc : Calls c name) (h : Consists t q rest ps) :
    parseCommandLine t ref (c :: rest) =
      match checkPieces t ps with
      | .error e => .error e
      | .ok () =>
        if q.rest == .one && (feed q.rest (.fresh, .empty) ps).2.words.isEmpty then .error (.systemExit 2)
        else if (feed q.rest (.fresh, .empty) ps).2.extras.isEmpty then
          commandOf t ref name (feed q.rest (.fresh, .empty) ps).2
        else .error (.systemExit 2) := by
  rw [line_sub hq hc]
  obtain ⟨is, hi⟩ := sub_top hq hr h
  rw [hi, known_consists (sub_named hq).1 (sub_named hq).2 h]
  cases checkPieces t ps with
  | error e => rfl
  | ok _ =>
    simp only
    cases (q.rest == .one && (feed q.rest (.fresh, .empty) ps).2.words.isEmpty) <;> simp

/-- **C116** (partial: not for `install`): the name of the file may be anywhere among the options of
`tree` and `validate`: the outcome is the same, be it a command, help or an error. -/
theorem word_anywhere_partial {ref : Option Str} {c name w : Str} {q : CliParser} {pre post : List Str}
    {ps qs : List Piece} (hq : subParser name = some q) (hr : q.rest = .one) (hc : Calls c name)
    (h1 : Consists t q pre ps) (h2 : NoWords ps) (h3 : Consists t q post qs) (h4 : NoWords qs)
    (hw : IsWord t q w) :
    parseCommandLine t ref (c :: (pre ++ w :: post)) = parseCommandLine t ref (c :: w :: (pre ++ post)) := by
  have hn : q.rest ≠ .none := by rw [hr]; decide
  rw [line_pieces hq hn hc (consists_append h1 h2.dashes (.word hw h3)),
    line_pieces hq hn hc (.word hw (consists_append h1 h2.dashes h3)), check_words]
  have e1 : (feed q.rest (.fresh, .empty) (ps ++ .word w :: qs)).2 =
      ⟨optionsOf ps ++ optionsOf qs, [w], extrasOf ps ++ extrasOf qs⟩ := by
    rw [hr, feed_append, feed_noWords h2, feed_cons]
    have : (if ps = [] then Phase.fresh else Phase.fresh.close) = .fresh := by split <;> rfl
    rw [this]
    simp only [step]
    rw [feed_noWords h4]
    simp [Seen.empty]
  have e2 : (feed q.rest (.fresh, .empty) (.word w :: (ps ++ qs))).2 =
      ⟨optionsOf ps ++ optionsOf qs, [w], extrasOf ps ++ extrasOf qs⟩ := by
    rw [hr, feed_cons]
    simp only [step]
    rw [feed_append, feed_noWords h2, feed_noWords h4]
    simp [Seen.empty]
  rw [e1, e2]
  rfl

theorem consists_words {ws : List Str} (h : ∀ w ∈ ws, IsWord t p w) {as : List Str} {ps : List Piece}
    (ha : Consists t p as ps) : Consists t p (ws ++ as) (ws.map .word ++ ps) := by
  induction ws with
  | nil => exact ha
  | cons w ws ih => exact .word (h w (by simp)) (ih fun x hx => h x (List.mem_cons_of_mem _ hx))

theorem feed_words {ph : Phase} (hp : ph = .fresh ∨ ph = .taking) {s : Seen} {ws : List Str} :
    feed .many (ph, s) (ws.map .word) =
      (if ws = [] then ph else .taking, { s with words := s.words ++ ws }) := by
  induction ws generalizing ph s with
  | nil => simp
  | cons w ws ih =>
    rw [List.map_cons, feed_cons]
    have : step .many (ph, s) (.word w) = (.taking, { s with words := s.words ++ [w] }) := by
      rcases hp with rfl | rfl <;> rfl
    rw [this, ih (Or.inr rfl)]
    simp

theorem check_map_words {ws : List Str} {as bs : List Piece} :
    checkPieces t (as ++ (ws.map .word ++ bs)) = checkPieces t (as ++ bs) := by
  induction ws with
  | nil => rfl
  | cons w ws ih => rw [List.map_cons, List.cons_append, check_words, ih]

/-- **C116** (partial: the names must be together): the names of sets for `install` may be anywhere among
the options. -/
theorem names_anywhere_partial {ref : Option Str} {c : Str} {pre post ws : List Str} {ps qs : List Piece}
    (hc : Calls c s%"install") (h1 : Consists t installParser pre ps) (h2 : NoWords ps)
    (h3 : Consists t installParser post qs) (h4 : NoWords qs) (hw : ∀ w ∈ ws, IsWord t installParser w) :
    parseCommandLine t ref (c :: (pre ++ (ws ++ post))) = parseCommandLine t ref (c :: (ws ++ (pre ++ post))) := by
  have hq : subParser s%"install" = some installParser := rfl
  have hn : installParser.rest ≠ .none := by decide
  have hm : installParser.rest = .many := rfl
  rw [line_pieces hq hn hc (consists_append h1 h2.dashes (consists_words hw h3)),
    line_pieces hq hn hc (consists_words hw (consists_append h1 h2.dashes h3)), check_map_words,
    ← List.nil_append (List.map _ _ ++ (ps ++ qs)), check_map_words, List.nil_append, List.nil_append]
  have hfresh : (if ps = [] then Phase.fresh else Phase.fresh.close) = .fresh := by split <;> rfl
  have e1 : (feed .many (.fresh, .empty) (ps ++ (ws.map .word ++ qs))).2 =
      ⟨optionsOf ps ++ optionsOf qs, ws, extrasOf ps ++ extrasOf qs⟩ := by
    rw [feed_append, feed_noWords h2, feed_append, hfresh, feed_words (Or.inl rfl), feed_noWords h4]
    simp [Seen.empty]
  have e2 : (feed .many (.fresh, .empty) (ws.map .word ++ (ps ++ qs))).2 =
      ⟨optionsOf ps ++ optionsOf qs, ws, extrasOf ps ++ extrasOf qs⟩ := by
    rw [feed_append, feed_words (Or.inl rfl), feed_append, feed_noWords h2, feed_noWords h4]
    simp [Seen.empty]
  rw [hm, e1, e2]

/-! ## options in another order -/

theorem feed_indep {rest : Rest} {ph : Phase} {s : Seen} (os : List (CliOpt × Option Str))
    {ps : List Piece} :
    (feed rest (ph, { s with options := os }) ps).2.words = (feed rest (ph, s) ps).2.words ∧
    (feed rest (ph, { s with options := os }) ps).2.extras = (feed rest (ph, s) ps).2.extras := by
  induction ps generalizing ph s os with
  | nil => simp
  | cons x ps ih =>
    rw [feed_cons, feed_cons]
    cases x with
    | option o v =>
      simp only [step]
      have := ih (ph := ph.close) (s := { s with options := s.options ++ [(o, v)] }) (os ++ [(o, v)])
      exact this
    | extra e => exact ih (ph := ph.close) (s := { s with extras := s.extras ++ [e] }) os
    | word w =>
      cases rest <;> cases ph <;> simp only [step] <;>
        first
        | exact ih (s := { s with words := s.words ++ [w] }) os
        | exact ih (s := { s with extras := s.extras ++ [w] }) os
    | dashes =>
      cases rest <;> cases ph <;> simp only [step] <;>
        first
        | exact ih (s := s) os
        | exact ih (s := { s with extras := s.extras ++ [s%"--"] }) os

theorem lastText_swap {o : CliOpt} {z a b r : List (CliOpt × Option Str)}
    (h : ∀ o v v', (o, v) ∈ a → (o, v') ∉ b) :
    lastText o (z ++ a ++ b ++ r) = lastText o (z ++ b ++ a ++ r) := by
  have key : ∀ l : List (CliOpt × Option Str), (∀ v, (o, v) ∉ l) →
      (l.filterMap fun d => if d.1 == o then d.2 else none) = [] := by
    intro l hl
    rw [List.filterMap_eq_nil_iff]
    rintro ⟨o', v⟩ hm
    by_cases ho : o' = o
    · subst ho
      exact absurd hm (hl v)
    · simp [ho]
  unfold lastText
  simp only [List.filterMap_append]
  by_cases ha : ∃ v, (o, v) ∈ a
  · obtain ⟨v, hv⟩ := ha
    rw [key b (fun v' => h o v v' hv)]
    simp
  · rw [key a (fun v hv => ha ⟨v, hv⟩)]
    simp

theorem any_swap {o : CliOpt} {z a b r : List (CliOpt × Option Str)} :
    ((z ++ a ++ b ++ r).any fun d => d.1 == o) = ((z ++ b ++ a ++ r).any fun d => d.1 == o) := by
  simp only [List.any_append]
  cases z.any fun d => d.1 == o <;> cases a.any fun d => d.1 == o <;> cases b.any fun d => d.1 == o <;> rfl

theorem commandOf_swap {ref : Option Str} {name : Str} {ws es : List Str} {z a b r : List (CliOpt × Option Str)}
    (h : ∀ o v v', (o, v) ∈ a → (o, v') ∉ b) :
    commandOf t ref name ⟨z ++ a ++ b ++ r, ws, es⟩ = commandOf t ref name ⟨z ++ b ++ a ++ r, ws, es⟩ := by
  unfold commandOf
  simp only [lastText_swap h, any_swap (z := z) (a := a) (b := b) (r := r)]

/-- **C116**: options may be exchanged with other options, wherever they are. -/
theorem options_swap {ref : Option Str} {c name : Str} {q : CliParser} {zs as bs rs : List Str}
    {ws ps qs us : List Piece} (hq : subParser name = some q) (hr : q.rest ≠ .none) (hc : Calls c name)
    (h0 : Consists t q zs ws) (h0' : Piece.dashes ∉ ws)
    (h1 : Consists t q as ps) (h2 : OnlyOptions ps) (h3 : Consists t q bs qs) (h4 : OnlyOptions qs)
    (h5 : Consists t q rs us) (hd : ∀ o v v', Piece.option o v ∈ ps → Piece.option o v' ∉ qs)
    (cmd : Command) :
    parseCommandLine t ref (c :: (zs ++ as ++ bs ++ rs)) = .ok cmd ↔
      parseCommandLine t ref (c :: (zs ++ bs ++ as ++ rs)) = .ok cmd := by
  have hc1 := consists_append (consists_append (consists_append h0 h0' h1)
    (by simp [h0', h2.noWords.dashes]) h3) (by simp [h0', h2.noWords.dashes, h4.noWords.dashes]) h5
  have hc2 := consists_append (consists_append (consists_append h0 h0' h3)
    (by simp [h0', h4.noWords.dashes]) h1) (by simp [h0', h2.noWords.dashes, h4.noWords.dashes]) h5
  rw [line_pieces hq hr hc hc1, line_pieces hq hr hc hc2]
  have hok : checkPieces t (ws ++ ps ++ qs ++ us) = .ok () ↔ checkPieces t (ws ++ qs ++ ps ++ us) = .ok () := by
    rw [check_ok_iff, check_ok_iff]
    simp only [List.mem_append]
    constructor
    · exact fun h x hx => h x (by tauto)
    · exact fun h x hx => h x (by tauto)
  have hfeed : ∀ {xs ys : List Piece}, OnlyOptions xs → OnlyOptions ys →
      feed q.rest (.fresh, .empty) (ws ++ xs ++ ys ++ us) =
        feed q.rest (if xs ++ ys = [] then (feed q.rest (.fresh, .empty) ws).1
            else (feed q.rest (.fresh, .empty) ws).1.close,
          { (feed q.rest (.fresh, .empty) ws).2 with
            options := (feed q.rest (.fresh, .empty) ws).2.options ++ (optionsOf xs ++ optionsOf ys) }) us := by
    intro xs ys hx hy
    have hxy : OnlyOptions (xs ++ ys) := onlyOptions_append.2 ⟨hx, hy⟩
    rw [List.append_assoc ws, feed_append, feed_append]
    obtain ⟨ph, s⟩ := feed q.rest (.fresh, .empty) ws
    rw [feed_noWords hxy.noWords, hxy.extras]
    simp [optionsOf]
  have f1 := hfeed h2 h4
  have f2 := hfeed h4 h2
  have hcomm : (ps ++ qs = []) ↔ (qs ++ ps = []) := by
    simp only [List.append_eq_nil_iff]
    exact And.comm
  set ph := (if ps ++ qs = [] then (feed q.rest (.fresh, .empty) ws).1
            else (feed q.rest (.fresh, .empty) ws).1.close) with hph
  have hph2 : (if qs ++ ps = [] then (feed q.rest (.fresh, .empty) ws).1
            else (feed q.rest (.fresh, .empty) ws).1.close) = ph := by
    rw [hph]
    by_cases h : ps ++ qs = []
    · rw [if_pos h, if_pos (hcomm.1 h)]
    · rw [if_neg h, if_neg (fun h' => h (hcomm.2 h'))]
  rw [hph2] at f2
  have g1 := feed_indep (rest := q.rest) (ph := ph) (s := (feed q.rest (.fresh, .empty) ws).2)
    ((feed q.rest (.fresh, .empty) ws).2.options ++ (optionsOf ps ++ optionsOf qs)) (ps := us)
  have g2 := feed_indep (rest := q.rest) (ph := ph) (s := (feed q.rest (.fresh, .empty) ws).2)
    ((feed q.rest (.fresh, .empty) ws).2.options ++ (optionsOf qs ++ optionsOf ps)) (ps := us)
  rw [← f1] at g1
  rw [← f2] at g2
  have hw : (feed q.rest (.fresh, .empty) (ws ++ ps ++ qs ++ us)).2.words =
      (feed q.rest (.fresh, .empty) (ws ++ qs ++ ps ++ us)).2.words := g1.1.trans g2.1.symm
  have he : (feed q.rest (.fresh, .empty) (ws ++ ps ++ qs ++ us)).2.extras =
      (feed q.rest (.fresh, .empty) (ws ++ qs ++ ps ++ us)).2.extras := g1.2.trans g2.2.symm
  have hcmd : commandOf t ref name (feed q.rest (.fresh, .empty) (ws ++ ps ++ qs ++ us)).2 =
      commandOf t ref name (feed q.rest (.fresh, .empty) (ws ++ qs ++ ps ++ us)).2 := by
    have hs : ∀ s : Seen, s = ⟨s.options, s.words, s.extras⟩ := fun s => rfl
    rw [hs (feed q.rest (.fresh, .empty) (ws ++ ps ++ qs ++ us)).2,
      hs (feed q.rest (.fresh, .empty) (ws ++ qs ++ ps ++ us)).2, hw, he, feed_options_all, feed_options_all]
    have ho : ∀ xs ys : List Piece, optionsOf (xs ++ ys) = optionsOf xs ++ optionsOf ys := by
      intro xs ys
      simp [optionsOf]
    simp only [Seen.empty, List.nil_append, ho]
    exact commandOf_swap (fun o v v' h h' => hd o v v' (mem_optionsOf.1 h) (mem_optionsOf.1 h'))
  rw [hw, he, hcmd]
  by_cases hk : checkPieces t (ws ++ ps ++ qs ++ us) = .ok ()
  · rw [hk, hok.1 hk]
  · have hk' : checkPieces t (ws ++ qs ++ ps ++ us) ≠ .ok () := fun h => hk (hok.2 h)
    cases e1 : checkPieces t (ws ++ ps ++ qs ++ us) with
    | ok _ => exact absurd e1 hk
    | error _ =>
      cases e2 : checkPieces t (ws ++ qs ++ ps ++ us) with
      | ok _ => exact absurd e2 hk'
      | error _ => simp

/-- **C116** (violated for `install`): names of sets with options between them are refused, although
the same names after the options are accepted. -/
theorem install_order_matters {ref : Option Str} {c a b : Str} {opts : List Str} {ps : List Piece}
    (hc : Calls c s%"install") (h : Consists t installParser opts ps) (ho : OnlyOptions ps) (hne : ps ≠ [])
    (hf : ∀ x ∈ ps, x.Fine t) (ha : IsWord t installParser a) (hb : IsWord t installParser b) :
    parseCommandLine t ref (c :: a :: (opts ++ [b])) = .error (.systemExit 2) ∧
    ∃ update, parseCommandLine t ref (c :: (opts ++ [a, b])) = .ok (.install [a, b] update) ∧
      parseCommandLine t ref (c :: a :: b :: opts) = .ok (.install [a, b] update) := by
  have hq : subParser s%"install" = some installParser := rfl
  have hr : installParser.rest ≠ .none := by decide
  have hm : installParser.rest = .many := rfl
  have hchk : ∀ {l : List Piece}, (∀ x ∈ l, x ∈ ps ∨ ∃ w, x = .word w) → checkPieces t l = .ok () := by
    intro l hl
    rw [check_ok_iff]
    intro x hx
    rcases hl x hx with h' | ⟨w, rfl⟩
    · exact hf x h'
    · trivial
  refine ⟨?_, (optionsOf ps).any fun d => d.1 == updateOpt, ?_, ?_⟩
  · rw [line_pieces hq hr hc (.word ha (consists_append h ho.noWords.dashes (.word hb .nil))),
      hchk (by simp; tauto), hm]
    have : (feed .many (.fresh, .empty) (.word a :: (ps ++ [.word b]))).2 =
        ⟨optionsOf ps, [a], [b]⟩ := by
      rw [feed_cons]
      simp only [step]
      rw [feed_append, feed_noWords ho.noWords, if_neg hne, ho.extras]
      simp [feed_cons, step, Phase.close, Seen.empty]
    rw [this]
    rfl
  · rw [line_pieces hq hr hc (consists_append h ho.noWords.dashes (.word ha (.word hb .nil))),
      hchk (by simp; tauto), hm]
    have : (feed .many (.fresh, .empty) (ps ++ [.word a, .word b])).2 = ⟨optionsOf ps, [a, b], []⟩ := by
      rw [feed_append, feed_noWords ho.noWords, if_neg hne, ho.extras]
      simp [feed_cons, step, Phase.close, Seen.empty]
    rw [this]
    rfl
  · rw [line_pieces hq hr hc (.word ha (.word hb h)), hchk (by simp; tauto), hm]
    have : (feed .many (.fresh, .empty) (.word a :: .word b :: ps)).2 = ⟨optionsOf ps, [a, b], []⟩ := by
      rw [feed_cons, feed_cons]
      simp only [step]
      rw [feed_noWords ho.noWords, ho.extras]
      simp [Seen.empty]
    rw [this]
    rfl

/-! ## C117: the set that is used -/

/-- **C117**: the parsers can be made exactly if the caches can be listed, there is a set, the sets have
dates if there are several, and the latest one can be described. -/
theorem default_ref_iff {source user : CacheDir} {ref : Option Str} :
    defaultRef source user = .ok ref ↔
      ∃ sets k s, allFileSets source user = .ok sets ∧
        (sets.length = 1 ∨ ∀ kv ∈ sets, kv.2.lastModified ≠ none) ∧ Latest sets k s ∧
        (s.ref = none ∨ s.sha ≠ none) ∧ ref = s.ref := by
  unfold defaultRef
  cases hs : allFileSets source user with
  | error e => simp
  | ok sets =>
    have hn := allFileSets_nodup hs
    simp only [Except.ok.injEq]
    by_cases hne : sets = []
    · subst hne
      constructor
      · intro h
        simp [defaultSet?, selectFileSet, chooseSet, datesComparable, sortBy] at h
      · rintro ⟨_, k, s, rfl, -, hl, -⟩
        have := mem_of_latest hl
        simp at this
    · by_cases hd : datesComparable sets = true
      · obtain ⟨k, s, hl, hc⟩ := choose_latest hd hne none (fun _ h => by cases h)
        have hm := mem_of_latest hl
        have hg := Dict.get?_of_mem hn hm
        have hp : s.printable = true ↔ (s.ref = none ∨ s.sha ≠ none) := by
          simp [FileSet.printable, Option.isSome_iff_ne_none]
        constructor
        · intro h
          unfold defaultSet? selectFileSet at h
          rw [hc] at h
          simp only [hg] at h
          by_cases hpr : s.printable = true
          · rw [if_pos hpr] at h
            simp only [Except.ok.injEq] at h
            exact ⟨sets, k, s, rfl, (comparable_iff hne).1 hd, hl, hp.1 hpr, h.symm⟩
          · rw [if_neg hpr] at h
            simp at h
        · rintro ⟨_, k', s', rfl, -, hl', hp', rfl⟩
          obtain ⟨rfl, rfl⟩ := latest_unique hl hl'
          unfold defaultSet? selectFileSet
          rw [hc]
          simp only [hg, if_pos (hp.2 hp')]
      · constructor
        · intro h
          simp only [defaultSet?, selectFileSet, chooseSet, Bool.not_eq_true] at h hd
          rw [hd] at h
          simp at h
        · rintro ⟨_, k', s', rfl, hd', -⟩
          exact absurd ((comparable_iff hne).2 hd') hd

/-- **C117** (a weakness of the program): a description without a date, of any one of several sets,
stops every command and even `punx --help`, so that `punx` cannot be used to replace the set. -/
theorem undated_set_stops_all {source user : CacheDir} {sets : Dict Str FileSet} {kv : Str × FileSet}
    (hs : allFileSets source user = .ok sets) (hl : 2 ≤ sets.length) (hm : kv ∈ sets)
    (hd : kv.2.lastModified = none) (args : List Str) :
    mainCommand t source user args = .error .typeError := by
  have : datesComparable sets = false := by
    rw [Bool.eq_false_iff]
    intro h
    unfold datesComparable at h
    simp only [Bool.or_eq_true, decide_eq_true_eq, List.all_eq_true] at h
    rcases h with h | h
    · omega
    · have := h kv hm
      rw [hd] at this
      simp at this
  unfold mainCommand defaultRef
  rw [hs]
  simp [defaultSet?, selectFileSet, chooseSet, this]

/-- **C117**: what `punx validate FILE` is given: the latest set, and all statuses. -/
theorem plain_validate {source user : CacheDir} {sets : Dict Str FileSet} {k c f : Str} {s : FileSet}
    (hs : allFileSets source user = .ok sets)
    (hd : sets.length = 1 ∨ ∀ kv ∈ sets, kv.2.lastModified ≠ none)
    (hk : Latest sets k s) (hsha : s.ref = none ∨ s.sha ≠ none)
    (hc : Calls c s%"validate") (hf : IsWord t validateParser f) :
    mainCommand t source user [c, f] = .ok (.validate ⟨f, s.ref, allStatuses⟩) := by
  unfold mainCommand
  rw [default_ref_iff.2 ⟨sets, k, s, hs, hd, hk, hsha, rfl⟩]
  simp only
  rw [validate_read_iff]
  refine ⟨c, [f], [.word f], rfl, hc, .word hf .nil, ?_, ?_, ?_, ?_⟩
  · intro x hx
    simp only [List.mem_singleton] at hx
    subst hx
    trivial
  · exact ⟨[], [], onlyOptions_nil, onlyOptions_nil, Or.inl rfl⟩
  · exact Or.inr ⟨by simp, rfl⟩
  · exact Or.inr ⟨by simp, rfl⟩

/-- **C117** (partial: only if the latest set has the name that its description says, and all sets have
dates): `punx validate FILE` prints exactly the lines that are expected with the definitions of the
latest set. -/
theorem plain_validate_prints_partial {lib : Lib} {pattern : Str → Pat} {w : Disks} {env : Env}
    {files : Str → FileState} {upper : Char → Str} {abspath : Str → Str} {sets : Dict Str FileSet}
    {k c f : Str} {s : FileSet}
    (hs : allFileSets w.source w.user = .ok sets) (hw : ∀ kv ∈ sets, WellDescribed kv.2)
    (hk : Latest sets k s) (hr : s.ref = some k)
    (hdef : HasDefinitions (w.dir s.path)) (hdoc : LawfulDocs (w.dir s.path))
    (hdig : env.isdigit s%"1" = true) (hn : ∀ file, files f = .hdf5 file → WellNamedFile file)
    (hc : Calls c s%"validate") (hf : IsWord t validateParser f) :
    ∃ a, mainCommand t w.source w.user [c, f] = .ok (.validate a) ∧ ∀ fname l,
      (∃ rows sm sc, Act.report fname rows sm sc ∈
          (funcValidate (commandWorld lib pattern w env files upper abspath) a).log ∧
          l ∈ rows.map lineOf) ↔
        fname = f ∧ ¬ s%".nxdl.xml" <:+ f ∧ ∃ mgr file, OwnDefinitions lib pattern (w.dir s.path) mgr ∧
          files f = .hdf5 file ∧ Validatable env mgr file ∧
          Expected env mgr [] file (contents env file) l := by
  have hm := mem_of_latest hk
  have hg := Dict.get?_of_mem (allFileSets_nodup hs) hm
  refine ⟨_, plain_validate hs (Or.inr fun kv hkv => (hw kv hkv).1) hk (Or.inr (hw _ hm).2) hc hf, ?_⟩
  intro fname l
  obtain ⟨o1, o2, o3⟩ := demo_option
  rw [command_prints_iff hs hw (a := ⟨f, s.ref, allStatuses⟩) ?_ o1 hdig hn]
  · constructor
    · rintro ⟨h1, mgr, file, ⟨-, h3, ⟨ref, f', h4, h5, h6⟩, h7⟩, h8, -, h9⟩
      simp only [hr, Option.some.injEq] at h4
      subst h4
      rw [hg] at h5
      simp only [Option.some.injEq] at h5
      subst h5
      exact ⟨h1, h3, mgr, file, h6, h7, h8, h9⟩
    · rintro ⟨h1, h2, mgr, file, h3, h4, h5, h6⟩
      exact ⟨h1, mgr, file, ⟨o2, h2, ⟨k, s, hr, hg, h3⟩, h4⟩, h5, o3 _, h6⟩
  · intro ref f' h1 h2
    simp only [hr, Option.some.injEq] at h1
    subst h1
    rw [hg] at h2
    simp only [Option.some.injEq] at h2
    subst h2
    exact ⟨hdef, hdoc⟩

/-- **C117** (a weakness of the program): if the description of the latest set calls it by a name that is
not listed, `punx validate FILE` refuses to validate anything. -/
theorem misnamed_default_refused {lib : Lib} {pattern : Str → Pat} {w : Disks} {env : Env}
    {files : Str → FileState} {upper : Char → Str} {abspath : Str → Str} {sets : Dict Str FileSet}
    {k r c f : Str} {s : FileSet}
    (hs : allFileSets w.source w.user = .ok sets) (hw : ∀ kv ∈ sets, WellDescribed kv.2)
    (hk : Latest sets k s) (hr : s.ref = some r) (hu : r ∉ Dict.keys sets)
    (hx : ¬ s%".nxdl.xml" <:+ f) (hc : Calls c s%"validate") (hf : IsWord t validateParser f) :
    ∃ a, mainCommand t w.source w.user [c, f] = .ok (.validate a) ∧
      funcValidate (commandWorld lib pattern w env files upper abspath) a = ⟨[], .error (.systemExit 1)⟩ := by
  have hm := mem_of_latest hk
  refine ⟨_, plain_validate hs (Or.inr fun kv hkv => (hw kv hkv).1) hk (Or.inr (hw _ hm).2) hc hf, ?_⟩
  have hx' : endsWith f s%".nxdl.xml" = false := by
    rw [Bool.eq_false_iff]
    intro h
    exact hx (endsWith_iff.1 h)
  unfold funcValidate
  rw [show (commandWorld lib pattern w env files upper abspath).sets =
      allFileSets w.source w.user from rfl, hs]
  simp [hx', hr, hu, exitMessage, W.fail]

end Punx

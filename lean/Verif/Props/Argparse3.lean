import Verif.Props.Argparse2

/-!
# C115: what the commands are given
-/

namespace Punx

variable {t : Texts} {p : CliParser}

/-! ## the parser for everything accepts what the parser of the sub-command accepts -/

theorem ambiguous_top {a : Str} (h : Ambiguous topParser a) : ∃ v, a = '-' :: '-' :: '=' :: v := by
  obtain ⟨n, h1, h2, h3, m, o, m', o', h4, h5, h6, h7, h8⟩ := h
  have hn : n = [] := by
    have key : ∀ m o, HasName topParser m o → '-' :: '-' :: n <+: m →
        (m = s%"--help" ∨ m = s%"--version") := by
      rintro m o ⟨hm1, hm2⟩ hpre
      simp only [topParser, helpOpt, List.mem_cons, List.not_mem_nil, or_false] at hm1
      rcases hm1 with rfl | rfl <;> simp only [List.mem_cons, List.not_mem_nil, or_false] at hm2 <;>
        rcases hm2 with rfl | rfl <;> simp_all
    match n with
    | [] => rfl
    | x :: n =>
      rcases key m o h4 h7 with rfl | rfl <;> rcases key m' o' h5 h8 with rfl | rfl <;> simp_all
  subst hn
  rcases h2 with ⟨-, h⟩ | ⟨v, h⟩
  · simp at h
  · exact ⟨v, h⟩

theorem top_accepts {q : CliParser} (hq : WellNamed q) {m m' : Str} {o o' : CliOpt}
    (h1 : HasName q ('-' :: '-' :: m) o) (h2 : HasName q ('-' :: '-' :: m') o') (h3 : m ≠ m')
    {args : List Str} {is : List CliItem} (h : classify t q args = .ok is) :
    ∃ js, classify t topParser args = .ok js := by
  rw [classify_ok_iff top_named]
  intro a ha hb
  obtain ⟨v, rfl⟩ := ambiguous_top hb
  refine (classify_ok_iff (t := t) hq).1 ⟨is, h⟩ _ ha ⟨[], by simp, Or.inr ⟨v, rfl⟩, ?_, _, _, _, _, h1, h2,
    by simpa using h3, by simp, by simp⟩
  intro o ho
  rcases hq.shape _ _ ho with ⟨c, hc, h', -⟩ | ⟨s, hs, h', -⟩
  · simp only [List.cons.injEq, and_true, true_and] at hc
    exact h' hc.symm
  · simp only [List.cons.injEq, true_and] at hs
    exact h' hs.symm

theorem consists_classify (hp : WellNamed p) {args : List Str} {ps : List Piece} (h : Consists t p args ps) :
    ∃ is, classify t p args = .ok is := by
  obtain ⟨is, h1, -⟩ := consists_gather hp h
  exact ⟨is, h1⟩

/-! ## values of options -/

theorem letters_takes {s : Str} {ps : List Piece} {w : Option CliOpt} (h : Letters p s ps w) :
    ∀ o v, Piece.option o v ∈ ps → v.isSome = o.takes := by
  induction h with
  | flag _ h =>
    rintro o v hm
    simp at hm
    simp [hm.1, hm.2, h]
  | flags _ h _ ih =>
    rintro o v hm
    rcases List.mem_cons.1 hm with hm | hm
    · simp at hm
      simp [hm.1, hm.2, h]
    · exact ih o v hm
  | text _ h _ _ =>
    rintro o v hm
    simp at hm
    simp [hm.1, hm.2, h]
  | textEq _ h =>
    rintro o v hm
    simp at hm
    simp [hm.1, hm.2, h]
  | awaits _ _ => simp
  | left _ h _ _ _ =>
    rintro o v hm
    simp at hm
    simp [hm.1, hm.2, h]

theorem options_takes {a : Str} {ps : List Piece} {w : Option CliOpt} (h : Options t p a ps w) :
    ∀ o v, Piece.option o v ∈ ps → v.isSome = o.takes := by
  cases h with
  | letters h => exact letters_takes h
  | long _ _ _ h =>
    rintro o v hm
    simp at hm
    simp [hm.1, hm.2, h]
  | longAwaits _ _ _ _ => simp
  | longText _ _ h =>
    rintro o v hm
    simp at hm
    simp [hm.1, hm.2, h]
  | unknown _ => simp

/-- An option that needs a text has one, the others have none. -/
theorem consists_takes {args : List Str} {ps : List Piece} (h : Consists t p args ps) :
    ∀ o v, Piece.option o v ∈ ps → v.isSome = o.takes := by
  induction h with
  | nil => simp
  | word _ _ ih => simpa using ih
  | options h _ ih =>
    rintro o v hm
    rcases List.mem_append.1 hm with hm | hm
    · exact options_takes h o v hm
    · exact ih o v hm
  | optionsText h _ _ ih =>
    rintro o v hm
    rcases List.mem_append.1 hm with hm | hm
    · exact options_takes h o v hm
    · rcases List.mem_cons.1 hm with hm | hm
      · simp at hm
        rw [hm.1, hm.2, ((options_mem h).2.1 _ rfl).2]
        rfl
      · exact ih o v hm
  | dashes => simp

theorem last_option (o : CliOpt) : ∀ {ps : List Piece}, (∃ v, Piece.option o v ∈ ps) →
    ∃ as v bs, ps = as ++ .option o v :: bs ∧ ∀ v', Piece.option o v' ∉ bs
  | [], h => by simp at h
  | x :: ps, h => by
    by_cases hx : ∃ v, Piece.option o v ∈ ps
    · obtain ⟨as, v, bs, rfl, h2⟩ := last_option o hx
      exact ⟨x :: as, v, bs, rfl, h2⟩
    · obtain ⟨v, hv⟩ := h
      rcases List.mem_cons.1 hv with rfl | hv
      · exact ⟨[], v, ps, rfl, fun v' hv' => hx ⟨v', hv'⟩⟩
      · exact absurd ⟨v, hv⟩ hx

theorem mem_optionsOf {ps : List Piece} {o : CliOpt} {v : Option Str} :
    (o, v) ∈ optionsOf ps ↔ Piece.option o v ∈ ps := by
  unfold optionsOf
  rw [List.mem_filterMap]
  constructor
  · rintro ⟨x, hx, h⟩
    cases x <;> simp at h
    obtain ⟨rfl, rfl⟩ := h
    exact hx
  · exact fun h => ⟨_, h, rfl⟩

theorem filterMap_absent {o : CliOpt} {ps : List Piece} (h : ∀ v', Piece.option o v' ∉ ps) :
    ((optionsOf ps).filterMap fun d => if d.1 == o then d.2 else none) = [] := by
  rw [List.filterMap_eq_nil_iff]
  rintro ⟨o', v⟩ hm
  rw [mem_optionsOf] at hm
  by_cases ho : o' = o
  · subst ho
    exact absurd hm (h v)
  · simp [ho]

theorem given_value {ps : List Piece} {o : CliOpt} {d value : Option Str} (h : Given ps o d value) :
    value = (lastText o (optionsOf ps)).or d := by
  rcases h with ⟨v, as, bs, rfl, h2, rfl⟩ | ⟨h1, rfl⟩
  · have : optionsOf (as ++ .option o (some v) :: bs) = optionsOf as ++ (o, some v) :: optionsOf bs := by
      simp [optionsOf]
    unfold lastText
    rw [this, List.filterMap_append, List.filterMap_cons, filterMap_absent h2]
    simp only [beq_self_eq_true, if_true, List.getLast?_append]
    rfl
  · unfold lastText
    rw [filterMap_absent h1]
    rfl

theorem given_exists {args : List Str} {ps : List Piece} (h : Consists t p args ps) {o : CliOpt}
    (ho : o.takes = true) (d : Option Str) : ∃ value, Given ps o d value := by
  by_cases hx : ∃ v, Piece.option o v ∈ ps
  · obtain ⟨as, v, bs, h1, h2⟩ := last_option o hx
    have := consists_takes h o v (by rw [h1]; simp)
    rw [ho] at this
    obtain ⟨v', rfl⟩ := Option.isSome_iff_exists.1 this
    exact ⟨some v', Or.inl ⟨v', as, bs, h1, h2, rfl⟩⟩
  · exact ⟨d, Or.inr ⟨fun v hv => hx ⟨v, hv⟩, rfl⟩⟩

theorem given_iff {args : List Str} {ps : List Piece} (h : Consists t p args ps) {o : CliOpt}
    (ho : o.takes = true) {d value : Option Str} :
    Given ps o d value ↔ value = (lastText o (optionsOf ps)).or d := by
  constructor
  · exact given_value
  · rintro rfl
    obtain ⟨v, hv⟩ := given_exists h ho d
    rwa [← given_value hv]

/-! ## the commands -/

/-- Which sub-command is run, by the grammar. -/
theorem line_consists {ref : Option Str} {args : List Str} {cmd : Command} :
    parseCommandLine t ref args = .ok cmd ↔
      ∃ c rest name q ps ws, args = c :: rest ∧ Calls c name ∧ subParser name = some q ∧
        (∃ is, classify t topParser rest = .ok is) ∧
        Consists t q rest ps ∧ (∀ x ∈ ps, x.Fine t) ∧ WordsFor q.rest ps ws ∧
        commandOf t ref name ⟨optionsOf ps, ws, []⟩ = .ok cmd := by
  rw [line_iff]
  constructor
  · rintro ⟨c, rest, name, q, s, h1, h2, h3, h4, h5, h6, h7, h8⟩
    obtain ⟨ps, h9, h10, h11, h12⟩ := (known_iff (sub_named h5).1 (sub_named h5).2).1 ⟨s, h6, h7, rfl, rfl⟩
    refine ⟨c, rest, name, q, ps, s.words, h1, h3, h5, h4, h9, h10, h11, ?_⟩
    rw [← h12, ← h7]
    exact h8
  · rintro ⟨c, rest, name, q, ps, ws, h1, h2, h3, h4, h5, h6, h7, h8⟩
    obtain ⟨s, h9, h10, h11, h12⟩ := (known_iff (sub_named h3).1 (sub_named h3).2).2 ⟨ps, h5, h6, h7, rfl⟩
    refine ⟨c, rest, name, q, s, h1, sub_some_iff.1 ⟨q, h3⟩, h2, h4, h3, h9, h10, ?_⟩
    rw [← h8, ← h10, ← h11, ← h12]

theorem commandOf_validate {ref : Option Str} {name : Str} {s : Seen} {a : ValidateArgs} :
    commandOf t ref name s = .ok (.validate a) ↔ name = s%"validate" ∧
      a = ⟨s.words.headD [], (lastText fileSetOpt s.options).or ref,
        (lastText reportOpt s.options).getD allStatuses⟩ := by
  unfold commandOf
  constructor
  · intro h
    repeat' split at h
    all_goals simp_all
  · rintro ⟨rfl, rfl⟩
    cases lastText fileSetOpt s.options <;> simp

theorem commandOf_tree {ref : Option Str} {name infile : Str} {s : Seen} {b : Bool} {i : Int} :
    commandOf t ref name s = .ok (.tree infile b i) ↔ name = s%"tree" ∧ infile = s.words.headD [] ∧
      b = (!s.options.any fun d => d.1 == attributesOpt) ∧
      i = ((lastText itemsOpt s.options).bind t.int).getD 5 := by
  unfold commandOf
  constructor
  · intro h
    repeat' split at h
    all_goals simp only [Except.ok.injEq, reduceCtorEq, Command.tree.injEq] at h
    rename_i hn
    exact ⟨by simpa using hn, h.1.symm, h.2.1.symm, h.2.2.symm⟩
  · rintro ⟨rfl, rfl, rfl, rfl⟩
    simp

theorem commandOf_install {ref : Option Str} {name : Str} {s : Seen} {names : List Str} {b : Bool} :
    commandOf t ref name s = .ok (.install names b) ↔ name = s%"install" ∧
      names = (if s.words.isEmpty then [s%"main"] else s.words) ∧
      b = (s.options.any fun d => d.1 == updateOpt) := by
  unfold commandOf
  constructor
  · intro h
    split at h
    · simp at h
    split at h
    · simp at h
    split at h
    · rename_i hn
      simp only [Except.ok.injEq, Command.install.injEq] at h
      exact ⟨by simpa using hn, h.1.symm, h.2.symm⟩
    split at h
    · simp at h
    split at h <;> simp at h
  · rintro ⟨rfl, rfl, rfl⟩
    simp

theorem commandOf_configuration {ref : Option Str} {name : Str} {s : Seen} :
    commandOf t ref name s = .ok .configuration ↔ name = s%"configuration" := by
  unfold commandOf
  constructor
  · intro h
    repeat' split at h
    all_goals simp_all
  · rintro rfl
    simp

theorem commandOf_demonstrate {ref : Option Str} {name : Str} {s : Seen} :
    commandOf t ref name s = .ok .demonstrate ↔ name = s%"demonstrate" := by
  unfold commandOf
  constructor
  · intro h
    repeat' split at h
    all_goals simp_all
  · rintro rfl
    simp

theorem any_option {ps : List Piece} {o : CliOpt} :
    ((optionsOf ps).any fun d => d.1 == o) = true ↔ ∃ v, Piece.option o v ∈ ps := by
  rw [List.any_eq_true]
  constructor
  · rintro ⟨⟨o', v⟩, h1, h2⟩
    simp only [beq_iff_eq] at h2
    subst h2
    exact ⟨v, mem_optionsOf.1 h1⟩
  · rintro ⟨v, hv⟩
    exact ⟨(o, v), mem_optionsOf.2 hv, by simp⟩

/-- **C115**, `validate`: exactly these arguments make `punx` validate a file, and the file, the file set
and the findings to print are those of the arguments. -/
theorem validate_read_iff {ref : Option Str} {args : List Str} {a : ValidateArgs} :
    parseCommandLine t ref args = .ok (.validate a) ↔
      ∃ c rest ps, args = c :: rest ∧ Calls c s%"validate" ∧ Consists t validateParser rest ps ∧
        (∀ x ∈ ps, x.Fine t) ∧ OneWord ps a.infile ∧ Given ps fileSetOpt ref a.fileSet ∧
        Given ps reportOpt (some allStatuses) (some a.report) := by
  rw [line_consists]
  constructor
  · rintro ⟨c, rest, name, q, ps, ws, h1, h2, h3, h4, h5, h6, h7, h8⟩
    obtain ⟨rfl, rfl⟩ := commandOf_validate.1 h8
    obtain rfl : validateParser = q := by simpa [subParser] using h3
    obtain ⟨w, rfl, h9⟩ := h7
    refine ⟨c, rest, ps, h1, h2, h5, h6, h9, (given_iff h5 rfl).2 rfl, (given_iff h5 rfl).2 ?_⟩
    cases lastText reportOpt (optionsOf ps) <;> rfl
  · rintro ⟨c, rest, ps, h1, h2, h3, h4, h5, h6, h7⟩
    obtain ⟨is, hc⟩ := consists_classify validate_named h3
    refine ⟨c, rest, s%"validate", validateParser, ps, [a.infile], h1, h2, rfl, ?_, h3, h4, ⟨_, rfl, h5⟩, ?_⟩
    · exact top_accepts validate_named (m := s%"help") (m' := s%"report") (o := helpOpt) (o' := reportOpt)
        ⟨by decide, by decide⟩ ⟨by decide, by decide⟩ (by decide) hc
    · rw [commandOf_validate]
      refine ⟨rfl, ?_⟩
      have e1 := given_value h6
      have e2 := given_value h7
      obtain ⟨x, y, z⟩ := a
      simp only at e1 e2
      subst e1
      simp only [ValidateArgs.mk.injEq, true_and, List.headD_cons]
      cases hl : lastText reportOpt (optionsOf ps) with
      | none =>
        rw [hl] at e2
        simpa using e2
      | some v =>
        rw [hl] at e2
        simpa using e2

/-- **C115**, `tree`: exactly these arguments make `punx` show a file as a tree. -/
theorem tree_read_iff {ref : Option Str} {args : List Str} {infile : Str} {showAttrs : Bool} {shown : Int} :
    parseCommandLine t ref args = .ok (.tree infile showAttrs shown) ↔
      ∃ c rest ps, args = c :: rest ∧ Calls c s%"tree" ∧ Consists t treeParser rest ps ∧
        (∀ x ∈ ps, x.Fine t) ∧ OneWord ps infile ∧
        (showAttrs = false ↔ ∃ v, Piece.option attributesOpt v ∈ ps) ∧
        ∃ text, Given ps itemsOpt none text ∧
          (text = none ∧ shown = 5 ∨ ∃ s, text = some s ∧ t.int s = some shown) := by
  rw [line_consists]
  constructor
  · rintro ⟨c, rest, name, q, ps, ws, h1, h2, h3, h4, h5, h6, h7, h8⟩
    obtain ⟨rfl, rfl, rfl, rfl⟩ := commandOf_tree.1 h8
    obtain rfl : treeParser = q := by simpa [subParser] using h3
    obtain ⟨w, rfl, h9⟩ := h7
    obtain ⟨text, htext⟩ := given_exists h5 (o := itemsOpt) rfl none
    refine ⟨c, rest, ps, h1, h2, h5, h6, h9, ?_, text, htext, ?_⟩
    · rw [← any_option]
      simp
    · have e := given_value htext
      rw [Option.or_none] at e
      simp only [← e]
      rcases htext with ⟨v, as, bs, hps, -, rfl⟩ | ⟨-, rfl⟩
      · right
        obtain ⟨i, hi⟩ := (h6 (.option itemsOpt (some v)) (by rw [hps]; simp)).2 rfl v rfl
        exact ⟨v, rfl, by simp [hi]⟩
      · exact Or.inl ⟨rfl, rfl⟩
  · rintro ⟨c, rest, ps, h1, h2, h3, h4, h5, h6, text, h7, h8⟩
    obtain ⟨is, hc⟩ := consists_classify tree_named h3
    refine ⟨c, rest, s%"tree", treeParser, ps, [infile], h1, h2, rfl, ?_, h3, h4, ⟨_, rfl, h5⟩, ?_⟩
    · exact top_accepts tree_named (m := s%"help") (m' := s%"max_array_items") (o := helpOpt) (o' := itemsOpt)
        ⟨by decide, by decide⟩ ⟨by decide, by decide⟩ (by decide) hc
    · rw [commandOf_tree]
      have e := given_value h7
      rw [Option.or_none] at e
      refine ⟨rfl, rfl, ?_, ?_⟩
      · rw [← any_option] at h6
        simp only
        cases hb : (optionsOf ps).any fun d => d.1 == attributesOpt
        · rw [hb] at h6
          simpa using h6
        · rw [hb] at h6
          simpa using h6
      · simp only [← e]
        rcases h8 with ⟨rfl, rfl⟩ | ⟨s, rfl, h8⟩
        · rfl
        · simp [h8]

/-- **C115**, `install`: exactly these arguments make `punx` install file sets. -/
theorem install_read_iff {ref : Option Str} {args : List Str} {names : List Str} {update : Bool} :
    parseCommandLine t ref args = .ok (.install names update) ↔
      ∃ c rest ps ws, args = c :: rest ∧ Calls c s%"install" ∧ Consists t installParser rest ps ∧
        (∀ x ∈ ps, x.Fine t) ∧ WordsTogether ps ws ∧
        (ws = [] ∧ names = [s%"main"] ∨ ws ≠ [] ∧ names = ws) ∧
        (update = true ↔ ∃ v, Piece.option updateOpt v ∈ ps) := by
  rw [line_consists]
  constructor
  · rintro ⟨c, rest, name, q, ps, ws, h1, h2, h3, h4, h5, h6, h7, h8⟩
    obtain ⟨rfl, rfl, rfl⟩ := commandOf_install.1 h8
    obtain rfl : installParser = q := by simpa [subParser] using h3
    refine ⟨c, rest, ps, ws, h1, h2, h5, h6, h7, ?_, any_option⟩
    cases ws with
    | nil => exact Or.inl ⟨rfl, rfl⟩
    | cons w ws => exact Or.inr ⟨by simp, rfl⟩
  · rintro ⟨c, rest, ps, ws, h1, h2, h3, h4, h5, h6, h7⟩
    obtain ⟨is, hc⟩ := consists_classify install_named h3
    refine ⟨c, rest, s%"install", installParser, ps, ws, h1, h2, rfl, ?_, h3, h4, h5, ?_⟩
    · exact top_accepts install_named (m := s%"help") (m' := s%"update") (o := helpOpt) (o' := updateOpt)
        ⟨by decide, by decide⟩ ⟨by decide, by decide⟩ (by decide) hc
    · rw [commandOf_install]
      refine ⟨rfl, ?_, ?_⟩
      · rcases h6 with ⟨rfl, rfl⟩ | ⟨h6, rfl⟩
        · rfl
        · simp [h6]
      · rw [← any_option] at h7
        exact Bool.eq_iff_iff.2 h7

theorem consists_nil {args : List Str} (h : Consists t p args []) : args = [] := by
  generalize hq : ([] : List Piece) = qs at h
  cases h with
  | nil => rfl
  | word _ _ => simp at hq
  | options h _ =>
    rcases (options_mem h).2.2 rfl with ⟨o, v, qs, h'⟩ | h' <;> rw [h'] at hq <;> simp at hq
  | optionsText _ _ _ => simp at hq
  | dashes => simp at hq

theorem consists_mem {args : List Str} {ps : List Piece} (h : Consists t p args ps) :
    ∀ o v, Piece.option o v ∈ ps → o ∈ p.opts := by
  induction h with
  | nil => simp
  | word _ _ ih => simpa using ih
  | options h _ ih =>
    rintro o v hm
    rcases List.mem_append.1 hm with hm | hm
    · exact (options_mem h).1 o v hm
    · exact ih o v hm
  | optionsText h _ _ ih =>
    rintro o v hm
    rcases List.mem_append.1 hm with hm | hm
    · exact (options_mem h).1 o v hm
    · rcases List.mem_cons.1 hm with hm | hm
      · simp at hm
        rw [hm.1]
        exact ((options_mem h).2.1 _ rfl).1
      · exact ih o v hm
  | dashes => simp

/-- A parser that has help only and takes no words accepts nothing. -/
theorem only_help {q : CliParser} (hq : ∀ o ∈ q.opts, o.kind = .exits) {args : List Str} {ps : List Piece}
    (h : Consists t q args ps) (hf : ∀ x ∈ ps, x.Fine t) (ho : OnlyOptions ps) : args = [] := by
  cases ps with
  | nil => exact consists_nil h
  | cons x ps =>
    obtain ⟨o, v, rfl⟩ := ho x (by simp)
    exact absurd (hq o (consists_mem h o v (by simp))) (hf (.option o v) (by simp)).1

/-- **C115**: `configuration` takes nothing. -/
theorem configuration_read_iff {ref : Option Str} {args : List Str} :
    parseCommandLine t ref args = .ok .configuration ↔ ∃ c, args = [c] ∧ Calls c s%"configuration" := by
  rw [line_consists]
  constructor
  · rintro ⟨c, rest, name, q, ps, ws, h1, h2, h3, h4, h5, h6, h7, h8⟩
    obtain rfl := commandOf_configuration.1 h8
    obtain rfl : configurationParser = q := by simpa [subParser] using h3
    have := only_help (by decide) h5 h6 h7.1
    subst this
    exact ⟨c, h1, h2⟩
  · rintro ⟨c, rfl, h⟩
    exact ⟨c, [], s%"configuration", configurationParser, [], [], rfl, h, rfl, ⟨[], rfl⟩, .nil, by simp,
      ⟨by simp [OnlyOptions], rfl⟩, rfl⟩

/-- **C115**: `demonstrate` takes nothing. -/
theorem demonstrate_read_iff {ref : Option Str} {args : List Str} :
    parseCommandLine t ref args = .ok .demonstrate ↔ ∃ c, args = [c] ∧ Calls c s%"demonstrate" := by
  rw [line_consists]
  constructor
  · rintro ⟨c, rest, name, q, ps, ws, h1, h2, h3, h4, h5, h6, h7, h8⟩
    obtain rfl := commandOf_demonstrate.1 h8
    obtain rfl : demonstrateParser = q := by simpa [subParser] using h3
    have := only_help (by decide) h5 h6 h7.1
    subst this
    exact ⟨c, h1, h2⟩
  · rintro ⟨c, rfl, h⟩
    exact ⟨c, [], s%"demonstrate", demonstrateParser, [], [], rfl, h, rfl, ⟨[], rfl⟩, .nil, by simp,
      ⟨by simp [OnlyOptions], rfl⟩, rfl⟩

/-! ## help -/

/-- What happens to the arguments of a sub-command. -/
theorem line_sub {ref : Option Str} {c name : Str} {q : CliParser} {rest : List Str}
    (hq : subParser name = some q) (hc : Calls c name) :
    parseCommandLine t ref (c :: rest) =
      match classify t topParser rest with
      | .error e => .error e
      | .ok _ =>
        match parseKnown t q rest with
        | .error e => .error e
        | .ok s => if s.extras.isEmpty then commandOf t ref name s else .error (.systemExit 2) := by
  have hn := sub_some_iff.1 ⟨q, hq⟩
  have hd : startsWith c s%"-" = false := by
    rw [Bool.eq_false_iff]
    intro h
    rw [starts_head] at h
    obtain ⟨b, rfl⟩ := hc.2
    refine commands_no_dash _ hn ?_
    match c, h with
    | x :: c, h => exact h
  simp only [parseCommandLine, hd, Bool.false_eq_true, if_false, calls_iff.2 ⟨hn, hc⟩]
  unfold parseArgs
  rw [top_word (commands_no_dash _ hn)]
  cases classify t topParser rest with
  | error e => rfl
  | ok is =>
    simp only [hq, List.nil_append]
    cases parseKnown t q rest <;> rfl

/-- **C115**: help of a sub-command is shown exactly when it is asked for before anything wrong, and no
argument before `--` can be read as two options. -/
theorem command_help_iff {ref : Option Str} {c name : Str} {q : CliParser} {rest : List Str}
    (hq : subParser name = some q) (hc : Calls c name) :
    parseCommandLine t ref (c :: rest) = .error (.systemExit 0) ↔
      (∀ a ∈ beforeDashes rest, ¬ Ambiguous topParser a ∧ ¬ Ambiguous q a) ∧
      ∃ pre post ps, rest = pre ++ post ∧ Consists t q pre ps ∧ AsksHelp t ps := by
  rw [line_sub hq hc]
  have hk := known_help_iff (t := t) (sub_named hq).1 (sub_named hq).2 (args := rest)
  cases ht : classify t topParser rest with
  | error e =>
    simp only [Except.error.injEq]
    have := classify_error top_named ht
    subst this
    simp only [PyErr.systemExit.injEq, OfNat.ofNat_ne_zero, false_iff]
    rintro ⟨h, -⟩
    obtain ⟨is, hi⟩ := (classify_ok_iff (t := t) top_named).2 (fun a ha => (h a ha).1)
    rw [ht] at hi
    simp at hi
  | ok is =>
    have hamb := (classify_ok_iff (t := t) top_named).1 ⟨is, ht⟩
    have : (match parseKnown t q rest with
        | .error e => .error e
        | .ok s => if s.extras.isEmpty then commandOf t ref name s else .error (.systemExit 2)) =
          Except.error (.systemExit 0) ↔ parseKnown t q rest = .error (.systemExit 0) := by
      cases parseKnown t q rest with
      | error e => simp
      | ok s =>
        simp only [reduceCtorEq, iff_false]
        split
        · obtain ⟨cmd, hcmd⟩ := commandOf_ok (t := t) (ref := ref) (sub_some_iff.1 ⟨q, hq⟩) s
          simp [hcmd]
        · simp
    simp only
    rw [this, hk]
    constructor
    · rintro ⟨h1, h2⟩
      exact ⟨fun a ha => ⟨hamb a ha, h1 a ha⟩, h2⟩
    · rintro ⟨h1, h2⟩
      exact ⟨fun a ha => (h1 a ha).2, h2⟩

end Punx

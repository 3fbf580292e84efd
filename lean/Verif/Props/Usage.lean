import Verif.Props.Argparse4
import Verif.Spec.Usage

/-!
# C118: the documented usage
-/

namespace Punx

variable {t : Texts} {p : CliParser}

theorem PlainWord.isWord {s : Str} (h : PlainWord s) : IsWord t p s := Or.inl h

theorem consists_flatMap {α : Type} {written : α → List Str} {piece : α → Piece}
    (hd : ∀ x, piece x ≠ .dashes) : ∀ {xs : List α},
    (∀ x ∈ xs, Consists t p (written x) [piece x]) → Consists t p (xs.flatMap written) (xs.map piece)
  | [], _ => .nil
  | x :: xs, h => by
    have := consists_append (h x (by simp)) (by simpa using (hd x).symm)
      (consists_flatMap hd (fun y hy => h y (List.mem_cons_of_mem _ hy)))
    simpa using this

theorem optionsOf_append (as bs : List Piece) : optionsOf (as ++ bs) = optionsOf as ++ optionsOf bs := by
  simp [optionsOf]

theorem lastText_append {o : CliOpt} (as bs : List (CliOpt × Option Str)) :
    lastText o (as ++ bs) = (lastText o bs).or (lastText o as) := by
  unfold lastText
  rw [List.filterMap_append, List.getLast?_append]

/-! ## `validate` -/

/-- The option as it is read. -/
def ValidateOption.piece : ValidateOption → Piece
  | .f n => .option fileSetOpt (some n)
  | .fileSetName n => .option fileSetOpt (some n)
  | .fileSetNameIs n => .option fileSetOpt (some n)
  | .report r => .option reportOpt (some r)
  | .reportIs r => .option reportOpt (some r)

theorem ValidateOption.consists {x : ValidateOption} (h : x.Plain) :
    Consists t validateParser x.written [x.piece] := by
  cases x with
  | f n =>
    exact .optionsText (qs := []) (.letters (.awaits ⟨by decide, by decide⟩ rfl)) h.isWord .nil
  | fileSetName n =>
    exact .optionsText (qs := []) (.longAwaits (n := s%"file_set_name") (by decide) (by decide)
      (Or.inl ⟨by decide, by decide⟩) rfl) h.isWord .nil
  | fileSetNameIs n =>
    exact .options (qs := [_]) (.longText (n := s%"file_set_name") (by decide)
      (Or.inl ⟨by decide, by decide⟩) rfl) .nil
  | report n =>
    exact .optionsText (qs := []) (.longAwaits (n := s%"report") (by decide) (by decide)
      (Or.inl ⟨by decide, by decide⟩) rfl) h.isWord .nil
  | reportIs n =>
    exact .options (qs := [_]) (.longText (n := s%"report") (by decide)
      (Or.inl ⟨by decide, by decide⟩) rfl) .nil

theorem ValidateOption.set_all (xs : List ValidateOption) (a : ValidateArgs) :
    xs.foldl ValidateOption.set a = ⟨a.infile, (lastText fileSetOpt (optionsOf (xs.map piece))).or a.fileSet,
      (lastText reportOpt (optionsOf (xs.map piece))).getD a.report⟩ := by
  induction xs generalizing a with
  | nil => rfl
  | cons x xs ih =>
    rw [List.foldl_cons, ih]
    have e : optionsOf ((x :: xs).map piece) = optionsOf [x.piece] ++ optionsOf (xs.map piece) := by
      rw [← optionsOf_append]
      rfl
    rw [e, lastText_append, lastText_append]
    have h1 : lastText fileSetOpt (optionsOf [x.piece]) = match x with
        | .f n => some n | .fileSetName n => some n | .fileSetNameIs n => some n | _ => none := by
      cases x <;> rfl
    have h2 : lastText reportOpt (optionsOf [x.piece]) = match x with
        | .report n => some n | .reportIs n => some n | _ => none := by
      cases x <;> rfl
    rw [h1, h2]
    cases lastText fileSetOpt (optionsOf (xs.map piece)) <;>
      cases lastText reportOpt (optionsOf (xs.map piece)) <;> cases x <;> rfl

/-- **C118**, `validate`: the options set the file set and the findings to print, in any order and
before or after the file; without them the default set and all statuses are used. -/
theorem validate_usage {ref : Option Str} {c infile : Str} {xs ys : List ValidateOption}
    (hc : Calls c s%"validate") (hw : PlainWord infile) (hx : ∀ x ∈ xs ++ ys, x.Plain) :
    parseCommandLine t ref (c :: (xs.flatMap ValidateOption.written ++
        infile :: ys.flatMap ValidateOption.written)) =
      .ok (.validate ((xs ++ ys).foldl ValidateOption.set
        ⟨infile, ref, s%"COMMENT,ERROR,NOTE,OK,OPTIONAL,TODO,UNUSED,WARN"⟩)) := by
  have hd : ∀ x : ValidateOption, x.piece ≠ .dashes := by
    intro x
    cases x <;> simp [ValidateOption.piece]
  have hx1 : Consists t validateParser (xs.flatMap ValidateOption.written) (xs.map ValidateOption.piece) :=
    consists_flatMap hd fun x h => ValidateOption.consists (hx x (List.mem_append.2 (Or.inl h)))
  have hy1 : Consists t validateParser (ys.flatMap ValidateOption.written) (ys.map ValidateOption.piece) :=
    consists_flatMap hd fun x h => ValidateOption.consists (hx x (List.mem_append.2 (Or.inr h)))
  have ho : ∀ zs : List ValidateOption, OnlyOptions (zs.map ValidateOption.piece) := by
    intro zs x h
    obtain ⟨z, -, rfl⟩ := List.mem_map.1 h
    cases z <;> exact ⟨_, _, rfl⟩
  have hf : ∀ zs : List ValidateOption, checkPieces t (zs.map ValidateOption.piece) = .ok () := by
    intro zs
    rw [check_ok_iff]
    intro x h
    obtain ⟨z, -, rfl⟩ := List.mem_map.1 h
    cases z <;> exact ⟨by decide, fun h => absurd h (by decide)⟩
  rw [word_anywhere_partial (name := s%"validate") rfl rfl hc hx1 (ho xs).noWords hy1 (ho ys).noWords hw.isWord,
    line_pieces (name := s%"validate") rfl (by decide) hc (.word hw.isWord (consists_append hx1 (ho xs).noWords.dashes hy1)),
    ← List.map_append]
  have e : (feed .one (.fresh, .empty) (.word infile :: (xs ++ ys).map ValidateOption.piece)).2 =
      ⟨optionsOf ((xs ++ ys).map ValidateOption.piece), [infile], []⟩ := by
    rw [feed_cons]
    simp only [step]
    rw [feed_noWords (ho _).noWords, (ho _).extras]
    rfl
  have hchk : checkPieces t (.word infile :: (xs ++ ys).map ValidateOption.piece) = .ok () := hf _
  rw [hchk, show validateParser.rest = .one from rfl, e, ValidateOption.set_all]
  simp only [List.isEmpty_cons, Bool.and_false, Bool.false_eq_true, if_false, List.isEmpty_nil, if_true]
  rw [commandOf_validate]
  refine ⟨rfl, ?_⟩
  have : allStatuses = s%"COMMENT,ERROR,NOTE,OK,OPTIONAL,TODO,UNUSED,WARN" := by decide +kernel
  rw [this]
  rfl

/-! ## `tree` -/

/-- The option as it is read. -/
def TreeOption.piece : TreeOption → Piece
  | .a => .option attributesOpt none
  | .m n => .option itemsOpt (some n)
  | .maxArrayItems n => .option itemsOpt (some n)
  | .maxArrayItemsIs n => .option itemsOpt (some n)

theorem TreeOption.consists {x : TreeOption} (h : x.Plain t) :
    Consists t treeParser x.written [x.piece] := by
  cases x with
  | a => exact .options (qs := [_]) (.letters (.flag ⟨by decide, by decide⟩ rfl)) .nil
  | m n =>
    exact .optionsText (qs := []) (.letters (.awaits ⟨by decide, by decide⟩ rfl)) h.1.isWord .nil
  | maxArrayItems n =>
    exact .optionsText (qs := []) (.longAwaits (n := s%"max_array_items") (by decide) (by decide)
      (Or.inl ⟨by decide, by decide⟩) rfl) h.1.isWord .nil
  | maxArrayItemsIs n =>
    exact .options (qs := [_]) (.longText (n := s%"max_array_items") (by decide)
      (Or.inl ⟨by decide, by decide⟩) rfl) .nil

theorem TreeOption.fine {x : TreeOption} (h : x.Plain t) : x.piece.Fine t := by
  cases x with
  | a => exact ⟨by decide, fun h => absurd h (by decide)⟩
  | m n =>
    refine ⟨by decide, fun _ s hs => ?_⟩
    simp only [Option.some.injEq] at hs
    subst hs
    exact h.2
  | maxArrayItems n =>
    refine ⟨by decide, fun _ s hs => ?_⟩
    simp only [Option.some.injEq] at hs
    subst hs
    exact h.2
  | maxArrayItemsIs n =>
    refine ⟨by decide, fun _ s hs => ?_⟩
    simp only [Option.some.injEq] at hs
    subst hs
    exact h

theorem TreeOption.set_all (xs : List TreeOption) (hx : ∀ x ∈ xs, x.Plain t) (a : Bool × Int) :
    xs.foldl (TreeOption.set t) a =
      (a.1 && !(optionsOf (xs.map piece)).any (fun d => d.1 == attributesOpt),
        ((lastText itemsOpt (optionsOf (xs.map piece))).bind t.int).getD a.2) := by
  induction xs generalizing a with
  | nil => simp [optionsOf, lastText]
  | cons x xs ih =>
    rw [List.foldl_cons, ih (fun y hy => hx y (List.mem_cons_of_mem _ hy))]
    have e : optionsOf ((x :: xs).map piece) = optionsOf [x.piece] ++ optionsOf (xs.map piece) := by
      rw [← optionsOf_append]
      rfl
    rw [e, lastText_append, List.any_append]
    have h1 : (optionsOf [x.piece]).any (fun d => d.1 == attributesOpt) = match x with
        | .a => true | _ => false := by
      cases x <;> rfl
    have h2 : lastText itemsOpt (optionsOf [x.piece]) = match x with
        | .m n => some n | .maxArrayItems n => some n | .maxArrayItemsIs n => some n | _ => none := by
      cases x <;> rfl
    rw [h1, h2]
    have hnum : ∀ v, lastText itemsOpt (optionsOf (xs.map piece)) = some v → ∃ i, t.int v = some i := by
      intro v hv
      unfold lastText at hv
      have hm := List.mem_of_getLast? hv
      obtain ⟨⟨o, w⟩, hm, hw⟩ := List.mem_filterMap.1 hm
      rw [mem_optionsOf] at hm
      obtain ⟨z, hz, hzp⟩ := List.mem_map.1 hm
      have hfine := fine (hx z (List.mem_cons_of_mem _ hz))
      rw [hzp] at hfine
      by_cases ho : o = itemsOpt
      · subst ho
        simp only [beq_self_eq_true, if_true] at hw
        exact hfine.2 rfl v hw
      · simp [ho] at hw
    have hxn := fine (hx x (by simp))
    cases hl : lastText itemsOpt (optionsOf (xs.map piece)) with
    | some v =>
      obtain ⟨i, hi⟩ := hnum v hl
      cases x <;> simp [TreeOption.set, hi]
    | none => cases x <;> simp [TreeOption.set]

/-- **C118**, `tree`: `-a` hides the attributes, `-m` says how many items are shown, else five. -/
theorem tree_usage {ref : Option Str} {c infile : Str} {xs ys : List TreeOption}
    (hc : Calls c s%"tree") (hw : PlainWord infile) (hx : ∀ x ∈ xs ++ ys, x.Plain t) :
    parseCommandLine t ref (c :: (xs.flatMap TreeOption.written ++ infile :: ys.flatMap TreeOption.written)) =
      .ok (.tree infile ((xs ++ ys).foldl (TreeOption.set t) (true, 5)).1
        ((xs ++ ys).foldl (TreeOption.set t) (true, 5)).2) := by
  have hd : ∀ x : TreeOption, x.piece ≠ .dashes := by
    intro x
    cases x <;> simp [TreeOption.piece]
  have hx1 : Consists t treeParser (xs.flatMap TreeOption.written) (xs.map TreeOption.piece) :=
    consists_flatMap hd fun x h => TreeOption.consists (hx x (List.mem_append.2 (Or.inl h)))
  have hy1 : Consists t treeParser (ys.flatMap TreeOption.written) (ys.map TreeOption.piece) :=
    consists_flatMap hd fun x h => TreeOption.consists (hx x (List.mem_append.2 (Or.inr h)))
  have ho : ∀ zs : List TreeOption, OnlyOptions (zs.map TreeOption.piece) := by
    intro zs x h
    obtain ⟨z, -, rfl⟩ := List.mem_map.1 h
    cases z <;> exact ⟨_, _, rfl⟩
  have hf : checkPieces t ((xs ++ ys).map TreeOption.piece) = .ok () := by
    rw [check_ok_iff]
    intro x h
    obtain ⟨z, hz, rfl⟩ := List.mem_map.1 h
    exact TreeOption.fine (hx z hz)
  rw [word_anywhere_partial (name := s%"tree") rfl rfl hc hx1 (ho xs).noWords hy1 (ho ys).noWords hw.isWord,
    line_pieces (name := s%"tree") rfl (by decide) hc (.word hw.isWord (consists_append hx1 (ho xs).noWords.dashes hy1)),
    ← List.map_append]
  have e : (feed .one (.fresh, .empty) (.word infile :: (xs ++ ys).map TreeOption.piece)).2 =
      ⟨optionsOf ((xs ++ ys).map TreeOption.piece), [infile], []⟩ := by
    rw [feed_cons]
    simp only [step]
    rw [feed_noWords (ho _).noWords, (ho _).extras]
    rfl
  have hchk : checkPieces t (.word infile :: (xs ++ ys).map TreeOption.piece) = .ok () := hf
  rw [hchk, show treeParser.rest = .one from rfl, e, TreeOption.set_all _ hx]
  simp only [List.isEmpty_cons, Bool.and_false, Bool.false_eq_true, if_false, List.isEmpty_nil, if_true]
  rw [commandOf_tree]
  exact ⟨rfl, rfl, by simp, rfl⟩

/-! ## `install` -/

/-- The option as it is read. -/
def InstallOption.piece : InstallOption → Piece
  | .u => .option updateOpt none
  | .update => .option updateOpt none

theorem InstallOption.consists {x : InstallOption} : Consists t installParser x.written [x.piece] := by
  cases x with
  | u => exact .options (qs := [_]) (.letters (.flag ⟨by decide, by decide⟩ rfl)) .nil
  | update =>
    exact .options (qs := [_]) (.long (n := s%"update") (by decide) (by decide)
      (Or.inl ⟨by decide, by decide⟩) rfl) .nil

/-- **C118**, `install`: the sets are those that are named, else `main`; they are updated if `-u` or
`--update` is given. -/
theorem install_usage {ref : Option Str} {c : Str} {names : List Str} {xs ys : List InstallOption}
    (hc : Calls c s%"install") (hw : ∀ n ∈ names, PlainWord n) :
    parseCommandLine t ref (c :: (xs.flatMap InstallOption.written ++
        (names ++ ys.flatMap InstallOption.written))) =
      .ok (.install (if names = [] then [s%"main"] else names) (decide (xs ++ ys ≠ []))) := by
  have hd : ∀ x : InstallOption, x.piece ≠ .dashes := by
    intro x
    cases x <;> simp [InstallOption.piece]
  have hx1 : ∀ zs : List InstallOption,
      Consists t installParser (zs.flatMap InstallOption.written) (zs.map InstallOption.piece) :=
    fun zs => consists_flatMap hd fun x _ => InstallOption.consists
  have ho : ∀ zs : List InstallOption, OnlyOptions (zs.map InstallOption.piece) := by
    intro zs x h
    obtain ⟨z, -, rfl⟩ := List.mem_map.1 h
    cases z <;> exact ⟨_, _, rfl⟩
  have hf : checkPieces t ((xs ++ ys).map InstallOption.piece) = .ok () := by
    rw [check_ok_iff]
    intro x h
    obtain ⟨z, -, rfl⟩ := List.mem_map.1 h
    cases z <;> exact ⟨by decide, fun h => absurd h (by decide)⟩
  rw [names_anywhere_partial hc (hx1 xs) (ho xs).noWords (hx1 ys) (ho ys).noWords (fun n hn => (hw n hn).isWord),
    line_pieces (name := s%"install") rfl (by decide) hc (consists_words (fun n hn => (hw n hn).isWord)
      (consists_append (hx1 xs) (ho xs).noWords.dashes (hx1 ys))), ← List.map_append]
  have e : (feed .many (.fresh, .empty) (names.map .word ++ (xs ++ ys).map InstallOption.piece)).2 =
      ⟨optionsOf ((xs ++ ys).map InstallOption.piece), names, []⟩ := by
    rw [feed_append, feed_words (Or.inl rfl), feed_noWords (ho _).noWords, (ho _).extras]
    rfl
  have hchk : checkPieces t (names.map .word ++ (xs ++ ys).map InstallOption.piece) = .ok () := by
    rw [← List.nil_append (List.map _ names ++ _), check_map_words]
    exact hf
  rw [hchk, show installParser.rest = .many from rfl, e]
  simp only [show (Rest.many == Rest.one) = false from rfl, Bool.false_and, Bool.false_eq_true, if_false,
    List.isEmpty_nil, if_true]
  rw [commandOf_install]
  refine ⟨rfl, by simp, ?_⟩
  cases xs ++ ys with
  | nil => rfl
  | cons z zs => cases z <;> rfl

/-! ## help and version -/

/-- **C118**: `punx -h`, `punx --help`, `punx -v`, `punx --version`, whatever words follow. -/
theorem first_usage {ref : Option Str} {w : Str} {ws : List Str} (hw : w ∈ helpWords ++ versionWords)
    (hws : ∀ x ∈ ws, PlainWord x) : parseCommandLine t ref (w :: ws) = .error (.systemExit 0) := by
  obtain ⟨js, hjs⟩ : ∃ js, classify t topParser ws = .ok js := by
    rw [classify_ok_iff top_named]
    intro a ha hamb
    obtain ⟨v, rfl⟩ := ambiguous_top hamb
    have : ('-' :: '-' :: '=' :: v) ∈ ws := (List.takeWhile_sublist _).mem ha
    exact hws _ this rfl
  have key : ∀ w o, topParser.named w = some o → o.kind = .exits → startsWith w s%"-" = true →
      w ≠ ['-', '-'] → parseCommandLine t ref (w :: ws) = .error (.systemExit 0) := by
    intro w o h1 h2 h3 h4
    have ho : o.takes = false := by
      unfold CliOpt.takes
      rw [h2]
    simp only [parseCommandLine, h3, if_true, parseArgs, parseKnown]
    rw [classify_cons h4]
    simp only [parseOptional, h3, Bool.not_true, Bool.false_eq_true, if_false, h1, hjs]
    simp only [eat, useOption, useAlone, ho, Bool.false_eq_true, if_false, takeActions, takeOne, h2]
  simp only [helpWords, versionWords, List.cons_append, List.nil_append, List.mem_cons, List.not_mem_nil,
    or_false] at hw
  rcases hw with rfl | rfl | rfl | rfl
  · exact key _ helpOpt rfl rfl rfl (by decide)
  · exact key _ helpOpt rfl rfl rfl (by decide)
  · exact key _ ⟨[s%"-v", s%"--version"], s%"version", .exits⟩ rfl rfl rfl (by decide)
  · exact key _ ⟨[s%"-v", s%"--version"], s%"version", .exits⟩ rfl rfl rfl (by decide)

/-- **C118**: help of every command, whatever words follow. -/
theorem help_usage {ref : Option Str} {c name w : Str} {ws : List Str} (hn : name ∈ commands)
    (hc : Calls c name) (hw : w ∈ helpWords) (hws : ∀ x ∈ ws, PlainWord x) :
    parseCommandLine t ref (c :: w :: ws) = .error (.systemExit 0) := by
  obtain ⟨q, hq⟩ := sub_some_iff.2 hn
  have hh : helpOpt ∈ q.opts := by
    unfold subParser at hq
    repeat' split at hq
    all_goals simp only [Option.some.injEq, reduceCtorEq] at hq
    all_goals subst hq
    all_goals decide
  have hwn : w ≠ ['-', '-'] := by
    simp only [helpWords, List.mem_cons, List.not_mem_nil, or_false] at hw
    rcases hw with rfl | rfl <;> decide
  have hname : HasName q w helpOpt := ⟨hh, hw⟩
  have hnamb : ∀ {p : CliParser}, HasName p w helpOpt → ∀ a ∈ beforeDashes (w :: ws), ¬ Ambiguous p a := by
    intro p hname a ha hamb
    rcases List.mem_cons.1 ((List.takeWhile_sublist _).mem ha) with rfl | ha
    · obtain ⟨n, h1, h2, h3, -⟩ := hamb
      rcases h2 with ⟨rfl, -⟩ | ⟨v, rfl⟩
      · exact h3 _ hname
      · simp only [helpWords, List.mem_cons, List.not_mem_nil, or_false] at hw
        have : '=' ∈ '-' :: '-' :: (n ++ '=' :: v) := by simp
        rcases hw with h | h <;> rw [h] at this <;> revert this <;> decide
    · obtain ⟨n, -, h2, -⟩ := hamb
      refine hws a ha ?_
      rcases h2 with ⟨rfl, -⟩ | ⟨v, rfl⟩ <;> rfl
  rw [command_help_iff hq hc]
  refine ⟨fun a ha => ⟨hnamb ⟨by decide, hw⟩ a ha, hnamb hname a ha⟩, [w], ws, [.option helpOpt none], rfl, ?_,
    [], helpOpt, none, [], rfl, rfl, by simp⟩
  simp only [helpWords, List.mem_cons, List.not_mem_nil, or_false] at hw
  rcases hw with rfl | rfl
  · exact .options (qs := [_]) (.letters (.flag hname rfl)) .nil
  · exact .options (qs := [_]) (.long (n := s%"help") (by decide) (by decide) (Or.inl hname) rfl) .nil

end Punx

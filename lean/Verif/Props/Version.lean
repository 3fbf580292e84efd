import Verif.Spec.Version
import Verif.Props.DefaultPlotV2
import Mathlib.Tactic.IntervalCases

/-!
# C93: what `git describe` says is read back
-/

namespace Punx
open Spec

/-! ## texts -/

theorem cutLast_none {c : Char} {s : Str} : cutLast c s = none ↔ c ∉ s := by
  induction s with
  | nil => simp [cutLast]
  | cons a s ih =>
    rw [cutLast]
    cases h : cutLast c s with
    | some ab =>
      obtain ⟨x, y⟩ := ab
      have : c ∈ s := by
        by_contra hc
        rw [ih.2 hc] at h; cases h
      simp [this]
    | none =>
      have := ih.1 h
      by_cases hac : a = c
      · subst hac; simp
      · simp [hac, this, Ne.symm hac]

theorem cutLast_append {c : Char} (a : Str) {b : Str} (h : c ∉ b) :
    cutLast c (a ++ c :: b) = some (a, b) := by
  induction a with
  | nil => rw [List.nil_append, cutLast, cutLast_none.2 h]; simp
  | cons x a ih => rw [List.cons_append, cutLast, ih]

theorem cutLast_iff {c : Char} {s a b : Str} :
    cutLast c s = some (a, b) ↔ s = a ++ c :: b ∧ c ∉ b := by
  constructor
  · intro h
    induction s generalizing a with
    | nil => cases h
    | cons x s ih =>
      rw [cutLast] at h
      cases hs : cutLast c s with
      | some ab =>
        obtain ⟨a', b'⟩ := ab
        rw [hs] at h
        simp only [Option.some.injEq, Prod.mk.injEq] at h
        obtain ⟨rfl, rfl⟩ := h
        obtain ⟨h1, h2⟩ := ih hs
        exact ⟨by rw [h1]; rfl, h2⟩
      | none =>
        rw [hs] at h
        simp only at h
        split at h
        · rename_i hx
          simp only [Option.some.injEq, Prod.mk.injEq] at h
          obtain ⟨rfl, rfl⟩ := h
          exact ⟨by rw [hx]; rfl, cutLast_none.1 hs⟩
        · cases h
  · rintro ⟨rfl, h⟩
    exact cutLast_append a h

theorem dropWhile_head {p : Char → Bool} {s : Str}
    (h : ∀ c cs, s = c :: cs → p c = false) : s.dropWhile p = s := by
  cases s with
  | nil => rfl
  | cons c cs => rw [List.dropWhile_cons, h c cs rfl]; rfl

theorem stripBy_id {p : Char → Bool} {s : Str} (h1 : ∀ c cs, s = c :: cs → p c = false)
    (h2 : ∀ cs c, s = cs ++ [c] → p c = false) : stripBy p s = s := by
  rw [stripBy, dropWhile_head h1, dropWhile_head, List.reverse_reverse]
  intro c cs h
  refine h2 cs.reverse c ?_
  rw [← List.reverse_reverse s, h]; simp

theorem dropWhile_append_all {p : Char → Bool} {a : Str} (s : Str) (h : ∀ c ∈ a, p c = true) :
    (a ++ s).dropWhile p = s.dropWhile p := by
  induction a with
  | nil => rfl
  | cons x a ih =>
    rw [List.cons_append, List.dropWhile_cons, if_pos (h x List.mem_cons_self)]
    exact ih fun c hc => h c (List.mem_cons_of_mem _ hc)

/-- Characters of a set around a text that neither begins nor ends with one. -/
theorem stripBy_around {p : Char → Bool} {a s b : Str} (ha : ∀ c ∈ a, p c = true)
    (hb : ∀ c ∈ b, p c = true) (h1 : ∀ c cs, s = c :: cs → p c = false)
    (h2 : ∀ cs c, s = cs ++ [c] → p c = false) : stripBy p (a ++ s ++ b) = s := by
  rw [stripBy, List.append_assoc, dropWhile_append_all _ ha]
  cases s with
  | nil =>
    have : ([] ++ b).dropWhile p = [] := by
      have := dropWhile_append_all (a := b) [] hb
      simpa using this
    rw [this]; rfl
  | cons c cs =>
    rw [dropWhile_head (s := c :: cs ++ b)]
    · rw [List.reverse_append, dropWhile_append_all, dropWhile_head, List.reverse_reverse]
      · intro d ds h
        refine h2 ds.reverse d ?_
        rw [← List.reverse_reverse (c :: cs), h]; simp
      · intro d hd
        exact hb d (List.mem_reverse.1 hd)
    · rintro d ds h
      rw [List.cons_append, List.cons.injEq] at h
      exact h1 d cs (by rw [h.1])

theorem pyStrip_trimmed {s : Str} (h : Trimmed s) : pyStrip s = s := stripBy_id h.1 h.2

theorem isPySpace_of_ascii {c : Char}
    (h : ((9 ≤ c.toNat && c.toNat ≤ 13) || c = ' ') = true) : isPySpace c = true := by
  simp only [Bool.or_eq_true, Bool.and_eq_true, decide_eq_true_eq] at h
  rw [isPySpace]
  rcases h with ⟨h1, h2⟩ | h
  · simp [h1, h2]
  · subst h; rfl

theorem asciiStrip_trimmed {s : Str} (h : Trimmed s) : asciiStrip s = s := by
  refine stripBy_id (fun c cs hc => ?_) (fun cs c hc => ?_)
  · have := h.1 c cs hc
    by_contra hn
    rw [Bool.not_eq_false] at hn
    rw [isPySpace_of_ascii hn] at this; cases this
  · have := h.2 cs c hc
    by_contra hn
    rw [Bool.not_eq_false] at hn
    rw [isPySpace_of_ascii hn] at this; cases this

theorem asciiStrip_around {a s b : Str} (ha : ∀ c ∈ a, c = ' ' ∨ c = '\n' ∨ c = '\r')
    (hb : ∀ c ∈ b, c = ' ' ∨ c = '\n' ∨ c = '\r') (h : Trimmed s) :
    asciiStrip (a ++ s ++ b) = s := by
  have hw : ∀ c : Char, c = ' ' ∨ c = '\n' ∨ c = '\r' →
      ((9 ≤ c.toNat && c.toNat ≤ 13) || c = ' ') = true := by
    rintro c (rfl | rfl | rfl) <;> decide
  refine stripBy_around (fun c hc => hw c (ha c hc)) (fun c hc => hw c (hb c hc))
    (fun c cs hc => ?_) (fun cs c hc => ?_)
  · have := h.1 c cs hc
    by_contra hn
    rw [Bool.not_eq_false] at hn
    rw [isPySpace_of_ascii hn] at this; cases this
  · have := h.2 cs c hc
    by_contra hn
    rw [Bool.not_eq_false] at hn
    rw [isPySpace_of_ascii hn] at this; cases this

/-! ## numbers and commits -/

theorem natStr_digits {n : Nat} {c : Char} (h : c ∈ natStr n) : c.isDigit = true :=
  Nat.isDigit_of_mem_toDigits (by decide) (by decide) h

theorem natStr_ne_nil (n : Nat) : natStr n ≠ [] := Nat.toDigits_ne_nil

theorem intStr_nat (n : Nat) : intStr (n : Int) = natStr n := rfl

theorem hex_iff {c : Char} : isHexDigit c = true ↔ c ∈ s%"0123456789abcdef" := by
  constructor
  · intro h
    simp only [isHexDigit, Bool.or_eq_true, Bool.and_eq_true, decide_eq_true_eq] at h
    have hc : c = Char.ofNat c.toNat := (Char.ofNat_toNat c).symm
    rcases h with ⟨h1, h2⟩ | ⟨h1, h2⟩
    · obtain ⟨k, hk⟩ : ∃ k, c.toNat = k := ⟨_, rfl⟩
      rw [hk] at hc h1 h2
      subst hc
      interval_cases k <;> decide
    · obtain ⟨k, hk⟩ : ∃ k, c.toNat = k := ⟨_, rfl⟩
      rw [hk] at hc h1 h2
      subst hc
      interval_cases k <;> decide
  · intro h
    simp only [List.mem_cons, List.not_mem_nil, or_false] at h
    rcases h with rfl | rfl | rfl | rfl | rfl | rfl | rfl | rfl | rfl | rfl | rfl | rfl | rfl | rfl | rfl | rfl <;> rfl

theorem hex_notMem {s : Str} (h : IsHex s) {c : Char} (hc : c ∉ s%"0123456789abcdef") : c ∉ s :=
  fun hm => hc (h.2 c hm)

theorem digit_notMem {n : Nat} {c : Char} (hc : c.isDigit = false) : c ∉ natStr n := fun hm => by
  rw [natStr_digits hm] at hc; cases hc

/-! ## the text of `git describe` -/

/-- **C93.**  The regular expression of the code accepts exactly the texts TAG-NUM-gHEX (a line
feed may follow), and there is only one way to read such a text. -/
theorem matchDescribe_iff {env : VEnv} (hd : env.digit '-' = false) {s tag num hex : Str} :
    matchDescribe env s = some (tag, num, hex) ↔
      (s = tag ++ s%"-" ++ num ++ s%"-g" ++ hex ∨ s = tag ++ s%"-" ++ num ++ s%"-g" ++ hex ++ s%"\n") ∧
      tag ≠ [] ∧ '\n' ∉ tag ∧ num ≠ [] ∧ (∀ c ∈ num, env.digit c = true) ∧ IsHex hex := by
  have key : ∀ t : Str, (match cutLast '-' t with
      | none => none
      | some (front, last) =>
        match cutLast '-' front with
        | none => none
        | some (tag, num) =>
          match last with
          | 'g' :: hex =>
            if tag ≠ [] ∧ tag.all (· ≠ '\n') ∧ num ≠ [] ∧ num.all env.digit ∧ hex ≠ [] ∧
                hex.all isHexDigit then some (tag, num, hex) else none
          | _ => none) = some (tag, num, hex) ↔
      t = tag ++ s%"-" ++ num ++ s%"-g" ++ hex ∧
      tag ≠ [] ∧ '\n' ∉ tag ∧ num ≠ [] ∧ (∀ c ∈ num, env.digit c = true) ∧ IsHex hex := by
    intro t
    constructor
    · intro h
      split at h
      · cases h
      · rename_i front last h1
        split at h
        · cases h
        · rename_i tag' num' h2
          split at h
          · rename_i hex'
            split at h
            · rename_i hc
              simp only [Option.some.injEq, Prod.mk.injEq] at h
              obtain ⟨rfl, rfl, rfl⟩ := h
              obtain ⟨rfl, -⟩ := cutLast_iff.1 h2
              obtain ⟨rfl, -⟩ := cutLast_iff.1 h1
              obtain ⟨c1, c2, c3, c4, c5, c6⟩ := hc
              refine ⟨by simp, c1, ?_, c3, List.all_eq_true.1 c4, c5, fun c hc => ?_⟩
              · intro hm
                have := List.all_eq_true.1 c2 _ hm
                simp at this
              · exact hex_iff.1 (List.all_eq_true.1 c6 c hc)
            · cases h
          · cases h
    · rintro ⟨rfl, h1, h2, h3, h4, h5⟩
      have hg : '-' ∉ 'g' :: hex := by
        rw [List.mem_cons, not_or]
        exact ⟨by decide, hex_notMem h5 (by decide)⟩
      have hn : '-' ∉ num := fun hm => by rw [h4 _ hm] at hd; cases hd
      have e1 : tag ++ s%"-" ++ num ++ s%"-g" ++ hex = (tag ++ '-' :: num) ++ '-' :: 'g' :: hex := by
        simp
      rw [e1, cutLast_append _ hg]
      simp only
      rw [cutLast_append _ hn]
      simp only
      rw [if_pos]
      refine ⟨h1, List.all_eq_true.2 fun c hc => ?_, h3, List.all_eq_true.2 h4, h5.1,
        List.all_eq_true.2 fun c hc => hex_iff.2 (h5.2 c hc)⟩
      simp only [decide_eq_true_eq]
      rintro rfl; exact h2 hc
  refine (key _).trans ?_
  constructor
  · rintro ⟨h, hr⟩
    refine ⟨?_, hr⟩
    split at h
    · rename_i hl
      right
      obtain ⟨t, rfl⟩ : ∃ t, s = t ++ ['\n'] := by
        have := List.dropLast_append_getLast? '\n' hl
        exact ⟨_, this.symm⟩
      rw [List.dropLast_concat] at h
      rw [h]
    · exact .inl h
  · rintro ⟨h, hr⟩
    refine ⟨?_, hr⟩
    obtain ⟨-, -, -, -, hh⟩ := hr
    have hlast : ∀ x : Str, (x ++ hex).getLast? ≠ some '\n' := by
      intro x hx
      rw [List.getLast?_append_of_ne_nil _ hh.1] at hx
      have := hh.2 _ (List.mem_of_getLast? hx)
      revert this; decide
    rcases h with rfl | rfl
    · rw [if_neg (hlast _)]
    · rw [if_pos (by exact List.getLast?_concat), List.dropLast_concat]

/-! ## running `git` -/

/-- What the code makes of the answer of a program. -/
def answerOf : Spawn → Except VErr (Option Str × Option Int)
  | .notFound => .ok (none, none)
  | .failed => .ok (none, none)
  | .done none _ => .error (.py .unicodeDecodeError)
  | .done (some out) rc =>
    if rc ≠ 0 then .ok (none, some rc) else .ok (some (asciiStrip out), some rc)

theorem runCommand_runs {w : VWorld} {ps args : List Str} {cwd : Str} {r : Spawn}
    (h : Runs w ps args cwd r) : runCommand w args cwd ps = answerOf r := by
  obtain ⟨before, c, after, rfl, hb, rfl, hne⟩ := h
  induction before with
  | nil =>
    rw [List.nil_append, runCommand]
    cases hc : w.spawn c args cwd with
    | notFound => exact absurd hc hne
    | failed => rfl
    | done out rc => cases out <;> rfl
  | cons b before ih =>
    rw [List.cons_append, runCommand, hb b List.mem_cons_self]
    exact ih fun x hx => hb x (List.mem_cons_of_mem _ hx)

theorem runCommand_missing {w : VWorld} {ps args : List Str} {cwd : Str}
    (h : ∀ p ∈ ps, w.spawn p args cwd = .notFound) :
    runCommand w args cwd ps = .ok (none, none) := by
  induction ps with
  | nil => rfl
  | cons p ps ih =>
    rw [runCommand, h p List.mem_cons_self]
    exact ih fun x hx => h x (List.mem_cons_of_mem _ hx)

/-- Either none of the programs is there, or one of them answers. -/
theorem runs_or_missing (w : VWorld) (ps args : List Str) (cwd : Str) :
    (∀ p ∈ ps, w.spawn p args cwd = .notFound) ∨ ∃ r, Runs w ps args cwd r := by
  induction ps with
  | nil => left; simp
  | cons p ps ih =>
    by_cases hp : w.spawn p args cwd = .notFound
    · rcases ih with h | ⟨r, before, c, after, rfl, hb, hr, hn⟩
      · left
        intro q hq
        rcases List.mem_cons.1 hq with rfl | hq
        · exact hp
        · exact h q hq
      · right
        refine ⟨r, p :: before, c, after, rfl, ?_, hr, hn⟩
        intro q hq
        rcases List.mem_cons.1 hq with rfl | hq
        · exact hp
        · exact hb q hq
    · right
      exact ⟨_, [], p, ps, rfl, by simp, rfl, hp⟩

theorem git_says {w : VWorld} {root out : Str} {args : List Str} (h : GitSays w root args out) :
    runCommand w args root (gits w) = .ok (some (asciiStrip out), some 0) := by
  have := runCommand_runs h
  exact this

/-! ## reading the description -/

theorem trimmed_hex {s : Str} (h : IsHex s) : Trimmed s := by
  have hs : ∀ c ∈ s%"0123456789abcdef", isPySpace c = false := by decide
  refine ⟨?_, ?_⟩
  · rintro c cs rfl
    exact hs c (h.2 c List.mem_cons_self)
  · rintro cs c rfl
    exact hs c (h.2 c (by simp))

/-- The beginning of the description is that of the tag, the end a digit or the mark. -/
theorem trimmed_describe {tag : Str} {n : Nat} {hex : Str} {dirty : Bool} (ht : tag ≠ [])
    (hs : ∀ c cs, tag = c :: cs → isPySpace c = false) (hh : IsHex hex) :
    Trimmed (describeText tag n hex dirty) := by
  refine ⟨?_, ?_⟩
  · intro c cs h
    cases tag with
    | nil => exact absurd rfl ht
    | cons a tag =>
      simp only [describeText, List.cons_append, List.cons.injEq] at h
      rw [← h.1]
      exact hs a tag rfl
  · intro cs c h
    have hl : (describeText tag n hex dirty).getLast? = some c := by
      rw [h]; simp
    rw [describeText, mark] at hl
    cases dirty with
    | true =>
      rw [if_pos rfl, List.getLast?_append_of_ne_nil _ (by decide)] at hl
      simp at hl
      subst hl; decide
    | false =>
      rw [if_neg (by decide), List.append_nil, List.getLast?_append_of_ne_nil _ hh.1] at hl
      have hs : ∀ c ∈ s%"0123456789abcdef", isPySpace c = false := by decide
      exact hs c (hh.2 c (List.mem_of_getLast? hl))

theorem cutDirty_mark {s : Str} {dirty : Bool} (h : ¬ s%"-dirty" <:+ s) :
    cutDirty (s ++ mark dirty s%"-dirty") = (dirty, s) := by
  cases dirty with
  | true =>
    have h1 : endsWith (s ++ s%"-dirty") s%"-dirty" = true := by
      rw [endsWith, List.isSuffixOf_iff_suffix]
      exact List.suffix_append _ _
    rw [mark, if_pos rfl, cutDirty, if_pos h1]
    simp
  | false =>
    rw [mark, if_neg (by decide), List.append_nil, cutDirty, if_neg]
    rw [endsWith, List.isSuffixOf_iff_suffix]
    exact h

theorem not_dirty_hex {x s : Str} (h : IsHex s) : ¬ s%"-dirty" <:+ x ++ s := by
  rintro ⟨a, ha⟩
  have h1 : (a ++ s%"-dirty").getLast? = some 'y' := by
    rw [List.getLast?_append_of_ne_nil _ (by decide)]; rfl
  rw [ha, List.getLast?_append_of_ne_nil _ h.1] at h1
  have := h.2 _ (List.mem_of_getLast? h1)
  revert this; decide

theorem replaceFirst_at {c : Char} {new a b : Str} (h : c ∉ a) :
    replaceFirst c new (a ++ c :: b) = a ++ new ++ b := by
  induction a with
  | nil => simp [replaceFirst]
  | cons x a ih =>
    rw [List.mem_cons, not_or] at h
    rw [List.cons_append, replaceFirst, if_neg (Ne.symm h.1), ih h.2]
    simp

/-- **C93.**  The date of a commit as `git` writes it, day, time and zone, is turned into the ISO
form. -/
theorem date_iso {day time zone : Str} (hd : ' ' ∉ day) (ht : ' ' ∉ time) (hT : Trimmed (day ++ s%" " ++ time ++ s%" " ++ zone)) :
    fixDate (day ++ s%" " ++ time ++ s%" " ++ zone) = day ++ s%"T" ++ time ++ zone := by
  rw [fixDate, pyStrip_trimmed hT]
  have e : day ++ s%" " ++ time ++ s%" " ++ zone = day ++ ' ' :: (time ++ s%" " ++ zone) := by simp
  rw [e, replaceFirst_at hd]
  have e2 : day ++ s%"T" ++ (time ++ s%" " ++ zone) = (day ++ s%"T" ++ time) ++ ' ' :: zone := by simp
  rw [e2, replaceFirst_at]
  · simp
  · simp only [List.mem_append, not_or]
    exact ⟨⟨hd, by decide⟩, ht⟩

/-- **C93.**  If `git` describes the tree as the commit HEX that is N commits after a tag, exactly
this is read: tag, number, commit and whether the tree is changed; for every tag, also one with
hyphens or one that itself looks like a description. -/
theorem describe_read {env : VEnv} (he : PythonDigits env) {w : VWorld} {pre root tag dir head hex date : Str}
    {n : Nat} {dirty : Bool}
    (ht : pre ++ tag ≠ []) (hnl : '\n' ∉ pre ++ tag)
    (hs : ∀ c cs, pre ++ tag = c :: cs → isPySpace c = false)
    (hh : IsHex hex) (hhead : IsHex head) (hdate : Trimmed date)
    (g1 : GitSays w root askDir dir)
    (g2 : GitSays w root (askDescribe pre) (describeText (pre ++ tag) n hex dirty ++ s%"\n"))
    (g3 : GitSays w root askHead (head ++ s%"\n"))
    (g4 : GitSays w root askDate (date ++ s%"\n")) :
    gitPiecesFromVcs env w pre root =
      .ok ⟨head, hex, none, dirty, some (some tag), some (n : Int), some (fixDate date)⟩ := by
  have strip : ∀ s : Str, Trimmed s → asciiStrip (s ++ s%"\n") = s := by
    intro s h
    have := asciiStrip_around (a := []) (b := s%"\n") (by simp) (by simp) h
    simpa using this
  have ht2 : Trimmed (describeText (pre ++ tag) n hex dirty) := trimmed_describe ht hs hh
  have r1 := git_says g1
  have r2 := git_says g2
  have r3 := git_says g3
  have r4 := git_says g4
  rw [strip _ ht2] at r2
  rw [strip _ (trimmed_hex hhead)] at r3
  rw [strip _ hdate] at r4
  rw [askDir] at r1
  rw [askDescribe] at r2
  rw [askHead] at r3
  rw [askDate] at r4
  have hm : matchDescribe env (pre ++ tag ++ s%"-" ++ natStr n ++ s%"-g" ++ hex) =
      some (pre ++ tag, natStr n, hex) :=
    (matchDescribe_iff he.dash).2 ⟨.inl rfl, ht, hnl, natStr_ne_nil n,
      fun c hc => he.ascii c (natStr_digits hc), hh⟩
  have hcut : cutDirty (describeText (pre ++ tag) n hex dirty) =
      (dirty, pre ++ tag ++ s%"-" ++ natStr n ++ s%"-g" ++ hex) := by
    rw [describeText]
    exact cutDirty_mark (not_dirty_hex hh)
  rw [gitPiecesFromVcs, r1]
  simp only [Except.bind, bind]
  rw [if_neg (by simp), r2]
  simp only
  rw [r3]
  simp only
  rw [pyStrip_trimmed ht2, pyStrip_trimmed (trimmed_hex hhead), hcut]
  simp only
  rw [if_pos (by simp), hm]
  simp only
  have hp : startsWith (pre ++ tag) pre = true := by
    rw [startsWith, List.isPrefixOf_iff_prefix]; exact List.prefix_append _ _
  rw [if_neg (by rw [hp]; decide), he.int]
  simp only
  rw [commitDate, r4]
  simp only [Except.bind, bind]
  rw [pyStrip_trimmed hdate]
  simp

/-- **C93.**  Read and written in the style `git-describe-long` the description is that of
`git`. -/
theorem describe_round_trip {env : VEnv} (he : PythonDigits env) {w : VWorld} {root tag dir head hex date : Str}
    {n : Nat} {dirty : Bool}
    (ht : tag ≠ []) (hnl : '\n' ∉ tag)
    (hs : ∀ c cs, tag = c :: cs → isPySpace c = false)
    (hh : IsHex hex) (hhead : IsHex head) (hdate : Trimmed date)
    (g1 : GitSays w root askDir dir)
    (g2 : GitSays w root (askDescribe []) (describeText tag n hex dirty ++ s%"\n"))
    (g3 : GitSays w root askHead (head ++ s%"\n"))
    (g4 : GitSays w root askDate (date ++ s%"\n")) :
    (gitPiecesFromVcs env w [] root >>= fun p => renderVersion p s%"git-describe-long") =
      .ok ⟨describeText tag n hex dirty, some head, some dirty, none, some (fixDate date)⟩ := by
  rw [describe_read he (pre := []) ht hnl hs hh hhead hdate g1 g2 g3 g4]
  cases tag with
  | nil => exact absurd rfl ht
  | cons c cs =>
    cases dirty <;> rfl

end Punx

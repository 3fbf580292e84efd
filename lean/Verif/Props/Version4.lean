import Verif.Props.Version3

/-!
# C97: the version of the source tree
-/

namespace Punx
open Spec

/-! ## the answers of `git` -/

theorem git_fails {w : VWorld} {root : Str} {args : List Str} (h : GitFails w root args) :
    ∃ rc, rc ≠ some 0 ∧ runCommand w args root (gits w) = .ok (none, rc) := by
  rcases h with h | h | ⟨out, rc, hrc, h⟩
  · exact ⟨none, by simp, runCommand_missing h⟩
  · exact ⟨none, by simp, runCommand_runs h⟩
  · refine ⟨some rc, by simpa using hrc, ?_⟩
    rw [show gits w = gitPrograms w from rfl, runCommand_runs h, answerOf, if_pos hrc]

/-- One of three things happens when `git` is asked. -/
theorem git_answers (w : VWorld) (root : Str) (args : List Str) :
    (∃ out, GitSays w root args out) ∨ GitFails w root args ∨ GitGarbled w root args := by
  rcases runs_or_missing w (gitPrograms w) args root with h | ⟨r, h⟩
  · exact .inr (.inl (.inl h))
  · cases r with
    | notFound => exact absurd rfl h.choose_spec.choose_spec.choose_spec.2.2.2
    | failed => exact .inr (.inl (.inr (.inl h)))
    | done out rc =>
      cases out with
      | none => exact .inr (.inr ⟨rc, h⟩)
      | some out =>
        by_cases hrc : rc = 0
        · subst hrc; exact .inl ⟨out, h⟩
        · exact .inr (.inl (.inr (.inr ⟨out, rc, hrc, h⟩)))

/-! ## the order of the methods -/

theorem orElse_ne {x y : Except VErr VersionInfo} (hy : y ≠ .error .notThisMethod) :
    orElse x y ≠ .error .notThisMethod := by
  cases x with
  | ok i => exact fun h => by cases h
  | error e => cases e <;> simp [orElse, hy]

/-- **C97.**  The exception with which a method is given up is never seen outside. -/
theorem versions_not_given_up (env : VEnv) (w : VWorld) (k : Keywords) :
    getVersions env w k ≠ .error .notThisMethod := by
  rw [getVersions]
  refine orElse_ne ?_
  cases w.file with
  | none => simp
  | some f => exact orElse_ne (orElse_ne (by simp))

/-- **C97.**  Keywords that `git archive` filled in are used before everything else. -/
theorem versions_of_keywords {env : VEnv} {w : VWorld} {k : Keywords} {i : VersionInfo}
    (h : gitVersionsFromKeywords env k [] = .ok i) : getVersions env w k = .ok i := by
  rw [getVersions, show tagPrefix = [] from rfl, h]
  rfl

/-- **C97.**  Without keywords and without a name of the file there is no version. -/
theorem versions_no_file {env : VEnv} {w : VWorld} (h : w.file = none) :
    getVersions env w shippedKeywords =
      .ok ⟨s%"0+unknown", none, none, some s%"unable to find root of source tree", none⟩ := by
  rw [getVersions, shipped_keywords, orElse, h]

theorem root_of_file {names : List Str} {a b : Str} (hn : ∀ m ∈ names, IsFileName m)
    (hne : names ≠ []) (ha : IsFileName a) (hb : IsFileName b) :
    dirName (dirName (pathOf (names ++ [a, b]))) = pathOf names := by
  have h1 : ∀ m ∈ names ++ [a], IsFileName m := by
    intro m hm
    rcases List.mem_append.1 hm with hm | hm
    · exact hn m hm
    · rw [List.mem_singleton.1 hm]; exact ha
  rw [show names ++ [a, b] = (names ++ [a]) ++ [b] by simp, dirName_path hb h1, if_neg (by simp),
    dirName_path ha hn, if_neg hne]

theorem versions_from_root {env : VEnv} {w : VWorld} {names : List Str} {a b : Str}
    (hn : ∀ m ∈ names, IsFileName m) (hne : names ≠ []) (ha : IsFileName a) (hb : IsFileName b)
    (hf : w.file = some (pathOf (names ++ [a, b]))) :
    getVersions env w shippedKeywords =
      orElse (do let p ← gitPiecesFromVcs env w [] (pathOf names); renderVersion p s%"pep440")
        (orElse (versionsFromParentdir s%"punx-" 3 (pathOf names))
          (.ok ⟨s%"0+unknown", none, none, some s%"unable to compute version", none⟩)) := by
  rw [getVersions, shipped_keywords, orElse, hf]
  simp only
  rw [root_of_file hn hne ha hb]
  rfl

/-- **C97.**  In a directory of `git` the version is the tag, followed by distance, commit and mark
unless it is the unchanged tree of the tag. -/
theorem versions_of_git {env : VEnv} (he : PythonDigits env) {w : VWorld} {names : List Str} {a b : Str}
    (hn : ∀ m ∈ names, IsFileName m) (hne : names ≠ []) (ha : IsFileName a) (hb : IsFileName b)
    (hf : w.file = some (pathOf (names ++ [a, b])))
    {tag dir head hex date : Str} {n : Nat} {dirty : Bool}
    (ht : tag ≠ []) (hnl : '\n' ∉ tag) (hs : ∀ c cs, tag = c :: cs → isPySpace c = false)
    (hp : '+' ∉ tag) (hh : IsHex hex) (hhead : IsHex head) (hdate : Trimmed date)
    (g1 : GitSays w (pathOf names) askDir dir)
    (g2 : GitSays w (pathOf names) (askDescribe []) (describeText tag n hex dirty ++ s%"\n"))
    (g3 : GitSays w (pathOf names) askHead (head ++ s%"\n"))
    (g4 : GitSays w (pathOf names) askDate (date ++ s%"\n")) :
    getVersions env w shippedKeywords =
      .ok ⟨if n = 0 ∧ dirty = false then tag
        else tag ++ s%"+" ++ natStr n ++ s%".g" ++ hex ++ mark dirty s%".dirty",
        some head, some dirty, none, some (fixDate date)⟩ := by
  rw [versions_from_root hn hne ha hb hf,
    describe_read he (pre := []) ht hnl hs hh hhead hdate g1 g2 g3 g4]
  have hsays : Says ⟨head, hex, none, dirty, some (some tag), some (n : Int), some (fixDate date)⟩
      ⟨some tag, n, hex, dirty⟩ := ⟨rfl, rfl, rfl, rfl, rfl⟩
  have hreal : Commit.Real ⟨some tag, n, hex, dirty⟩ := ⟨by simpa using ht, hh⟩
  have hr : renderVersion ⟨head, hex, none, dirty, some (some tag), some (n : Int),
      some (fixDate date)⟩ s%"pep440" =
      .ok ⟨if n = 0 ∧ dirty = false then tag
        else tag ++ s%"+" ++ natStr n ++ s%".g" ++ hex ++ mark dirty s%".dirty",
        some head, some dirty, none, some (fixDate date)⟩ := by
    refine renderVersion_text hsays ?_
    rw [renderStyle_pep440]
    by_cases h0 : n = 0 ∧ dirty = false
    · rw [if_pos h0]
      exact pep440_release hsays hreal rfl h0.1 h0.2
    · rw [if_neg h0, pep440_after hsays hreal rfl h0, if_neg hp, localText]
      simp
  simp only [bind, Except.bind]
  rw [hr]
  rfl

theorem pieces_not_git {env : VEnv} {w : VWorld} {root pre : Str}
    (h : GitFails w root askDir) : gitPiecesFromVcs env w pre root = .error .notThisMethod := by
  obtain ⟨rc, h1, h2⟩ := git_fails h
  rw [askDir] at h2
  rw [gitPiecesFromVcs, h2]
  simp only [bind, Except.bind]
  rw [if_pos h1]

/-- **C97.**  Without `git`, or outside a directory of `git`, the version is that in the name of
the directory, or unknown. -/
theorem versions_of_directory {env : VEnv} {w : VWorld} {names : List Str} {a b : Str}
    (hn : ∀ m ∈ names, IsFileName m) (hne : names ≠ []) (ha : IsFileName a) (hb : IsFileName b)
    (hf : w.file = some (pathOf (names ++ [a, b])))
    (hg : GitFails w (pathOf names) askDir) {i : VersionInfo} :
    getVersions env w shippedKeywords = .ok i ↔
      (∃ above below v, names = above ++ (s%"punx-" ++ v) :: below ∧ below.length < 3 ∧
        (∀ x ∈ below, ¬ s%"punx-" <+: x) ∧ i = ⟨v, none, some false, none, none⟩) ∨
      ((∀ above x below, names = above ++ x :: below → below.length < 3 → ¬ s%"punx-" <+: x) ∧
        i = ⟨s%"0+unknown", none, none, some s%"unable to compute version", none⟩) := by
  rw [versions_from_root hn hne ha hb hf, pieces_not_git hg]
  have hd := fun j : VersionInfo => parentdir_version (pre := s%"punx-") (by decide) hn hne (i := j)
  cases hv : versionsFromParentdir s%"punx-" 3 (pathOf names) with
  | ok j =>
    have e : orElse (Except.error VErr.notThisMethod >>= fun p => renderVersion p s%"pep440")
        (orElse (.ok j) (.ok ⟨s%"0+unknown", none, none, some s%"unable to compute version", none⟩)) =
        .ok j := rfl
    rw [e, ← hd i, hv]
    constructor
    · exact .inl
    · rintro (h | ⟨h1, -⟩)
      · exact h
      · obtain ⟨above, below, v, h2, h3, -, -⟩ := (hd j).1 hv
        exact absurd (List.prefix_append _ _) (h1 above _ below h2 h3)
  | error e' =>
    have he : e' = .notThisMethod := by
      rw [parentdir_path (by decide) 3 hn hne] at hv
      split at hv
      · cases hv
      · injection hv with hv; exact hv.symm
    subst he
    have e : orElse (Except.error VErr.notThisMethod >>= fun p => renderVersion p s%"pep440")
        (orElse (.error VErr.notThisMethod) (.ok ⟨s%"0+unknown", none, none, some s%"unable to compute version", none⟩)) =
        .ok ⟨s%"0+unknown", none, none, some s%"unable to compute version", none⟩ := rfl
    rw [e, Except.ok.injEq]
    constructor
    · rintro rfl
      right
      refine ⟨?_, rfl⟩
      rintro above x below h1 h2 ⟨v, hx⟩
      -- the nearest such directory would have been found
      rw [parentdir_path (by decide) 3 hn hne] at hv
      split at hv
      · cases hv
      · rename_i hnone
        have hmem : x ∈ names.reverse.take 3 := by
          rw [h1, List.reverse_append, List.reverse_cons, List.append_assoc, List.take_append,
            List.take_of_length_le (by simp; omega), List.mem_append]
          right
          rw [List.length_reverse]
          obtain ⟨k, hk⟩ : ∃ k, 3 - below.length = k + 1 := ⟨2 - below.length, by omega⟩
          rw [hk]; simp
        have := List.find?_eq_none.1 hnone x hmem
        rw [startsWith, List.isPrefixOf_iff_prefix] at this
        exact this ⟨v, hx⟩
    · rintro (⟨above, below, v, h1, h2, h3, h4⟩ | ⟨-, h⟩)
      · have := (hd i).2 ⟨above, below, v, h1, h2, h3, h4⟩
        rw [hv] at this; cases this
      · exact h.symm

/-! ## does it always end with a version? -/

/-- What must not happen: `git` knows the directory but not what else it is asked. -/
structure GitWorks (env : VEnv) (w : VWorld) (root : Str) : Prop where
  clear : ∀ args, ¬ GitGarbled w root args
  date : (∃ out, GitSays w root askHead out) → ∃ out, GitSays w root askDate out
  count : (∃ out, GitSays w root askHead out) → ∃ out n, GitSays w root askCount out ∧ env.int (asciiStrip out) = some n
  number : ∀ s : Str, s ≠ [] → (∀ c ∈ s, env.digit c = true) → ∃ n, env.int s = some n

theorem matchDescribe_num {env : VEnv} (hd : env.digit '-' = false) {s tag num hex : Str}
    (h : matchDescribe env s = some (tag, num, hex)) :
    num ≠ [] ∧ ∀ c ∈ num, env.digit c = true := by
  obtain ⟨-, -, -, h1, h2, -⟩ := (matchDescribe_iff hd).1 h
  exact ⟨h1, h2⟩

/-- Pieces that can be written: an error, or a tag (or none) and a distance. -/
def Pieces.Fine (p : Pieces) : Prop :=
  p.error.getD [] ≠ [] ∨ (p.closest ≠ none ∧ p.distance ≠ none)

theorem render_fine {p : Pieces} (h : p.Fine) : ∃ i, renderVersion p s%"pep440" = .ok i := by
  rw [renderVersion]
  by_cases he : p.error.getD [] ≠ []
  · exact ⟨_, by rw [if_pos he]⟩
  · rw [if_neg he, renderStyle_pep440]
    rcases h with h | ⟨h1, h2⟩
    · exact absurd h he
    · obtain ⟨t, ht⟩ := Option.ne_none_iff_exists'.1 h1
      obtain ⟨n, hn⟩ := Option.ne_none_iff_exists'.1 h2
      have : ∃ v, renderPep440 p = .ok v := by
        simp only [renderPep440, Pieces.closest!, ht, Pieces.distance!, hn, bind, Except.bind]
        cases t with
        | none => exact ⟨_, rfl⟩
        | some t =>
          cases t with
          | nil => exact ⟨_, rfl⟩
          | cons c cs =>
            simp only
            split
            · by_cases hp : '+' ∈ c :: cs
              · exact ⟨_, by rw [plusOrDot, ht]; simp only; rw [if_pos hp]⟩
              · exact ⟨_, by rw [plusOrDot, ht]; simp only; rw [if_neg hp]⟩
            · exact ⟨_, rfl⟩
      obtain ⟨v, hv⟩ := this
      exact ⟨_, by rw [hv]⟩

theorem commitDate_ok {w : VWorld} {root out : Str} (h : GitSays w root askDate out) :
    ∃ d, commitDate w (gits w) root = .ok d := by
  have := git_says h
  rw [askDate] at this
  rw [commitDate, this]
  exact ⟨_, rfl⟩

theorem pieces_of_working_git {env : VEnv} (hd : env.digit '-' = false) {w : VWorld} {root pre : Str}
    (h : GitWorks env w root) :
    gitPiecesFromVcs env w pre root = .error .notThisMethod ∨
      ∃ p, gitPiecesFromVcs env w pre root = .ok p ∧ p.Fine := by
  rcases git_answers w root askDir with ⟨o1, g1⟩ | g1 | g1
  · rcases git_answers w root (askDescribe pre) with ⟨o2, g2⟩ | g2 | g2
    · rcases git_answers w root askHead with ⟨o3, g3⟩ | g3 | g3
      · right
        have r1 := git_says g1
        have r2 := git_says g2
        have r3 := git_says g3
        obtain ⟨od, gd⟩ := h.date ⟨_, g3⟩
        obtain ⟨oc, nc, gc, hc⟩ := h.count ⟨_, g3⟩
        have rc := git_says gc
        obtain ⟨d, hdate⟩ := commitDate_ok gd
        rw [askDir] at r1
        rw [askDescribe] at r2
        rw [askHead] at r3
        rw [askCount] at rc
        rw [gitPiecesFromVcs, r1]
        simp only [Except.bind, bind]
        rw [if_neg (by simp), r2]
        simp only
        rw [r3]
        simp only
        by_cases hm : '-' ∈ (cutDirty (pyStrip (asciiStrip o2))).2
        · rw [if_pos hm]
          cases hmd : matchDescribe env (cutDirty (pyStrip (asciiStrip o2))).2 with
          | none => exact ⟨_, rfl, .inl (by simp)⟩
          | some x =>
            obtain ⟨tag, num, hex⟩ := x
            simp only
            cases hp : startsWith tag pre with
            | false => exact ⟨_, rfl, .inl (by simp)⟩
            | true =>
              obtain ⟨q1, q2⟩ := matchDescribe_num hd hmd
              obtain ⟨n, hn⟩ := h.number num q1 q2
              simp only [Bool.not_true, Bool.false_eq_true, if_false, hn, hdate]
              exact ⟨_, rfl, .inr ⟨by simp, by simp⟩⟩
        · rw [if_neg hm, rc]
          simp only [hc, hdate]
          exact ⟨_, rfl, .inr ⟨by simp, by simp⟩⟩
      · left
        have r1 := git_says g1
        have r2 := git_says g2
        obtain ⟨x, -, r3⟩ := git_fails g3
        rw [askDir] at r1
        rw [askDescribe] at r2
        rw [askHead] at r3
        rw [gitPiecesFromVcs, r1]
        simp only [Except.bind, bind]
        rw [if_neg (by simp), r2]
        simp only
        rw [r3]
      · exact absurd g3 (h.clear _)
    · left
      have r1 := git_says g1
      obtain ⟨x, -, r2⟩ := git_fails g2
      rw [askDir] at r1
      rw [askDescribe] at r2
      rw [gitPiecesFromVcs, r1]
      simp only [Except.bind, bind]
      rw [if_neg (by simp), r2]
    · exact absurd g2 (h.clear _)
  · exact .inl (pieces_not_git g1)
  · exact absurd g1 (h.clear _)

theorem parentdir_total (pre : Str) (k : Nat) (root : Str) :
    versionsFromParentdir pre k root = .error .notThisMethod ∨
      ∃ i, versionsFromParentdir pre k root = .ok i := by
  induction k generalizing root with
  | zero => exact .inl rfl
  | succ k ih =>
    rw [versionsFromParentdir]
    split
    · exact .inr ⟨_, rfl⟩
    · exact ih _

/-- **C97, part.**  A version is always returned if `git`, where it knows the commit, also gives its
date and the number of commits.  Missing: the case that it does not, for which the function
raises an exception, `versions_may_raise`. -/
theorem versions_returned_partial {env : VEnv} (hd : env.digit '-' = false) {w : VWorld}
    (h : ∀ f, w.file = some f → GitWorks env w (dirName (dirName f))) :
    ∃ i, getVersions env w shippedKeywords = .ok i := by
  rw [getVersions, shipped_keywords, orElse]
  cases hf : w.file with
  | none => exact ⟨_, rfl⟩
  | some f =>
    simp only
    rcases pieces_of_working_git hd (pre := tagPrefix) (h f hf) with hp | ⟨p, hp, hfine⟩
    · rw [hp]
      rcases parentdir_total parentdirPrefix 3 (dirName (dirName f)) with ht | ⟨i, ht⟩ <;> rw [ht] <;>
        exact ⟨_, rfl⟩
    · rw [hp]
      obtain ⟨i, hi⟩ := render_fine hfine
      simp only [bind, Except.bind]
      rw [show versionStyle = s%"pep440" from rfl, hi]
      exact ⟨i, rfl⟩

/-- A `git` that describes the tree but does not give the date of the commit. -/
def gitWithoutDate : VWorld where
  spawn _ args _ :=
    if args = askDate then .done (some []) 128
    else if args = askDescribe [] then .done (some s%"1.2-0-gabc1234\n") 0
    else .done (some s%"abc1234\n") 0
  win32 := false
  file := some s%"/src/punx/_version.py"

/-- ASCII digits only. -/
def asciiDigits : VEnv where
  digit c := c.isDigit
  int s := if s ≠ [] ∧ s.all Char.isDigit then some (Nat.ofDigitChars 10 s 0 : Nat) else none

/-- **C97.**  The function does not always return a version: if the date of the commit is not
given it raises `AttributeError`. -/
theorem versions_may_raise :
    getVersions asciiDigits gitWithoutDate shippedKeywords = .error (.py .attributeError) := by
  decide +kernel

theorem asciiDigits_python : PythonDigits asciiDigits where
  ascii _ h := h
  dash := by decide
  int n := by
    have h1 : (natStr n).all Char.isDigit = true := List.all_eq_true.2 fun c hc => natStr_digits hc
    have h2 : Nat.ofDigitChars 10 (natStr n) 0 = n := Nat.ofDigitChars_ten_toDigits
    show (if natStr n ≠ [] ∧ (natStr n).all Char.isDigit = true then
      some ((Nat.ofDigitChars 10 (natStr n) 0 : Nat) : Int) else none) = some (n : Int)
    rw [if_pos ⟨natStr_ne_nil n, h1⟩, h2]

/-! ## cases -/

/-- A `git` that works. -/
def gitSample : VWorld where
  spawn c args _ :=
    if c ≠ s%"git" then .notFound
    else if args = askDate then .done (some s%"2024-05-03 12:34:56 -0500\n") 0
    else if args = askDescribe [] then .done (some s%"v1.2-rc-17-gabc1234-dirty\n") 0
    else if args = askCount then .done (some s%"250\n") 0
    else .done (some s%"abc1234def\n") 0
  win32 := false
  file := some s%"/src/punx-1.0/punx/_version.py"

theorem sample_says (root : Str) {args : List Str} {out : Str}
    (h : gitSample.spawn s%"git" args root = .done (some out) 0) : GitSays gitSample root args out :=
  ⟨[], s%"git", [], rfl, by simp, h, by simp⟩

theorem sample_trimmed : Trimmed s%"2024-05-03 12:34:56 -0500" := by
  refine ⟨?_, ?_⟩
  · intro c cs h
    rw [← (List.cons.inj h).1]; decide
  · intro cs c h
    have h1 := congrArg List.getLast? h
    rw [List.getLast?_concat] at h1
    rw [← Option.some.inj h1]; decide

theorem sample_hex {s : Str} (h1 : s ≠ []) (h2 : s.all (· ∈ s%"0123456789abcdef") = true) : IsHex s :=
  ⟨h1, fun c hc => by have := List.all_eq_true.1 h2 c hc; exact of_decide_eq_true this⟩

example : gitPiecesFromVcs asciiDigits gitSample [] s%"/src/punx-1.0" =
    .ok ⟨s%"abc1234def", s%"abc1234", none, true, some (some s%"v1.2-rc"), some 17,
      some s%"2024-05-03T12:34:56-0500"⟩ :=
  describe_read asciiDigits_python (pre := []) (tag := s%"v1.2-rc") (n := 17) (by decide) (by decide)
    (by intro c cs h; rw [← (List.cons.inj h).1]; decide)
    (sample_hex (by decide) (by decide)) (sample_hex (by decide) (by decide)) sample_trimmed
    (sample_says _ (by rfl)) (sample_says _ (by rfl)) (sample_says _ (by rfl))
    (sample_says _ (by rfl))

example : fixDate s%"2024-05-03 12:34:56 -0500" = s%"2024-05-03T12:34:56-0500" :=
  date_iso (day := s%"2024-05-03") (time := s%"12:34:56") (zone := s%"-0500") (by decide) (by decide)
    sample_trimmed

example : getVersions asciiDigits gitSample shippedKeywords =
    .ok ⟨s%"v1.2-rc+17.gabc1234.dirty", some s%"abc1234def", some true, none,
      some s%"2024-05-03T12:34:56-0500"⟩ :=
  (versions_of_git asciiDigits_python (hex := s%"abc1234") (head := s%"abc1234def")
    (names := [s%"src", s%"punx-1.0"]) (a := s%"punx")
    (b := s%"_version.py") (tag := s%"v1.2-rc") (n := 17) (dirty := true)
    (by intro m hm; rcases List.mem_cons.1 hm with rfl | hm
        · exact ⟨by decide, by decide⟩
        · rw [List.mem_singleton.1 hm]; exact ⟨by decide, by decide⟩)
    (by decide) ⟨by decide, by decide⟩ ⟨by decide, by decide⟩ rfl (by decide) (by decide)
    (by intro c cs h; rw [← (List.cons.inj h).1]; decide) (by decide)
    (sample_hex (by decide) (by decide)) (sample_hex (by decide) (by decide)) sample_trimmed
    (sample_says _ (by rfl)) (sample_says _ (by rfl)) (sample_says _ (by rfl))
    (sample_says _ (by rfl))).trans (by rfl)

end Punx

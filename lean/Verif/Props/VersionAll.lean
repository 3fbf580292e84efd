import Verif.Spec.VersionAll
import Verif.Props.Version4

/-!
# C97: what comes of asking `git`, in all cases
-/

namespace Punx
open Spec

/-! ## white space around an answer -/

/-- What is cut off at the ends, and what is left. -/
theorem stripBy_parts (p : Char → Bool) (s : Str) :
    ∃ a b, s = a ++ stripBy p s ++ b ∧ (∀ c ∈ a, p c = true) ∧ (∀ c ∈ b, p c = true) ∧
      (∀ c cs, stripBy p s = c :: cs → p c = false) ∧
      ∀ cs c, stripBy p s = cs ++ [c] → p c = false := by
  have key : ∀ t : Str, ∀ c cs, t.dropWhile p = c :: cs → p c = false := by
    intro t
    induction t with
    | nil => intro c cs h; cases h
    | cons x t ih =>
      intro c cs h
      rw [List.dropWhile_cons] at h
      split at h
      · exact ih c cs h
      · rename_i hx
        rw [List.cons.injEq] at h
        rw [← h.1]; simpa using hx
  have front : ∀ t : Str, ∃ a, t = a ++ t.dropWhile p ∧ ∀ c ∈ a, p c = true := fun t =>
    ⟨t.takeWhile p, (List.takeWhile_append_dropWhile).symm, fun c hc => List.mem_takeWhile_imp hc⟩
  obtain ⟨a, ha, hap⟩ := front s
  obtain ⟨b, hb, hbp⟩ := front (s.dropWhile p).reverse
  have hb' : s.dropWhile p = stripBy p s ++ b.reverse := by
    have := congrArg List.reverse hb
    rw [List.reverse_reverse, List.reverse_append] at this
    exact this
  refine ⟨a, b.reverse, ?_, hap, fun c hc => hbp c (List.mem_reverse.1 hc), ?_, ?_⟩
  · rw [List.append_assoc, ← hb']; exact ha
  · intro c cs h
    refine key s c (cs ++ b.reverse) ?_
    rw [hb', h]; rfl
  · intro cs c h
    refine key (s.dropWhile p).reverse c cs.reverse ?_
    have := congrArg List.reverse h
    rw [stripBy, List.reverse_reverse] at this
    rw [this]; simp

/-- An answer of `git` and the text that is in it. -/
theorem answer_parts (out : Str) :
    ∃ a b x y, out = a ++ pyStrip (asciiStrip out) ++ b ∧
      asciiStrip out = x ++ pyStrip (asciiStrip out) ++ y ∧
      (∀ c ∈ a, isPySpace c = true) ∧ (∀ c ∈ b, isPySpace c = true) ∧
      (∀ c ∈ x, isPySpace c = true) ∧ (∀ c ∈ y, isPySpace c = true) ∧
      Trimmed (pyStrip (asciiStrip out)) := by
  obtain ⟨a, b, h1, h2, h3, -, -⟩ :=
    stripBy_parts (fun c => (9 ≤ c.toNat && c.toNat ≤ 13) || c = ' ') out
  obtain ⟨x, y, k1, k2, k3, k4, k5⟩ := stripBy_parts isPySpace (asciiStrip out)
  refine ⟨a ++ x, y ++ b, x, y, ?_, k1, ?_, ?_, k2, k3, k4, k5⟩
  · have h1' : out = a ++ asciiStrip out ++ b := h1
    have k1' : asciiStrip out = x ++ pyStrip (asciiStrip out) ++ y := k1
    calc out = a ++ asciiStrip out ++ b := h1'
      _ = a ++ (x ++ pyStrip (asciiStrip out) ++ y) ++ b := by rw [← k1']
      _ = _ := by simp
  · intro c hc
    rcases List.mem_append.1 hc with hc | hc
    · exact isPySpace_of_ascii (h2 c hc)
    · exact k2 c hc
  · intro c hc
    rcases List.mem_append.1 hc with hc | hc
    · exact k3 c hc
    · exact isPySpace_of_ascii (h3 c hc)

theorem says_writes {w : VWorld} {root out : Str} {args : List Str} (h : GitSays w root args out) :
    GitWrites w root args (pyStrip (asciiStrip out)) := by
  obtain ⟨a, b, x, y, h1, -, h2, h3, -, -, h4⟩ := answer_parts out
  exact ⟨a, b, h1 ▸ h, h2, h3, h4⟩

theorem writes_strip {a s b : Str} (ha : ∀ c ∈ a, isPySpace c = true)
    (hb : ∀ c ∈ b, isPySpace c = true) (hs : Trimmed s) :
    pyStrip (asciiStrip (a ++ s ++ b)) = s := by
  obtain ⟨a', b', x, y, h1, -, h2, h3, -, -, h4⟩ := answer_parts (a ++ s ++ b)
  have e1 : pyStrip (a ++ s ++ b) = s := stripBy_around ha hb hs.1 hs.2
  have e2 : pyStrip (a' ++ pyStrip (asciiStrip (a ++ s ++ b)) ++ b') =
      pyStrip (asciiStrip (a ++ s ++ b)) := stripBy_around h2 h3 h4.1 h4.2
  rw [← h1, e1] at e2
  exact e2.symm

theorem writes_says {w : VWorld} {root s : Str} {args : List Str} (h : GitWrites w root args s) :
    ∃ out, GitSays w root args out ∧ pyStrip (asciiStrip out) = s := by
  obtain ⟨a, b, h1, h2, h3, h4⟩ := h
  exact ⟨_, h1, writes_strip h2 h3 h4⟩

theorem int_answer {env : VEnv} (hi : IgnoresSpace env) (out : Str) :
    env.int (asciiStrip out) = env.int (pyStrip (asciiStrip out)) := by
  obtain ⟨-, -, x, y, -, h1, -, -, h2, h3, -⟩ := answer_parts out
  conv_lhs => rw [h1]
  exact hi _ _ _ h2 h3

theorem git_garbled {w : VWorld} {root : Str} {args : List Str} (h : GitGarbled w root args) :
    runCommand w args root (gits w) = .error (.py .unicodeDecodeError) := by
  obtain ⟨rc, h⟩ := h
  exact runCommand_runs h

/-! ## the mark -/

theorem marked_cut {describe text : Str} {dirty : Bool} (h : Marked describe text dirty) :
    cutDirty describe = (dirty, text) := by
  obtain ⟨rfl, h⟩ := h
  cases dirty with
  | true =>
    have h1 : endsWith (text ++ s%"-dirty") s%"-dirty" = true := by
      rw [endsWith, List.isSuffixOf_iff_suffix]
      exact List.suffix_append _ _
    rw [mark, if_pos rfl, cutDirty, if_pos h1]
    simp
  | false =>
    have h := h rfl
    rw [mark, if_neg (by decide), List.append_nil] at h ⊢
    rw [cutDirty, if_neg]
    rw [endsWith, List.isSuffixOf_iff_suffix]
    exact h

theorem cut_marked (describe : Str) : ∃ text dirty, Marked describe text dirty := by
  by_cases h : s%"-dirty" <:+ describe
  · obtain ⟨t, ht⟩ := h
    exact ⟨t, true, ht.symm, fun h => by cases h⟩
  · exact ⟨describe, false, by simp [mark], fun _ => h⟩

/-! ## the method -/

/-- The version from `git`. -/
def fromGit (env : VEnv) (w : VWorld) (root : Str) : Except VErr VersionInfo := do
  let p ← gitPiecesFromVcs env w [] root
  renderVersion p s%"pep440"

theorem render_after {head tag hex : Str} {dirty : Bool} {n : Int} {date : Option Str}
    (ht : tag ≠ []) :
    renderVersion ⟨head, hex, none, dirty, some (some tag), some n, date⟩ s%"pep440" =
      .ok ⟨versionAfter tag n hex dirty, some head, some dirty, none, date⟩ := by
  cases tag with
  | nil => exact absurd rfl ht
  | cons c cs =>
    have : renderPep440 ⟨head, hex, none, dirty, some (some (c :: cs)), some n, date⟩ =
        .ok (versionAfter (c :: cs) n hex dirty) := by
      simp only [renderPep440, Pieces.closest!, Pieces.distance!, bind, Except.bind, versionAfter,
        plusOrDot]
      by_cases h0 : n = 0 ∧ dirty = false
      · rw [if_pos h0, if_neg (by rw [h0.1, h0.2]; simp)]
      · rw [if_neg h0, if_pos (by
          by_cases hn : n = 0
          · right
            cases dirty with
            | true => rfl
            | false => exact absurd ⟨hn, rfl⟩ h0
          · exact .inl hn)]
        by_cases hp : '+' ∈ c :: cs
        · rw [if_pos hp, if_pos hp]; simp [textIf, mark]
        · rw [if_neg hp, if_neg hp]; simp [textIf, mark]
    rw [renderVersion, if_neg (by simp), renderStyle_pep440, this]

theorem render_untagged {head : Str} {dirty : Bool} {n : Int} {date : Option Str} :
    renderVersion ⟨head, head.take 7, none, dirty, some none, some n, date⟩ s%"pep440" =
      .ok ⟨versionUntagged n head dirty, some head, some dirty, none, date⟩ := by
  rfl

/-- The date of the commit. -/
theorem date_written {w : VWorld} {root date : Str} (h : GitWrites w root askDate date) :
    commitDate w (gits w) root = .ok (fixDate date) := by
  obtain ⟨out, h1, h2⟩ := writes_says h
  have := git_says h1
  rw [askDate] at this
  rw [commitDate, this]
  simp only [bind, Except.bind, h2]

theorem date_fails {w : VWorld} {root : Str} (h : GitFails w root askDate) :
    commitDate w (gits w) root = .error (.py .attributeError) := by
  obtain ⟨rc, -, this⟩ := git_fails h
  rw [askDate] at this
  rw [commitDate, this]
  rfl

theorem date_garbled {w : VWorld} {root : Str} (h : GitGarbled w root askDate) :
    commitDate w (gits w) root = .error (.py .unicodeDecodeError) := by
  have := git_garbled h
  rw [askDate] at this
  rw [commitDate, this]
  rfl

/-- What is left to do when the tree is described. -/
def piecesAfter (env : VEnv) (w : VWorld) (root describe head text : Str) (dirty : Bool) :
    Except VErr Pieces :=
  if '-' ∈ text then
    match matchDescribe env text with
    | none =>
      .ok ⟨head, head.take 7, some (s%"unable to parse git-describe output: '" ++ describe ++ s%"'"),
        dirty, none, none, none⟩
    | some (tag, num, hex) =>
      match env.int num with
      | none => .error (.py .valueError)
      | some n => do
        let date ← commitDate w (gits w) root
        .ok ⟨head, hex, none, dirty, some (some tag), some n, some date⟩
  else do
    let (count, _) ← runCommand w askCount root (gits w)
    match count with
    | none => .error (.py .typeError)
    | some c =>
      match env.int c with
      | none => .error (.py .valueError)
      | some n => do
        let date ← commitDate w (gits w) root
        .ok ⟨head, head.take 7, none, dirty, some none, some n, some date⟩

theorem pieces_known {env : VEnv} {w : VWorld} {root describe head text : Str} {dirty : Bool}
    (hk : KnownTree w root describe head) (hm : Marked describe text dirty) :
    gitPiecesFromVcs env w [] root = piecesAfter env w root describe head text dirty := by
  rw [piecesAfter]
  obtain ⟨⟨o1, g1⟩, g2, g3⟩ := hk
  obtain ⟨o2, g2, e2⟩ := writes_says g2
  obtain ⟨o3, g3, e3⟩ := writes_says g3
  have r1 := git_says g1
  have r2 := git_says g2
  have r3 := git_says g3
  rw [askDir] at r1
  rw [askDescribe] at r2
  rw [askHead] at r3
  rw [gitPiecesFromVcs, r1]
  simp only [Except.bind, bind]
  rw [if_neg (by simp), r2]
  simp only
  rw [r3]
  simp only [e2, e3, marked_cut hm, askCount]
  by_cases hd : '-' ∈ text
  · rw [if_pos hd, if_pos hd]
    cases matchDescribe env text with
    | none => rfl
    | some x =>
      obtain ⟨tag, num, hex⟩ := x
      simp only [startsWith, List.isPrefixOf, Bool.not_true, Bool.false_eq_true, if_false,
        List.length_nil, List.drop_zero]
      cases env.int num with
      | none => rfl
      | some n => rfl
  · rw [if_neg hd, if_neg hd]
    cases runCommand w [s%"rev-list", s%"HEAD", s%"--count"] root (gits w) with
    | error e => rfl
    | ok x =>
      obtain ⟨o, rc⟩ := x
      cases o with
      | none => rfl
      | some c =>
        simp only
        cases env.int c with
        | none => rfl
        | some n => rfl

theorem known_of_says {w : VWorld} {root o1 o2 o3 : Str} (g1 : GitSays w root askDir o1)
    (g2 : GitSays w root (askDescribe []) o2) (g3 : GitSays w root askHead o3) :
    ∃ describe head, KnownTree w root describe head :=
  ⟨_, _, ⟨⟨o1, g1⟩, says_writes g2, says_writes g3⟩⟩

theorem namesTag_iff {env : VEnv} (hd : env.digit '-' = false) {text tag num hex : Str} :
    matchDescribe env text = some (tag, num, hex) ↔ NamesTag env text tag num hex :=
  matchDescribe_iff hd

theorem Spec.NamesTag.hyphen {env : VEnv} {text tag num hex : Str} (h : NamesTag env text tag num hex) :
    '-' ∈ text := by
  rcases h.1 with h | h <;> rw [h] <;> simp

/-- Something comes of asking `git`. -/
theorem answer_exists (env : VEnv) (w : VWorld) (root : Str) : ∃ r, VersionAnswer env w root r := by
  rcases git_answers w root askDir with ⟨o1, g1⟩ | g1 | g1
  · rcases git_answers w root (askDescribe []) with ⟨o2, g2⟩ | g2 | g2
    · rcases git_answers w root askHead with ⟨o3, g3⟩ | g3 | g3
      · obtain ⟨describe, head, hk⟩ := known_of_says g1 g2 g3
        obtain ⟨text, dirty, hm⟩ := cut_marked describe
        by_cases hd : '-' ∈ text
        · by_cases ht : ∃ tag num hex, NamesTag env text tag num hex
          · obtain ⟨tag, num, hex, ht⟩ := ht
            cases hn : env.int num with
            | none => exact ⟨_, .tagNumber hk hm ht hn⟩
            | some n =>
              rcases git_answers w root askDate with ⟨o, g⟩ | g | g
              · exact ⟨_, .tag hk hm ht hn (says_writes g)⟩
              · exact ⟨_, .tagDate hk hm ht hn g⟩
              · exact ⟨_, .tagDateGarbled hk hm ht hn g⟩
          · exact ⟨_, .unreadable hk hm hd fun tag num hex h => ht ⟨tag, num, hex, h⟩⟩
        · rcases git_answers w root askCount with ⟨oc, gc⟩ | gc | gc
          · cases hn : env.int (pyStrip (asciiStrip oc)) with
            | none => exact ⟨_, .noTagNumber hk hm hd (says_writes gc) hn⟩
            | some n =>
              rcases git_answers w root askDate with ⟨o, g⟩ | g | g
              · exact ⟨_, .noTag hk hm hd (says_writes gc) hn (says_writes g)⟩
              · exact ⟨_, .noTagDate hk hm hd (says_writes gc) hn g⟩
              · exact ⟨_, .noTagDateGarbled hk hm hd (says_writes gc) hn g⟩
          · exact ⟨_, .noTagCount hk hm hd gc⟩
          · exact ⟨_, .noTagCountGarbled hk hm hd gc⟩
      · exact ⟨_, .noCommit g1 g2 g3⟩
      · exact ⟨_, .garbledCommit g1 g2 g3⟩
    · exact ⟨_, .noDescription g1 g2⟩
    · exact ⟨_, .garbledDescription g1 g2⟩
  · exact ⟨_, .outside g1⟩
  · exact ⟨_, .garbledDir g1⟩

theorem answer_sound {env : VEnv} (hd : env.digit '-' = false) (hi : IgnoresSpace env) {w : VWorld}
    {root : Str} {r : Except VErr VersionInfo} (h : VersionAnswer env w root r) :
    fromGit env w root = r := by
  have count : ∀ {s : Str}, GitWrites w root askCount s →
      ∃ c, runCommand w askCount root (gits w) = .ok (some c, some 0) ∧ env.int c = env.int s := by
    intro s hs
    obtain ⟨out, h1, h2⟩ := writes_says hs
    exact ⟨_, git_says h1, by rw [int_answer hi, h2]⟩
  cases h with
  | outside g => rw [fromGit, pieces_not_git g]; rfl
  | noDescription g1 g2 =>
    have r1 := git_says g1
    obtain ⟨x, -, r2⟩ := git_fails g2
    rw [askDir] at r1
    rw [askDescribe] at r2
    rw [fromGit, gitPiecesFromVcs, r1]
    simp only [Except.bind, bind]
    rw [if_neg (by simp), r2]
  | noCommit g1 g2 g3 =>
    have r1 := git_says g1
    have r2 := git_says g2
    obtain ⟨x, -, r3⟩ := git_fails g3
    rw [askDir] at r1
    rw [askDescribe] at r2
    rw [askHead] at r3
    rw [fromGit, gitPiecesFromVcs, r1]
    simp only [Except.bind, bind]
    rw [if_neg (by simp), r2]
    simp only
    rw [r3]
  | garbledDir g1 =>
    have r1 := git_garbled g1
    rw [askDir] at r1
    rw [fromGit, gitPiecesFromVcs, r1]
    rfl
  | garbledDescription g1 g2 =>
    have r1 := git_says g1
    have r2 := git_garbled g2
    rw [askDir] at r1
    rw [askDescribe] at r2
    rw [fromGit, gitPiecesFromVcs, r1]
    simp only [Except.bind, bind]
    rw [if_neg (by simp), r2]
  | garbledCommit g1 g2 g3 =>
    have r1 := git_says g1
    have r2 := git_says g2
    have r3 := git_garbled g3
    rw [askDir] at r1
    rw [askDescribe] at r2
    rw [askHead] at r3
    rw [fromGit, gitPiecesFromVcs, r1]
    simp only [Except.bind, bind]
    rw [if_neg (by simp), r2]
    simp only
    rw [r3]
  | @unreadable describe head text dirty hk hm hh ht =>
    have : matchDescribe env text = none := by
      rw [Option.eq_none_iff_forall_ne_some]
      rintro ⟨tag, num, hex⟩ h
      exact ht tag num hex ((namesTag_iff hd).1 h)
    rw [fromGit, pieces_known hk hm, piecesAfter, if_pos hh, this]
    simp [bind, Except.bind, renderVersion]
  | tag hk hm ht hn g =>
    rw [fromGit, pieces_known hk hm, piecesAfter, if_pos (Spec.NamesTag.hyphen ht), (namesTag_iff hd).2 ht]
    simp only [hn, date_written g, bind, Except.bind]
    exact render_after ht.2.1
  | tagNumber hk hm ht hn =>
    rw [fromGit, pieces_known hk hm, piecesAfter, if_pos (Spec.NamesTag.hyphen ht), (namesTag_iff hd).2 ht]
    simp only [hn, bind, Except.bind]
  | tagDate hk hm ht hn g =>
    rw [fromGit, pieces_known hk hm, piecesAfter, if_pos (Spec.NamesTag.hyphen ht), (namesTag_iff hd).2 ht]
    simp only [hn, date_fails g, bind, Except.bind]
  | tagDateGarbled hk hm ht hn g =>
    rw [fromGit, pieces_known hk hm, piecesAfter, if_pos (Spec.NamesTag.hyphen ht), (namesTag_iff hd).2 ht]
    simp only [hn, date_garbled g, bind, Except.bind]
  | noTag hk hm hh gc hn g =>
    obtain ⟨c, h1, h2⟩ := count gc
    rw [fromGit, pieces_known hk hm, piecesAfter, if_neg hh, h1]
    simp only [h2, hn, date_written g, bind, Except.bind]
    rfl
  | noTagCount hk hm hh gc =>
    obtain ⟨x, -, h1⟩ := git_fails gc
    rw [fromGit, pieces_known hk hm, piecesAfter, if_neg hh, h1]
    rfl
  | noTagCountGarbled hk hm hh gc =>
    rw [fromGit, pieces_known hk hm, piecesAfter, if_neg hh, git_garbled gc]
    rfl
  | noTagNumber hk hm hh gc hn =>
    obtain ⟨c, h1, h2⟩ := count gc
    rw [fromGit, pieces_known hk hm, piecesAfter, if_neg hh, h1]
    simp only [h2, hn, bind, Except.bind]
  | noTagDate hk hm hh gc hn g =>
    obtain ⟨c, h1, h2⟩ := count gc
    rw [fromGit, pieces_known hk hm, piecesAfter, if_neg hh, h1]
    simp only [h2, hn, date_fails g, bind, Except.bind]
  | noTagDateGarbled hk hm hh gc hn g =>
    obtain ⟨c, h1, h2⟩ := count gc
    rw [fromGit, pieces_known hk hm, piecesAfter, if_neg hh, h1]
    simp only [h2, hn, date_garbled g, bind, Except.bind]

theorem fromGit_iff {env : VEnv} (hd : env.digit '-' = false) (hi : IgnoresSpace env) {w : VWorld}
    {root : Str} {r : Except VErr VersionInfo} : fromGit env w root = r ↔ VersionAnswer env w root r := by
  constructor
  · rintro rfl
    obtain ⟨r, hr⟩ := answer_exists env w root
    rw [answer_sound hd hi hr]
    exact hr
  · exact answer_sound hd hi

/-! ## all methods together -/

theorem directory_iff {names : List Str} (hn : ∀ m ∈ names, IsFileName m) (hne : names ≠ [])
    {r : Except VErr VersionInfo} :
    orElse (versionsFromParentdir s%"punx-" 3 (pathOf names))
      (.ok ⟨s%"0+unknown", none, none, some s%"unable to compute version", none⟩) = r ↔
    ∃ i, r = .ok i ∧ DirectoryVersion names i := by
  let w : VWorld := ⟨fun _ _ _ => .notFound, false, some (pathOf (names ++ [s%"a", s%"b"]))⟩
  have ha : IsFileName s%"a" := ⟨by decide, by decide⟩
  have hb : IsFileName s%"b" := ⟨by decide, by decide⟩
  have hg : GitFails w (pathOf names) askDir := .inl fun _ _ => rfl
  have h1 := fun i => versions_of_directory (env := ⟨fun _ => false, fun _ => none⟩) (w := w) hn hne
    ha hb rfl hg (i := i)
  rw [versions_from_root hn hne ha hb rfl, pieces_not_git hg] at h1
  have h2 : ∀ i, orElse (versionsFromParentdir s%"punx-" 3 (pathOf names))
      (.ok ⟨s%"0+unknown", none, none, some s%"unable to compute version", none⟩) = .ok i ↔
      DirectoryVersion names i := h1
  rcases parentdir_total s%"punx-" 3 (pathOf names) with hp | ⟨i, hp⟩
  · rw [hp] at h2 ⊢
    constructor
    · rintro rfl; exact ⟨_, rfl, (h2 _).1 rfl⟩
    · rintro ⟨i, rfl, h⟩; exact (h2 i).2 h
  · rw [hp] at h2 ⊢
    constructor
    · rintro rfl; exact ⟨_, rfl, (h2 _).1 rfl⟩
    · rintro ⟨i, rfl, h⟩; exact (h2 i).2 h

/-- **C97.**  What the function returns or raises, in every case: what comes of asking `git`, and
only if `git` does not know the directory, the commit or a description, the version in the name of
the directory. -/
theorem versions_iff {env : VEnv} (hd : env.digit '-' = false) (hi : IgnoresSpace env) {w : VWorld}
    {names : List Str} {a b : Str}
    (hn : ∀ m ∈ names, IsFileName m) (hne : names ≠ []) (ha : IsFileName a) (hb : IsFileName b)
    (hf : w.file = some (pathOf (names ++ [a, b]))) {r : Except VErr VersionInfo} :
    getVersions env w shippedKeywords = r ↔
      (VersionAnswer env w (pathOf names) r ∧ r ≠ .error .notThisMethod) ∨
      (VersionAnswer env w (pathOf names) (.error .notThisMethod) ∧
        ∃ i, r = .ok i ∧ DirectoryVersion names i) := by
  rw [versions_from_root hn hne ha hb hf, ← directory_iff hn hne, ← fromGit_iff hd hi,
    ← fromGit_iff hd hi]
  change orElse (fromGit env w (pathOf names)) _ = r ↔ _
  cases hg : fromGit env w (pathOf names) with
  | ok i =>
    simp only [orElse]
    constructor
    · rintro rfl; exact .inl ⟨rfl, by simp⟩
    · rintro (⟨h, -⟩ | ⟨h, -⟩)
      · exact h
      · cases h
  | error e =>
    cases e with
    | notThisMethod =>
      simp only [orElse]
      constructor
      · intro h; exact .inr ⟨trivial, h⟩
      · rintro (⟨h, h'⟩ | ⟨-, h⟩)
        · exact absurd h.symm h'
        · exact h
    | py x =>
      simp only [orElse]
      constructor
      · rintro rfl; exact .inl ⟨rfl, by simp⟩
      · rintro (⟨h, -⟩ | ⟨h, -⟩)
        · exact h
        · cases h

/-! ## a case -/

/-- Digits, with white space around a number. -/
def spacedDigits : VEnv where
  digit c := c.isDigit
  int s := asciiDigits.int (pyStrip s)

theorem pyStrip_spaces {a s b : Str} (ha : ∀ c ∈ a, isPySpace c = true)
    (hb : ∀ c ∈ b, isPySpace c = true) : pyStrip (a ++ s ++ b) = pyStrip s := by
  obtain ⟨x, y, h1, h2, h3, h4, h5⟩ := stripBy_parts isPySpace s
  have e : a ++ s ++ b = (a ++ x) ++ pyStrip s ++ (y ++ b) := by
    conv_lhs => rw [h1]
    simp [pyStrip]
  rw [e]
  refine stripBy_around ?_ ?_ h4 h5
  · intro c hc
    rcases List.mem_append.1 hc with hc | hc
    · exact ha c hc
    · exact h2 c hc
  · intro c hc
    rcases List.mem_append.1 hc with hc | hc
    · exact h3 c hc
    · exact hb c hc

theorem spacedDigits_ignore : IgnoresSpace spacedDigits := fun _ _ _ ha hb => by
  rw [spacedDigits]
  simp only
  rw [pyStrip_spaces ha hb]

/-- A `git` that knows no tag, and the tree is changed. -/
def gitUntagged : VWorld where
  spawn _ args _ :=
    if args = askDate then .done (some s%"2024-05-03 12:34:56 -0500\n") 0
    else if args = askDescribe [] then .done (some s%"abc1234-dirty\n") 0
    else if args = askCount then .done (some s%"250\n") 0
    else .done (some s%"abc1234def\n") 0
  win32 := false
  file := some s%"/src/punx-1.0/punx/_version.py"

/-- A tree without tags. -/
theorem untagged_case : VersionAnswer spacedDigits gitUntagged s%"/src/punx-1.0"
    (.ok ⟨s%"0+untagged.250.gabc1234.dirty", some s%"abc1234def", some true, none,
      some s%"2024-05-03T12:34:56-0500"⟩) := by
  refine (fromGit_iff (by rfl) spacedDigits_ignore).1 ?_
  decide +kernel

/-- The count of the commits is missing: the function raises `TypeError`. -/
theorem uncounted_case :
    VersionAnswer spacedDigits
      { gitUntagged with spawn := fun c args d =>
          if args = askCount then .done (some []) 129 else gitUntagged.spawn c args d }
      s%"/src/punx-1.0" (.error (.py .typeError)) := by
  refine (fromGit_iff (by rfl) spacedDigits_ignore).1 ?_
  decide +kernel

end Punx

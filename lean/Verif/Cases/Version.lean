import Verif.Props.Version4
import Verif.Props.Cache

/-!
# C93 to C98 applied to concrete cases
-/

namespace Punx
open Spec

/-- Pieces of a commit after a tag. -/
def afterTag : Pieces :=
  ⟨s%"abc1234def", s%"abc1234", none, true, some (some s%"1.2"), some 17, none⟩

/-- Pieces of the commit of a tag. -/
def atTag : Pieces := ⟨s%"abc1234def", s%"abc1234", none, false, some (some s%"1.2"), some 0, none⟩

/-- Pieces of a commit without a tag before it. -/
def noTag : Pieces := ⟨s%"abc1234def", s%"abc1234", none, false, some none, some 250, none⟩

theorem says_afterTag : Says afterTag ⟨some s%"1.2", 17, s%"abc1234", true⟩ := ⟨rfl, rfl, rfl, rfl, rfl⟩
theorem says_atTag : Says atTag ⟨some s%"1.2", 0, s%"abc1234", false⟩ := ⟨rfl, rfl, rfl, rfl, rfl⟩
theorem says_noTag : Says noTag ⟨none, 250, s%"abc1234", false⟩ := ⟨rfl, rfl, rfl, rfl, rfl⟩

theorem real_sample (t : Option Str) (ht : t ≠ some []) (n : Nat) (d : Bool) :
    Commit.Real ⟨t, n, s%"abc1234", d⟩ := ⟨ht, sample_hex (s := s%"abc1234") (by decide) (by decide)⟩

example : ∀ {c : Commit} {q : Pieces} {j : VersionInfo}, Says q c → c.Real →
    (∀ t, c.tag = some t → '+' ∉ t) → renderVersion q s%"pep440" = .ok j →
    j.version = s%"1.2+17.gabc1234.dirty" →
    c.tag = some s%"1.2" ∧ c.distance = 17 ∧ c.hex = s%"abc1234" ∧ c.dirty = true := by
  intro c q j hq hc ht hj he
  obtain ⟨h1, h2⟩ := pep440_identifies says_afterTag hq (real_sample _ (by decide) _ _) hc
    (by intro t h; rw [← Option.some.inj h]; decide) ht
    (i := ⟨s%"1.2+17.gabc1234.dirty", some s%"abc1234def", some true, none, none⟩) (by rfl) hj he.symm
  rcases h2 with ⟨⟨-, -, h⟩, -⟩ | ⟨h3, h4, h5⟩
  · cases h
  · exact ⟨h1.symm, h3.symm, h4.symm, h5.symm⟩

example : ¬ Commit.IsRelease ⟨some s%"1.2", 17, s%"abc1234", true⟩ :=
  fun h => absurd ((pep440_release_iff says_afterTag (real_sample _ (by decide) _ _) rfl
    (i := ⟨s%"1.2+17.gabc1234.dirty", some s%"abc1234def", some true, none, none⟩) (by rfl)).2 h)
    (by decide)

example : Commit.IsRelease ⟨some s%"1.2", 0, s%"abc1234", false⟩ :=
  (pep440_release_iff says_atTag (real_sample _ (by decide) _ _) rfl
    (i := ⟨s%"1.2", some s%"abc1234def", some false, none, none⟩) (by rfl)).1 rfl

/-- A tag with a plus sign gets no second one. -/
example : renderVersion { afterTag with closest := some (some s%"1.2+x") } s%"pep440" =
    .ok ⟨s%"1.2+x.17.gabc1234.dirty", some s%"abc1234def", some true, none, none⟩ := by rfl

example : List.count '+' s%"1.2+x.17.gabc1234.dirty" ≤ 1 :=
  one_plus (p := { afterTag with closest := some (some s%"1.2+x") })
    (c := ⟨some s%"1.2+x", 17, s%"abc1234", true⟩) ⟨rfl, rfl, rfl, rfl, rfl⟩
    (real_sample _ (by decide) _ _) (.inl rfl)
    (by intro t h; rw [← Option.some.inj h]; decide)
    (i := ⟨s%"1.2+x.17.gabc1234.dirty", some s%"abc1234def", some true, none, none⟩) (by rfl)

example : ∀ {c : Commit} {q : Pieces} {j : VersionInfo}, Says q c → c.Real →
    renderVersion q s%"git-describe-long" = .ok j → j.version = s%"abc1234" →
    c.tag = none ∧ c.hex = s%"abc1234" ∧ c.dirty = false := by
  intro c q j hq hc hj he
  obtain ⟨h1, h2, h3, -⟩ := long_identifies says_noTag hq (real_sample _ (by decide) _ _) hc
    (i := ⟨s%"abc1234", some s%"abc1234def", some false, none, none⟩) (by rfl) hj he.symm
  exact ⟨h1.symm, h2.symm, h3.symm⟩

/-! ## keywords -/

/-- References of a commit. -/
def refsSample : List Str := [s%"HEAD -> main", s%"tag: 2.0rc1", s%"tag: 2.0", s%"origin/main"]

theorem trimmed_of {s : Str} (h1 : (s.head?.map isPySpace).getD false = false)
    (h2 : (s.getLast?.map isPySpace).getD false = false) : Trimmed s := by
  refine ⟨?_, ?_⟩
  · rintro c cs rfl; exact h1
  · rintro cs c rfl
    rw [List.getLast?_concat] at h2
    exact h2

theorem plain_refsSample : ∀ r ∈ refsSample, PlainRef r := by
  intro r hr
  simp only [refsSample, List.mem_cons, List.not_mem_nil, or_false] at hr
  rcases hr with rfl | rfl | rfl | rfl <;>
    exact ⟨by decide, by decide, trimmed_of (by decide) (by decide), by decide, by decide⟩

theorem first_refsSample : FirstCandidate asciiDigits refsSample [] s%"2.0" := by
  refine ⟨.inl (by decide), ?_⟩
  rintro u (h | ⟨h, -⟩)
  · simp only [refsSample, List.nil_append, List.mem_cons, List.not_mem_nil, or_false] at h
    rcases h with h | h | h | h
    · cases h
    · rw [show u = s%"2.0rc1" by simpa using h]; decide
    · rw [show u = s%"2.0" by simpa using h]; decide
    · cases h
  · exact absurd (by decide) (h s%"2.0")

example : gitVersionsFromKeywords asciiDigits ⟨some (decorated refsSample), some s%"abc\n", none⟩ [] =
    .ok ⟨s%"2.0", some s%"abc", some false, none, none⟩ :=
  keywords_version (by decide) plain_refsSample first_refsSample

example : decorated refsSample = s%" (HEAD -> main, tag: 2.0rc1, tag: 2.0, origin/main)" := by rfl

example : gitVersionsFromKeywords asciiDigits ⟨some (decorated refsSample), some s%"abc", none⟩ [] =
    gitVersionsFromKeywords asciiDigits ⟨some (decorated refsSample.reverse), some s%"abc", none⟩ [] :=
  keywords_order (by decide) (by decide) plain_refsSample fun r => List.mem_reverse.symm

example : ¬ FirstCandidate asciiDigits refsSample [] s%"2.0rc1" :=
  keywords_prefer_short (u := s%"2.0") (x := s%"rc1") (by decide) (.inl (by decide))

example : gitVersionsFromKeywords asciiDigits ⟨some (decorated [s%"HEAD -> main"]), some s%"abc", none⟩ [] =
    .ok ⟨s%"0+unknown", some s%"abc", some false, some s%"no suitable tags", none⟩ :=
  keywords_unknown (by decide)
    (by intro r hr; rw [List.mem_singleton.1 hr]
        exact ⟨by decide, by decide, trimmed_of (by decide) (by decide), by decide, by decide⟩)
    (by
      rintro u (h | ⟨-, h, c, hc, hd⟩)
      · rw [List.mem_singleton] at h; cases h
      · rw [List.mem_singleton, List.nil_append] at h
        subst h
        have hall : ∀ c ∈ s%"HEAD -> main", asciiDigits.digit c = false := by decide
        rw [hall c hc] at hd; cases hd)

/-- The lines of the file in the repository. -/
def shippedLines : List Str :=
  [s%"    git_refnames = \"$Format:%d$\"\n", s%"    git_full = \"$Format:%H$\"\n",
   s%"    git_date = \"$Format:%ci$\"\n"]

example : gitGetKeywords (some shippedLines) = shippedKeywords := by decide +kernel

example : keywordValue s%"git_full" (gitGetKeywords (some shippedLines)) = some s%"$Format:%H$" :=
  keyword_of_file (before := [s%"    git_refnames = \"$Format:%d$\"\n"])
    (after := [s%"    git_date = \"$Format:%ci$\"\n"]) (.inr (.inl rfl))
    ⟨s%"    ", s%" ", s%"\n", rfl, by decide, by decide, by decide, by decide⟩
    (by
      intro l hl
      rw [List.mem_singleton.1 hl]
      rintro ⟨ind, rest, h, hs⟩
      have h4 : ∀ ind rest : Str, s%"    git_date = \"$Format:%ci$\"\n" =
          ind ++ s%"git_full" ++ s%" =" ++ rest → hasSub s%"git_full" s%"    git_date = \"$Format:%ci$\"\n" = true := by
        intro ind rest h
        rw [h]
        exact hasSub_infix.2 ⟨ind, s%" =" ++ rest, by simp⟩
      exact absurd (h4 ind rest h) (by decide))

/-! ## directories -/

example : getVersions asciiDigits { gitSample with spawn := fun _ _ _ => .notFound } shippedKeywords =
    .ok ⟨s%"1.0", none, some false, none, none⟩ :=
  (versions_of_directory (names := [s%"src", s%"punx-1.0"]) (a := s%"punx") (b := s%"_version.py")
    (by intro m hm; rcases List.mem_cons.1 hm with rfl | hm
        · exact ⟨by decide, by decide⟩
        · rw [List.mem_singleton.1 hm]; exact ⟨by decide, by decide⟩)
    (by decide) ⟨by decide, by decide⟩ ⟨by decide, by decide⟩ rfl (.inl fun _ _ => rfl)).2
    (.inl ⟨[s%"src"], [], s%"1.0", rfl, by decide, by simp, rfl⟩)

example : ∃ i, getVersions asciiDigits { gitSample with file := none } shippedKeywords = .ok i :=
  versions_returned_partial (by decide) (by intro f h; cases h)

example : ∃ i, getVersions asciiDigits { gitSample with spawn := fun _ _ _ => .failed } shippedKeywords =
    .ok i := by
  refine versions_returned_partial (by decide) fun f _ => ⟨?_, ?_, ?_, ?_⟩
  · rintro args ⟨rc, before, c, after, -, -, h, -⟩; cases h
  · rintro ⟨out, before, c, after, -, -, h, -⟩; cases h
  · rintro ⟨out, before, c, after, -, -, h, -⟩; cases h
  · intro s h1 h2
    exact ⟨_, if_pos ⟨h1, List.all_eq_true.2 h2⟩⟩

end Punx

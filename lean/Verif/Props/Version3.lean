import Verif.Props.Version2
import Verif.Props.Report
import Verif.Props.Cli

/-!
# C95, C96, C98: versions from keywords and from the name of the directory
-/

namespace Punx
open Spec

/-! ## the list of references -/

theorem split_join {refs : List Str} {r : Str} (h : ∀ x ∈ r :: refs, ',' ∉ x) :
    split ',' (join s%", " (r :: refs)) = r :: refs.map (' ' :: ·) := by
  induction refs generalizing r with
  | nil =>
    rw [join]
    exact split_noSep (h r List.mem_cons_self)
  | cons b refs ih =>
    have e : join s%", " (r :: b :: refs) = r ++ ',' :: (' ' :: join s%", " (b :: refs)) := by
      simp [join]
    obtain ⟨w, ws, h1, h2⟩ := split_cons_ne (c := ',') (a := ' ') (by decide)
      (join s%", " (b :: refs))
    rw [ih fun x hx => h x (List.mem_cons_of_mem _ hx), List.cons.injEq] at h1
    rw [e, split_append_sep (h r List.mem_cons_self), h2, ← h1.1, ← h1.2]
    rfl

theorem mem_join {sep : Str} {l : List Str} {c : Char} (h : c ∈ join sep l) :
    c ∈ sep ∨ ∃ x ∈ l, c ∈ x := by
  induction l with
  | nil => cases h
  | cons a l ih =>
    cases l with
    | nil => exact .inr ⟨a, List.mem_cons_self, h⟩
    | cons b l =>
      rw [join, List.mem_append, List.mem_append] at h
      rcases h with (h | h) | h
      · exact .inr ⟨a, List.mem_cons_self, h⟩
      · exact .inl h
      · rcases ih h with h | ⟨x, hx, hc⟩
        · exact .inl h
        · exact .inr ⟨x, List.mem_cons_of_mem _ hx, hc⟩

theorem pyStrip_space {s : Str} (h : Trimmed s) : pyStrip (' ' :: s) = s := by
  have := stripBy_around (p := isPySpace) (a := s%" ") (s := s) (b := []) (by decide) (by simp)
    h.1 h.2
  simpa [pyStrip] using this

theorem decorated_strip (refs : List Str) :
    pyStrip (decorated refs) = s%"(" ++ join s%", " refs ++ s%")" := by
  have e : decorated refs = ' ' :: (s%"(" ++ join s%", " refs ++ s%")") := by
    simp [decorated]
  rw [e]
  refine pyStrip_space ⟨?_, ?_⟩
  · intro c cs h
    simp only [List.cons_append, List.cons.injEq] at h
    rw [← h.1]; decide
  · intro cs c h
    have h1 : (cs ++ [c]).getLast? = some ')' := by rw [← h]; exact List.getLast?_concat
    rw [List.getLast?_concat, Option.some.injEq] at h1
    rw [h1]; decide

theorem refs_of_decorated {refs : List Str} (hne : refs ≠ []) (h : ∀ r ∈ refs, PlainRef r) :
    refsOf (pyStrip (decorated refs)) = refs := by
  rw [decorated_strip, refsOf]
  have hno : ∀ c ∈ join s%", " refs, (c = '(' || c = ')') = false := by
    intro c hc
    rcases mem_join hc with hs | ⟨x, hx, hcx⟩
    · simp at hs; rcases hs with rfl | rfl <;> decide
    · obtain ⟨-, -, -, h1, h2⟩ := h x hx
      have : c ≠ '(' := fun e => h1 (e ▸ hcx)
      have : c ≠ ')' := fun e => h2 (e ▸ hcx)
      simp [*]
  rw [stripBy_around (by simp) (by simp)
    (fun c cs hc => hno c (by rw [hc]; simp)) (fun cs c hc => hno c (by rw [hc]; simp))]
  cases refs with
  | nil => exact absurd rfl hne
  | cons r refs =>
    rw [split_join fun x hx => (h x hx).2.1, List.map_cons,
      pyStrip_trimmed (h r List.mem_cons_self).2.2.1, List.map_map]
    congr 1
    have : ∀ x ∈ refs, (pyStrip ∘ (' ' :: ·)) x = id x := by
      intro x hx
      exact pyStrip_space (h x (List.mem_cons_of_mem _ hx)).2.2.1
    rw [List.map_congr_left this, List.map_id]

/-! ## the choice of a tag -/

theorem mem_tagsOf {env : VEnv} {refs : List Str} {t : Str} :
    t ∈ tagsOf env refs ↔ Candidate env refs t := by
  have h5 : ∀ u : Str, u ∈ (refs.filter (fun r => startsWith r s%"tag: ")).map (List.drop 5) ↔
      s%"tag: " ++ u ∈ refs := by
    intro u
    rw [List.mem_map]
    constructor
    · rintro ⟨r, hr, rfl⟩
      rw [List.mem_filter, startsWith, List.isPrefixOf_iff_prefix] at hr
      obtain ⟨hr, u, rfl⟩ := hr
      simpa using hr
    · intro hu
      refine ⟨_, List.mem_filter.2 ⟨hu, ?_⟩, by simp⟩
      rw [startsWith, List.isPrefixOf_iff_prefix]
      exact List.prefix_append _ _
  rw [tagsOf]
  by_cases hn : (refs.filter (fun r => startsWith r s%"tag: ")).map (List.drop 5) = []
  · rw [if_pos hn, List.mem_filter, List.any_eq_true, Candidate]
    have hall : ∀ u, s%"tag: " ++ u ∉ refs := by
      intro u hu
      have := (h5 u).2 hu
      rw [hn] at this; cases this
    constructor
    · rintro ⟨h1, h2⟩; exact .inr ⟨hall, h1, h2⟩
    · rintro (h1 | ⟨-, h1, h2⟩)
      · exact absurd h1 (hall t)
      · exact ⟨h1, h2⟩
  · rw [if_neg hn, h5, Candidate]
    constructor
    · exact .inl
    · rintro (h1 | ⟨h1, -, -⟩)
      · exact h1
      · obtain ⟨u, hu⟩ := List.exists_mem_of_ne_nil _ hn
        exact absurd ((h5 u).1 hu) (h1 u)

theorem find_sorted_some {l : List Str} {P : Str → Bool} {t : Str}
    (h : (sortBy strLe l).find? P = some t) :
    t ∈ l ∧ P t = true ∧ ∀ u ∈ l, P u = true → strLe t u = true := by
  rw [List.find?_eq_some_iff_append] at h
  obtain ⟨hp, as, bs, he, hn⟩ := h
  refine ⟨mem_sortBy.1 (by rw [he]; simp), hp, fun u hu hpu => ?_⟩
  have hu' : u ∈ sortBy strLe l := mem_sortBy.2 hu
  have hs := sortBy_sorted (le := strLe) strLe_total (fun _ _ _ => strLe_trans) l
  rw [he] at hu' hs
  rcases List.mem_append.1 hu' with hu' | hu'
  · have := hn u hu'
    rw [hpu] at this; cases this
  · rcases List.mem_cons.1 hu' with rfl | hu'
    · exact strLe_refl _
    · exact (List.pairwise_cons.1 (List.pairwise_append.1 hs).2.1).1 u hu'

theorem find_sorted_none {l : List Str} {P : Str → Bool}
    (h : (sortBy strLe l).find? P = none) : ∀ u ∈ l, P u = false := by
  intro u hu
  have := List.find?_eq_none.1 h u (mem_sortBy.2 hu)
  simpa using this

theorem keywords_result {env : VEnv} {refs : List Str} (hne : refs ≠ [])
    (h : ∀ r ∈ refs, PlainRef r) {pre full : Str} {date : Option Str} :
    gitVersionsFromKeywords env ⟨some (decorated refs), some full, date⟩ pre =
      match (sortBy strLe (tagsOf env refs)).find? (fun t => startsWith t pre) with
      | some t => .ok ⟨t.drop pre.length, some (pyStrip full), some false, none, date.map fixDate⟩
      | none => .ok ⟨s%"0+unknown", some (pyStrip full), some false, some s%"no suitable tags",
          none⟩ := by
  rw [gitVersionsFromKeywords, if_neg (by simp)]
  simp only
  rw [if_neg, refs_of_decorated hne h]
  · rfl
  · rw [decorated_strip]
    simp [startsWith]

/-- **C95.**  The version of an archive is the first, in the order of texts, of the tags of the
commit that begin with the prefix. -/
theorem keywords_version {env : VEnv} {refs : List Str} (hne : refs ≠ [])
    (h : ∀ r ∈ refs, PlainRef r) {pre full v : Str} {date : Option Str}
    (hv : FirstCandidate env refs pre v) :
    gitVersionsFromKeywords env ⟨some (decorated refs), some full, date⟩ pre =
      .ok ⟨v, some (pyStrip full), some false, none, date.map fixDate⟩ := by
  rw [keywords_result hne h]
  have hpre : startsWith (pre ++ v) pre = true := by
    rw [startsWith, List.isPrefixOf_iff_prefix]; exact List.prefix_append _ _
  cases hf : (sortBy strLe (tagsOf env refs)).find? (fun t => startsWith t pre) with
  | none =>
    have := find_sorted_none hf _ (mem_tagsOf.2 hv.1)
    rw [hpre] at this; cases this
  | some t =>
    obtain ⟨h1, h2, h3⟩ := find_sorted_some hf
    rw [startsWith, List.isPrefixOf_iff_prefix] at h2
    obtain ⟨u, rfl⟩ := h2
    have := strLe_antisymm (h3 _ (mem_tagsOf.2 hv.1) hpre) (hv.2 u (mem_tagsOf.1 h1))
    rw [List.append_cancel_left this]
    simp

/-- **C95.**  If no tag of the commit begins with the prefix the version is unknown, and that is
said; the commit is given. -/
theorem keywords_unknown {env : VEnv} {refs : List Str} (hne : refs ≠ [])
    (h : ∀ r ∈ refs, PlainRef r) {pre full : Str} {date : Option Str}
    (hv : ∀ u, ¬ Candidate env refs (pre ++ u)) :
    gitVersionsFromKeywords env ⟨some (decorated refs), some full, date⟩ pre =
      .ok ⟨s%"0+unknown", some (pyStrip full), some false, some s%"no suitable tags", none⟩ := by
  rw [keywords_result hne h]
  cases hf : (sortBy strLe (tagsOf env refs)).find? (fun t => startsWith t pre) with
  | none => rfl
  | some t =>
    obtain ⟨h1, h2, -⟩ := find_sorted_some hf
    rw [startsWith, List.isPrefixOf_iff_prefix] at h2
    obtain ⟨u, rfl⟩ := h2
    exact absurd (mem_tagsOf.1 h1) (hv u)

/-- One of the two cases is there. -/
theorem candidate_first_or_none (env : VEnv) (refs : List Str) (pre : Str) :
    (∃ v, FirstCandidate env refs pre v) ∨ ∀ u, ¬ Candidate env refs (pre ++ u) := by
  cases hf : (sortBy strLe (tagsOf env refs)).find? (fun t => startsWith t pre) with
  | none =>
    right
    intro u hu
    have := find_sorted_none hf _ (mem_tagsOf.2 hu)
    rw [show startsWith (pre ++ u) pre = true by
      rw [startsWith, List.isPrefixOf_iff_prefix]; exact List.prefix_append _ _] at this
    cases this
  | some t =>
    left
    obtain ⟨h1, h2, h3⟩ := find_sorted_some hf
    rw [startsWith, List.isPrefixOf_iff_prefix] at h2
    obtain ⟨v, rfl⟩ := h2
    refine ⟨v, mem_tagsOf.1 h1, fun u hu => h3 _ (mem_tagsOf.2 hu) ?_⟩
    rw [startsWith, List.isPrefixOf_iff_prefix]; exact List.prefix_append _ _

/-- **C95.**  The order in which the references are written does not matter, nor how often one is
written. -/
theorem keywords_order {env : VEnv} {refs refs' : List Str} (hne : refs ≠ []) (hne' : refs' ≠ [])
    (h : ∀ r ∈ refs, PlainRef r) (hm : ∀ r, r ∈ refs ↔ r ∈ refs') {pre full : Str}
    {date : Option Str} :
    gitVersionsFromKeywords env ⟨some (decorated refs), some full, date⟩ pre =
      gitVersionsFromKeywords env ⟨some (decorated refs'), some full, date⟩ pre := by
  have h' : ∀ r ∈ refs', PlainRef r := fun r hr => h r ((hm r).2 hr)
  have hc : ∀ t, Candidate env refs t ↔ Candidate env refs' t := by
    intro t
    simp only [Candidate, hm]
  rcases candidate_first_or_none env refs pre with ⟨v, hv⟩ | hv
  · rw [keywords_version hne h hv, keywords_version hne' h' (v := v)
      ⟨(hc _).1 hv.1, fun u hu => hv.2 u ((hc _).2 hu)⟩]
  · rw [keywords_unknown hne h hv, keywords_unknown hne' h' fun u hu => hv u ((hc _).2 hu)]

/-- **C95.**  Of two tags of which one continues the other the shorter one is taken, as 2.0 and not
2.0rc1. -/
theorem keywords_prefer_short {env : VEnv} {refs : List Str} {pre u x : Str} (hx : x ≠ [])
    (hu : Candidate env refs (pre ++ u)) : ¬ FirstCandidate env refs pre (u ++ x) := by
  rintro ⟨-, h⟩
  have h1 := h u hu
  have h2 : ∀ a b : Str, strLe a (a ++ b) = true := by
    intro a b
    induction a with
    | nil => rfl
    | cons c a ih => rw [List.cons_append, strLe, if_pos rfl, ih]
  have h3 := strLe_antisymm h1 (by rw [← List.append_assoc]; exact h2 _ _)
  rw [← List.append_assoc] at h3
  exact hx (List.append_right_eq_self.1 h3)

/-- **C95.**  The keywords in the repository are not filled in and are never used. -/
theorem shipped_keywords (env : VEnv) (pre : Str) :
    gitVersionsFromKeywords env shippedKeywords pre = .error .notThisMethod := by
  rfl

/-! ## keywords in a file -/

theorem strip_end {x z : Str} {c : Char} (h : isPySpace c = false) :
    ∃ z', ((x ++ c :: z).reverse.dropWhile isPySpace).reverse = x ++ c :: z' := by
  induction z using List.reverseRecOn with
  | nil =>
    refine ⟨[], ?_⟩
    rw [List.reverse_append, List.reverse_cons, List.reverse_nil, List.nil_append,
      List.singleton_append, List.dropWhile_cons, h]
    simp
  | append_singleton z d ih =>
    by_cases hd : isPySpace d = true
    · obtain ⟨z', hz⟩ := ih
      refine ⟨z', ?_⟩
      have : (x ++ c :: (z ++ [d])).reverse = d :: (x ++ c :: z).reverse := by simp
      rw [this, List.dropWhile_cons, if_pos hd, hz]
    · refine ⟨z ++ [d], ?_⟩
      have : (x ++ c :: (z ++ [d])).reverse = d :: (x ++ c :: z).reverse := by simp
      rw [this, List.dropWhile_cons, if_neg hd, ← this, List.reverse_reverse]

theorem quoted_skip {a : Str} (s : Str) (h : '=' ∉ a) : quoted (a ++ s) = quoted s := by
  induction a with
  | nil => rfl
  | cons c a ih =>
    rw [List.mem_cons, not_or] at h
    rw [List.cons_append, quoted, if_neg (Ne.symm h.1), ih h.2]

theorem space_ne_eq {c : Char} (h : isPySpace c = true) : c ≠ '=' := by
  rintro rfl; revert h; decide

/-- **C98.**  The value of a keyword is read from its line: the text between the first and the last
quotation mark. -/
theorem line_value {key value line : Str} (hk : '=' ∉ key)
    (hs : ∀ c cs, key = c :: cs → isPySpace c = false) (hne : key ≠ [])
    (h : Assigns key value line) : lineValue key line = some value := by
  obtain ⟨ind, sp, rest, rfl, h1, h2, h3, h4⟩ := h
  have hstart : startsWith (pyStrip (ind ++ key ++ s%" =" ++ sp ++ s%"\"" ++ value ++ s%"\"" ++ rest))
      (key ++ s%" =") = true := by
    have e : ind ++ key ++ s%" =" ++ sp ++ s%"\"" ++ value ++ s%"\"" ++ rest =
        ind ++ ((key ++ s%" =" ++ sp) ++ '"' :: (value ++ s%"\"" ++ rest)) := by simp
    rw [startsWith, List.isPrefixOf_iff_prefix, e, pyStrip, stripBy, dropWhile_append_all _ h1,
      dropWhile_head (s := (key ++ s%" =" ++ sp) ++ '"' :: (value ++ s%"\"" ++ rest))]
    · obtain ⟨z', hz⟩ := strip_end (x := key ++ s%" =" ++ sp) (z := value ++ s%"\"" ++ rest)
        (c := '"') (by decide)
      rw [hz, List.append_assoc]
      exact List.prefix_append _ _
    · intro c cs hc
      cases key with
      | nil => exact absurd rfl hne
      | cons k ks =>
        simp only [List.cons_append, List.cons.injEq] at hc
        rw [← hc.1]
        exact hs k ks rfl
  rw [lineValue, if_pos hstart]
  have e : ind ++ key ++ s%" =" ++ sp ++ s%"\"" ++ value ++ s%"\"" ++ rest =
      (ind ++ key ++ s%" ") ++ '=' :: (sp ++ '"' :: (value ++ '"' :: rest)) := by simp
  rw [e, quoted_skip, quoted, if_pos rfl, dropWhile_append_all _ h2]
  · have e2 : List.dropWhile isPySpace ('"' :: (value ++ '"' :: rest)) =
        '"' :: (value ++ '"' :: rest) := by
      rw [List.dropWhile_cons, show isPySpace '"' = false by decide]; rfl
    rw [e2]
    simp only
    have e3 : (value ++ '"' :: rest).takeWhile (· ≠ '\n') =
        value ++ '"' :: rest.takeWhile (· ≠ '\n') := by
      rw [List.takeWhile_append_of_pos]
      · rw [List.takeWhile_cons]; simp
      · intro c hc
        simp only [decide_eq_true_eq]
        rintro rfl; exact h3 hc
    rw [e3, cutLast_append]
    intro hm
    exact h4 ((List.takeWhile_prefix _).subset hm)
  · simp only [List.mem_append, not_or]
    refine ⟨⟨fun hm => space_ne_eq (h1 _ hm) rfl, hk⟩, by decide⟩

theorem line_no_value {key line : Str} (h : NotAbout key line) : lineValue key line = none := by
  rw [lineValue, if_neg]
  intro hs
  rw [startsWith, List.isPrefixOf_iff_prefix, pyStrip, stripBy] at hs
  obtain ⟨t, ht⟩ := hs
  refine h ⟨line.takeWhile isPySpace, t ++
    ((line.dropWhile isPySpace).reverse.takeWhile isPySpace).reverse, ?_, fun c hc => List.mem_takeWhile_imp hc⟩
  have e1 : line.dropWhile isPySpace = ((line.dropWhile isPySpace).reverse.dropWhile isPySpace).reverse ++
      ((line.dropWhile isPySpace).reverse.takeWhile isPySpace).reverse := by
    rw [← List.reverse_append, List.takeWhile_append_dropWhile, List.reverse_reverse]
  rw [← ht] at e1
  have e2 := List.takeWhile_append_dropWhile (p := isPySpace) (l := line)
  rw [e1] at e2
  refine e2.symm.trans ?_
  simp

theorem keyword_fold {get : Keywords → Option Str} {key : Str}
    (hg : ∀ k line, get (readKeywordLine k line) = (lineValue key line).or (get k))
    {lines : List Str} (h : ∀ l ∈ lines, lineValue key l = none) (k : Keywords) :
    get (lines.foldl readKeywordLine k) = get k := by
  induction lines generalizing k with
  | nil => rfl
  | cons l lines ih =>
    rw [List.foldl_cons, ih (fun x hx => h x (List.mem_cons_of_mem _ hx)), hg,
      h l List.mem_cons_self]
    rfl

/-- The three keywords and where they are kept. -/
def keywordValue (key : Str) (k : Keywords) : Option Str :=
  if key = s%"git_refnames" then k.refnames
  else if key = s%"git_full" then k.full
  else if key = s%"git_date" then k.date
  else none

/-- **C98.**  A keyword has the value of the last line that gives it one. -/
theorem keyword_of_file {key value line : Str} {before after : List Str}
    (hk : key = s%"git_refnames" ∨ key = s%"git_full" ∨ key = s%"git_date")
    (hl : Assigns key value line) (ha : ∀ l ∈ after, NotAbout key l) :
    keywordValue key (gitGetKeywords (some (before ++ line :: after))) = some value := by
  have hg : ∀ k line, keywordValue key (readKeywordLine k line) =
      (lineValue key line).or (keywordValue key k) := by
    rcases hk with rfl | rfl | rfl <;> intro k line <;> rfl
  have hv : lineValue key line = some value := by
    rcases hk with rfl | rfl | rfl <;>
      refine line_value (by decide) ?_ (by decide) hl <;>
      · intro c cs h
        simp only [List.cons.injEq] at h
        rw [← h.1]; decide
  rw [gitGetKeywords, List.foldl_append, List.foldl_cons,
    keyword_fold hg fun l hl => line_no_value (ha l hl), hg, hv]
  rfl

/-- **C98.**  A keyword without a line has no value, and nothing is read if there is no file. -/
theorem keyword_missing {key : Str} {lines : List Str}
    (hk : key = s%"git_refnames" ∨ key = s%"git_full" ∨ key = s%"git_date")
    (ha : ∀ l ∈ lines, NotAbout key l) :
    keywordValue key (gitGetKeywords (some lines)) = none ∧
      keywordValue key (gitGetKeywords none) = none := by
  have hg : ∀ k line, keywordValue key (readKeywordLine k line) =
      (lineValue key line).or (keywordValue key k) := by
    rcases hk with rfl | rfl | rfl <;> intro k line <;> rfl
  refine ⟨?_, by rcases hk with rfl | rfl | rfl <;> rfl⟩
  rw [gitGetKeywords, keyword_fold hg fun l hl => line_no_value (ha l hl)]
  rcases hk with rfl | rfl | rfl <;> rfl

/-! ## the name of the directory -/

theorem pathOf_concat (ns : List Str) (n : Str) : pathOf (ns ++ [n]) = pathOf ns ++ '/' :: n := by
  simp [pathOf]

theorem baseName_path {ns : List Str} {n : Str} (h : IsFileName n) :
    baseName (pathOf (ns ++ [n])) = n := by
  rw [baseName, pathOf_concat, cutLast_append _ h.2]

theorem dirName_path {ns : List Str} {n : Str} (hn : IsFileName n) (h : ∀ m ∈ ns, IsFileName m) :
    dirName (pathOf (ns ++ [n])) = if ns = [] then s%"/" else pathOf ns := by
  rw [dirName, pathOf_concat, cutLast_append _ hn.2]
  simp only
  rcases List.eq_nil_or_concat ns with rfl | ⟨ms, m, rfl⟩
  · rfl
  · rw [List.concat_eq_append] at h ⊢
    have hm := h m (by simp)
    obtain ⟨x, c, hx⟩ : ∃ x c, m = x ++ [c] := by
      rcases List.eq_nil_or_concat m with rfl | ⟨x, c, hx⟩
      · exact absurd rfl hm.1
      · exact ⟨x, c, by rw [hx, List.concat_eq_append]⟩
    have hc : c ≠ '/' := by
      rintro rfl; exact hm.2 (by rw [hx]; simp)
    have e : pathOf (ms ++ [m]) = (pathOf ms ++ '/' :: x) ++ [c] := by
      rw [pathOf_concat, hx]; simp
    have hemp : ms ++ [m] ≠ [] := by simp
    rw [if_neg hemp, e, if_neg]
    · rw [dropWhile_head, List.reverse_reverse]
      intro d ds hd
      rw [List.reverse_append, List.reverse_cons, List.reverse_nil, List.nil_append,
        List.singleton_append, List.cons.injEq] at hd
      rw [← hd.1]; simpa using hc
    · rw [List.all_eq_true]
      intro hall
      have := hall c (by simp)
      simp at this
      exact hc this

theorem parentdir_root {pre : Str} (hp : pre ≠ []) (k : Nat) :
    versionsFromParentdir pre k s%"/" = .error .notThisMethod := by
  induction k with
  | zero => rfl
  | succ k ih =>
    rw [versionsFromParentdir, if_neg]
    · exact ih
    · cases pre with
      | nil => exact absurd rfl hp
      | cons c cs => simp [baseName, cutLast, startsWith]

theorem parentdir_path {pre : Str} (hp : pre ≠ []) (k : Nat) {names : List Str}
    (h : ∀ m ∈ names, IsFileName m) (hne : names ≠ []) :
    versionsFromParentdir pre k (pathOf names) =
      match (names.reverse.take k).find? (fun n => startsWith n pre) with
      | some n => .ok ⟨n.drop pre.length, none, some false, none, none⟩
      | none => .error .notThisMethod := by
  induction k generalizing names with
  | zero => rfl
  | succ k ih =>
    rcases List.eq_nil_or_concat names with rfl | ⟨ms, m, rfl⟩
    · exact absurd rfl hne
    · rw [List.concat_eq_append] at h ⊢
      have hm := h m (by simp)
      have hms : ∀ x ∈ ms, IsFileName x := fun x hx => h x (by simp [hx])
      rw [versionsFromParentdir, baseName_path hm, dirName_path hm hms, List.reverse_append]
      simp only [List.reverse_cons, List.reverse_nil, List.nil_append, List.singleton_append,
        List.take_succ_cons, List.find?_cons]
      cases hs : startsWith m pre with
      | true => rfl
      | false =>
        simp only [Bool.false_eq_true, if_false]
        by_cases he : ms = []
        · subst he
          simp only [if_true]
          rw [parentdir_root hp]; simp
        · rw [if_neg he]; exact ih hms he

/-- **C96.**  The version is read from the directory of the source tree or one of the two above
it: the nearest one whose name begins with the prefix. -/
theorem parentdir_version {pre : Str} (hp : pre ≠ []) {names : List Str}
    (h : ∀ m ∈ names, IsFileName m) (hne : names ≠ []) {i : VersionInfo} :
    versionsFromParentdir pre 3 (pathOf names) = .ok i ↔
      ∃ above below v, names = above ++ (pre ++ v) :: below ∧ below.length < 3 ∧
        (∀ b ∈ below, ¬ pre <+: b) ∧ i = ⟨v, none, some false, none, none⟩ := by
  rw [parentdir_path hp 3 h hne]
  constructor
  · intro hi
    split at hi
    · rename_i n hf
      rw [Except.ok.injEq] at hi
      rw [List.find?_eq_some_iff_append] at hf
      obtain ⟨hn, as, bs, he, hno⟩ := hf
      rw [startsWith, List.isPrefixOf_iff_prefix] at hn
      obtain ⟨v, rfl⟩ := hn
      have hr : names.reverse = as ++ (pre ++ v) :: (bs ++ names.reverse.drop 3) := by
        have := List.take_append_drop 3 names.reverse
        rw [he] at this
        refine this.symm.trans ?_
        simp
      refine ⟨(bs ++ names.reverse.drop 3).reverse, as.reverse, v, ?_, ?_, ?_, ?_⟩
      · have := congrArg List.reverse hr
        rw [List.reverse_reverse] at this
        refine this.trans ?_
        simp
      · have := congrArg List.length he
        simp only [List.length_take, List.length_append, List.length_cons] at this
        rw [List.length_reverse]; omega
      · intro b hb
        have := hno b (List.mem_reverse.1 hb)
        rw [Bool.not_eq_true', startsWith] at this
        intro hb
        rw [← List.isPrefixOf_iff_prefix, this] at hb
        cases hb
      · rw [← hi]; simp
    · cases hi
  · rintro ⟨above, below, v, rfl, hl, hno, rfl⟩
    have : ((above ++ (pre ++ v) :: below).reverse.take 3).find? (fun n => startsWith n pre) =
        some (pre ++ v) := by
      rw [List.find?_eq_some_iff_append]
      refine ⟨by rw [startsWith, List.isPrefixOf_iff_prefix]; exact List.prefix_append _ _,
        below.reverse, above.reverse.take (3 - (below.length + 1)), ?_, ?_⟩
      · have e : (above ++ (pre ++ v) :: below).reverse = (below.reverse ++ [pre ++ v]) ++ above.reverse := by
          simp
        rw [e, List.take_append, List.take_of_length_le (by simp; omega)]
        simp
      · intro b hb
        rw [Bool.not_eq_true', startsWith]
        have := hno b (List.mem_reverse.1 hb)
        rw [← List.isPrefixOf_iff_prefix] at this
        exact Bool.eq_false_iff.2 this
    rw [this]
    simp

end Punx

import Verif.Props.Version

/-!
# C94: the text of a version says which commit it is
-/

namespace Punx
open Spec

theorem first_sep_unique {c : Char} {a b a' b' : Str} (h : c ∉ a) (h' : c ∉ a')
    (e : a ++ c :: b = a' ++ c :: b') : a = a' ∧ b = b' := by
  induction a generalizing a' with
  | nil =>
    cases a' with
    | nil => simpa using e
    | cons x a' =>
      simp only [List.nil_append, List.cons_append, List.cons.injEq] at e
      exact absurd List.mem_cons_self (e.1 ▸ h')
  | cons x a ih =>
    cases a' with
    | nil =>
      simp only [List.nil_append, List.cons_append, List.cons.injEq] at e
      exact absurd List.mem_cons_self (e.1 ▸ h)
    | cons y a' =>
      simp only [List.cons_append, List.cons.injEq] at e
      obtain ⟨rfl, e⟩ := e
      rw [List.mem_cons, not_or] at h h'
      obtain ⟨rfl, rfl⟩ := ih h.2 h'.2 e
      exact ⟨rfl, rfl⟩

theorem textIf_mark (b : Bool) (s : Str) : textIf b s = mark b s := rfl

/-- The part of the text after the plus sign. -/
def localText (n : Nat) (hex : Str) (dirty : Bool) : Str :=
  natStr n ++ s%".g" ++ hex ++ mark dirty s%".dirty"

theorem hex_mark_inj {h h' : Str} {d d' : Bool} (hh : IsHex h) (hh' : IsHex h')
    (e : h ++ mark d s%".dirty" = h' ++ mark d' s%".dirty") : h = h' ∧ d = d' := by
  have n1 : '.' ∉ h := hex_notMem hh (by decide)
  have n2 : '.' ∉ h' := hex_notMem hh' (by decide)
  cases d <;> cases d'
  · simp only [mark, Bool.false_eq_true, if_false, List.append_nil] at e
    exact ⟨e, rfl⟩
  · simp only [mark, Bool.false_eq_true, if_false, if_true, List.append_nil] at e
    exact absurd (e ▸ by simp) n1
  · simp only [mark, Bool.false_eq_true, if_false, if_true, List.append_nil] at e
    exact absurd (e ▸ by simp) n2
  · simp only [mark, if_true] at e
    exact ⟨List.append_cancel_right e, rfl⟩

theorem localText_inj {n n' : Nat} {h h' : Str} {d d' : Bool} (hh : IsHex h) (hh' : IsHex h')
    (e : localText n h d = localText n' h' d') : n = n' ∧ h = h' ∧ d = d' := by
  have e1 : ∀ n h d, localText n h d = natStr n ++ '.' :: ('g' :: (h ++ mark d s%".dirty")) := by
    intro n h d; simp [localText]
  rw [e1, e1] at e
  obtain ⟨h1, h2⟩ := first_sep_unique (digit_notMem (by decide)) (digit_notMem (by decide)) e
  rw [List.cons.injEq] at h2
  exact ⟨natStr_inj h1, hex_mark_inj hh hh' h2.2⟩

/-! ## the text in the style `pep440` -/

theorem pep440_untagged {p : Pieces} {c : Commit} (h : Says p c) (ht : c.tag = none) :
    renderPep440 p = .ok (s%"0+untagged." ++ localText c.distance c.hex c.dirty) := by
  obtain ⟨-, h2, h3, h4, h5⟩ := h
  rw [ht] at h2
  simp only [renderPep440, Pieces.closest!, h2, bind, Except.bind, Pieces.distance!, h3, h4, h5,
    intStr_nat, textIf_mark, localText, List.append_assoc]

theorem pep440_release {p : Pieces} {c : Commit} {t : Str} (h : Says p c) (hr : c.Real)
    (ht : c.tag = some t) (hn : c.distance = 0) (hd : c.dirty = false) :
    renderPep440 p = .ok t := by
  obtain ⟨-, h2, h3, h4, h5⟩ := h
  rw [ht] at h2
  cases t with
  | nil => exact absurd ht hr.1
  | cons x t =>
    rw [hn] at h3
    rw [hd] at h5
    simp [renderPep440, Pieces.closest!, h2, bind, Except.bind, Pieces.distance!, h3, h5]

theorem pep440_after {p : Pieces} {c : Commit} {t : Str} (h : Says p c) (hr : c.Real)
    (ht : c.tag = some t) (hn : ¬ (c.distance = 0 ∧ c.dirty = false)) :
    renderPep440 p = .ok (t ++ (if '+' ∈ t then s%"." else s%"+") ++
      localText c.distance c.hex c.dirty) := by
  obtain ⟨-, h2, h3, h4, h5⟩ := h
  rw [ht] at h2
  cases t with
  | nil => exact absurd ht hr.1
  | cons x t =>
    have hc : (c.distance : Int) ≠ 0 ∨ c.dirty = true := by
      by_cases h0 : c.distance = 0
      · right
        cases hd : c.dirty with
        | true => rfl
        | false => exact absurd ⟨h0, hd⟩ hn
      · left; omega
    simp only [renderPep440, Pieces.closest!, h2, bind, Except.bind, Pieces.distance!, h3, h4, h5,
      intStr_nat, textIf_mark, localText, if_pos hc, plusOrDot]
    by_cases hp : '+' ∈ x :: t <;> simp [hp]

theorem renderVersion_text {p : Pieces} {c : Commit} {style v : Str} (h : Says p c)
    (hs : renderStyle style p = .ok v) :
    renderVersion p style = .ok ⟨v, some p.long, some c.dirty, none, p.date⟩ := by
  rw [renderVersion, h.1, if_neg (by simp), hs, h.2.2.2.2]

theorem renderVersion_ok {p : Pieces} {c : Commit} {style : Str} {i : VersionInfo} (h : Says p c)
    (hs : renderVersion p style = .ok i) : renderStyle style p = .ok i.version := by
  rw [renderVersion, h.1, if_neg (by simp)] at hs
  cases he : renderStyle style p with
  | error e => rw [he] at hs; cases hs
  | ok v =>
    rw [he] at hs
    simp only [Except.ok.injEq] at hs
    rw [← hs]

theorem renderStyle_pep440 (p : Pieces) : renderStyle s%"pep440" p = renderPep440 p := rfl

/-- **C94.**  The version of the default style says which commit it is: two commits with the same
text have the same tag, and are both that of the tag, unchanged, or have the same distance, the
same number and the same mark.  Only tags with a plus sign are left out. -/
theorem pep440_identifies {p q : Pieces} {c d : Commit} {i j : VersionInfo}
    (hp : Says p c) (hq : Says q d) (hc : c.Real) (hd : d.Real)
    (tc : ∀ t, c.tag = some t → '+' ∉ t) (td : ∀ t, d.tag = some t → '+' ∉ t)
    (hi : renderVersion p s%"pep440" = .ok i) (hj : renderVersion q s%"pep440" = .ok j)
    (e : i.version = j.version) :
    c.tag = d.tag ∧ (c.IsRelease ∧ d.IsRelease ∨
      c.distance = d.distance ∧ c.hex = d.hex ∧ c.dirty = d.dirty) := by
  have hi' := renderVersion_ok hp hi
  have hj' := renderVersion_ok hq hj
  rw [renderStyle_pep440] at hi' hj'
  rw [← e] at hj'
  -- the three forms of a text
  have form : ∀ {p : Pieces} {c : Commit}, Says p c → c.Real →
      (∀ t, c.tag = some t → '+' ∉ t) → ∀ {v : Str}, renderPep440 p = .ok v →
      (c.tag = none ∧ v = s%"0" ++ '+' :: (s%"untagged" ++ '.' :: localText c.distance c.hex c.dirty)) ∨
      (∃ t, c.tag = some t ∧ '+' ∉ t ∧ c.distance = 0 ∧ c.dirty = false ∧ v = t) ∨
      (∃ t, c.tag = some t ∧ '+' ∉ t ∧ v = t ++ '+' :: localText c.distance c.hex c.dirty) := by
    intro p c h hr ht v hv
    cases hct : c.tag with
    | none =>
      left
      rw [pep440_untagged h hct, Except.ok.injEq] at hv
      exact ⟨rfl, by rw [← hv]; simp⟩
    | some t =>
      right
      by_cases h0 : c.distance = 0 ∧ c.dirty = false
      · left
        rw [pep440_release h hr hct h0.1 h0.2, Except.ok.injEq] at hv
        exact ⟨t, rfl, ht t hct, h0.1, h0.2, hv.symm⟩
      · right
        rw [pep440_after h hr hct h0, if_neg (ht t hct), Except.ok.injEq] at hv
        exact ⟨t, rfl, ht t hct, by rw [← hv]; simp⟩
  have nlocal : ∀ {n : Nat} {h : Str} {b : Bool} {x : Str},
      s%"untagged" ++ '.' :: x ≠ localText n h b := by
    intro n h b x he
    have e1 : localText n h b = natStr n ++ '.' :: ('g' :: (h ++ mark b s%".dirty")) := by
      simp [localText]
    rw [e1] at he
    have := (first_sep_unique (by decide) (digit_notMem (by decide)) he).1
    have hu : 'u' ∈ natStr n := by rw [← this]; decide
    have := natStr_digits hu
    revert this; decide
  rcases form hp hc tc hi' with ⟨c1, c2⟩ | ⟨t, c1, c2, c3, c4, c5⟩ | ⟨t, c1, c2, c3⟩ <;>
    rcases form hq hd td hj' with ⟨d1, d2⟩ | ⟨u, d1, d2, d3, d4, d5⟩ | ⟨u, d1, d2, d3⟩
  · rw [c2] at d2
    have := (first_sep_unique (by decide) (by decide) d2).2
    have := (first_sep_unique (by decide) (by decide) this).2
    obtain ⟨e1, e2, e3⟩ := localText_inj hc.2 hd.2 this
    exact ⟨by rw [c1, d1], .inr ⟨e1, e2, e3⟩⟩
  · rw [← d5, c2] at d2
    exact absurd (by simp) d2
  · rw [c2] at d3
    exact absurd (first_sep_unique (by decide) d2 d3).2 nlocal
  · rw [← c5, d2] at c2
    exact absurd (by simp) c2
  · refine ⟨by rw [c1, d1, ← c5, ← d5], .inl ⟨⟨by rw [c1]; simp, c3, c4⟩, by rw [d1]; simp, d3, d4⟩⟩
  · rw [← c5, d3] at c2
    exact absurd (by simp) c2
  · rw [c3] at d2
    exact absurd (first_sep_unique (by decide) c2 d2.symm).2 nlocal
  · rw [← d5, c3] at d2
    exact absurd (by simp) d2
  · rw [c3] at d3
    obtain ⟨e0, e1⟩ := first_sep_unique c2 d2 d3
    obtain ⟨e1, e2, e3⟩ := localText_inj hc.2 hd.2 e1
    exact ⟨by rw [c1, d1, e0], .inr ⟨e1, e2, e3⟩⟩

/-- **C94.**  The version of an unchanged tree at a tag is the tag, and no other tree of this tag
has it. -/
theorem pep440_release_iff {p : Pieces} {c : Commit} {t : Str} {i : VersionInfo} (h : Says p c)
    (hr : c.Real) (ht : c.tag = some t) (hi : renderVersion p s%"pep440" = .ok i) :
    i.version = t ↔ c.IsRelease := by
  have hi' := renderVersion_ok h hi
  rw [renderStyle_pep440] at hi'
  by_cases h0 : c.distance = 0 ∧ c.dirty = false
  · rw [pep440_release h hr ht h0.1 h0.2, Except.ok.injEq] at hi'
    exact ⟨fun _ => ⟨by rw [ht]; simp, h0.1, h0.2⟩, fun _ => hi'.symm⟩
  · rw [pep440_after h hr ht h0, Except.ok.injEq] at hi'
    constructor
    · intro e
      rw [e, List.append_assoc] at hi'
      have := List.append_right_eq_self.1 hi'
      rw [List.append_eq_nil_iff, localText] at this
      simp at this
    · rintro ⟨-, h1, h2⟩
      exact absurd ⟨h1, h2⟩ h0

/-! ## plus signs -/

theorem count_digits (n : Nat) : (natStr n).count '+' = 0 :=
  List.count_eq_zero.2 (digit_notMem (by decide))

theorem count_hex {s : Str} (h : IsHex s) : s.count '+' = 0 :=
  List.count_eq_zero.2 (hex_notMem h (by decide))

theorem count_mark (b : Bool) {s : Str} (h : s.count '+' = 0) : (mark b s).count '+' = 0 := by
  cases b
  · rfl
  · exact h

/-- **C94.**  A version has at most one plus sign, in the default style and in the style
`pep440-post`, if the tag has at most one: the version is a version of PEP 440 with a local part,
also when the tag already has one. -/
theorem one_plus {p : Pieces} {c : Commit} {i : VersionInfo} {style : Str} (h : Says p c) (hr : c.Real)
    (hs : style = s%"pep440" ∨ style = s%"pep440-post")
    (ht : ∀ t, c.tag = some t → t.count '+' ≤ 1)
    (hi : renderVersion p style = .ok i) : i.version.count '+' ≤ 1 := by
  have hi' := renderVersion_ok h hi
  have hloc : ∀ n b, (localText n c.hex b).count '+' = 0 := by
    intro n b
    rw [localText, List.count_append, List.count_append, List.count_append, count_digits,
      count_hex hr.2, count_mark b (by decide)]
    decide
  have hsep : ∀ t : Str, t.count '+' ≤ 1 →
      t.count '+' + (if '+' ∈ t then s%"." else s%"+").count '+' ≤ 1 := by
    intro t h1
    by_cases hp : '+' ∈ t
    · rw [if_pos hp]; simpa using h1
    · rw [if_neg hp, List.count_eq_zero.2 hp]; decide
  rcases hs with rfl | rfl
  · rw [renderStyle_pep440] at hi'
    cases hct : c.tag with
    | none =>
      rw [pep440_untagged h hct, Except.ok.injEq] at hi'
      rw [← hi', List.count_append, hloc]; decide
    | some t =>
      by_cases h0 : c.distance = 0 ∧ c.dirty = false
      · rw [pep440_release h hr hct h0.1 h0.2, Except.ok.injEq] at hi'
        rw [← hi']; exact ht t hct
      · rw [pep440_after h hr hct h0, Except.ok.injEq] at hi'
        rw [← hi', List.count_append, List.count_append, hloc]
        exact hsep t (ht t hct)
  · replace hi' : renderPep440Post p = .ok i.version := hi'
    obtain ⟨-, h2, h3, h4, h5⟩ := h
    have hm : ∀ b, (textIf b s%".dev0").count '+' = 0 := fun b => count_mark b (by decide)
    cases hct : c.tag with
    | none =>
      rw [hct] at h2
      simp only [renderPep440Post, Pieces.closest!, h2, bind, Except.bind, Pieces.distance!, h3,
        h4, h5, intStr_nat, Except.ok.injEq] at hi'
      rw [← hi']
      simp only [List.count_append, count_digits, hm, count_hex hr.2]
      decide
    | some t =>
      rw [hct] at h2
      cases t with
      | nil => exact absurd hct hr.1
      | cons x t =>
        have := hsep (x :: t) (ht _ hct)
        simp only [renderPep440Post, Pieces.closest!, h2, bind, Except.bind, Pieces.distance!, h3,
          h4, h5, intStr_nat] at hi'
        split at hi'
        · simp only [plusOrDot, h2] at hi'
          by_cases hp : '+' ∈ x :: t
          · rw [if_pos hp] at hi' this
            simp only [Except.ok.injEq] at hi'
            rw [← hi']
            have hd : ∀ s : Str, List.count '+' s = s.count '+' := fun _ => rfl
            simp only [List.count_append, count_digits, hm, count_hex hr.2]
            have e1 : (s%".post").count '+' = 0 := by decide
            have e2 : (s%".").count '+' = 0 := by decide
            have e3 : (s%"g").count '+' = 0 := by decide
            omega
          · rw [if_neg hp] at hi' this
            simp only [Except.ok.injEq] at hi'
            rw [← hi']
            simp only [List.count_append, count_digits, hm, count_hex hr.2]
            have e1 : (s%".post").count '+' = 0 := by decide
            have e3 : (s%"g").count '+' = 0 := by decide
            omega
        · simp only [Except.ok.injEq] at hi'
          rw [← hi']
          exact ht _ hct

/-! ## the style of `git describe --long` -/

theorem long_text {p : Pieces} {c : Commit} (h : Says p c) (hr : c.Real) :
    renderStyle s%"git-describe-long" p =
      .ok (match c.tag with
        | some t => describeText t c.distance c.hex c.dirty
        | none => c.hex ++ mark c.dirty s%"-dirty") := by
  obtain ⟨-, h2, h3, h4, h5⟩ := h
  have e : renderStyle s%"git-describe-long" p = renderGitDescribeLong p := rfl
  rw [e]
  cases hct : c.tag with
  | none =>
    rw [hct] at h2
    simp only [renderGitDescribeLong, Pieces.closest!, h2, bind, Except.bind, h4, h5, textIf_mark]
  | some t =>
    rw [hct] at h2
    cases t with
    | nil => exact absurd hct hr.1
    | cons x t =>
      simp only [renderGitDescribeLong, Pieces.closest!, h2, bind, Except.bind, Pieces.distance!,
        h3, h4, h5, intStr_nat, textIf_mark, describeText]

/-- **C94.**  The version in the style `git-describe-long` says everything about the commit, for
all tags; without a tag it does not give the number of commits. -/
theorem long_identifies {p q : Pieces} {c d : Commit} {i j : VersionInfo}
    (hp : Says p c) (hq : Says q d) (hc : c.Real) (hd : d.Real)
    (hi : renderVersion p s%"git-describe-long" = .ok i)
    (hj : renderVersion q s%"git-describe-long" = .ok j) (e : i.version = j.version) :
    c.tag = d.tag ∧ c.hex = d.hex ∧ c.dirty = d.dirty ∧ (c.tag ≠ none → c.distance = d.distance) := by
  have hi' := renderVersion_ok hp hi
  have hj' := renderVersion_ok hq hj
  rw [long_text hp hc, Except.ok.injEq] at hi'
  rw [long_text hq hd, Except.ok.injEq, ← e, ← hi'] at hj'
  have cut : ∀ {c : Commit}, c.Real →
      cutDirty (match c.tag with
        | some t => describeText t c.distance c.hex c.dirty
        | none => c.hex ++ mark c.dirty s%"-dirty") =
      (c.dirty, match c.tag with
        | some t => (t ++ '-' :: natStr c.distance) ++ '-' :: ('g' :: c.hex)
        | none => c.hex) := by
    intro c hr
    cases hct : c.tag with
    | none =>
      refine cutDirty_mark ?_
      have := not_dirty_hex (x := []) hr.2
      simpa using this
    | some t =>
      have := cutDirty_mark (s := t ++ s%"-" ++ natStr c.distance ++ s%"-g" ++ c.hex) (dirty := c.dirty)
        (not_dirty_hex hr.2)
      simp only
      rw [show describeText t c.distance c.hex c.dirty = t ++ s%"-" ++ natStr c.distance ++ s%"-g" ++ c.hex ++ mark c.dirty s%"-dirty" from rfl, this]
      simp
  have h1 := cut hc
  have h2 := cut hd
  rw [hj', h1, Prod.mk.injEq] at h2
  obtain ⟨hdirty, htext⟩ := h2
  have nh : ∀ {c : Commit}, c.Real → '-' ∉ 'g' :: c.hex := by
    intro c hr
    rw [List.mem_cons, not_or]
    exact ⟨by decide, hex_notMem hr.2 (by decide)⟩
  obtain ⟨ct, cn, ch, cd⟩ := c
  obtain ⟨dt, dn, dh, dd⟩ := d
  cases ct with
  | none =>
    cases dt with
    | none =>
      simp only at htext hdirty
      exact ⟨rfl, htext, hdirty, fun h => absurd rfl h⟩
    | some u =>
      simp only at htext
      have : '-' ∉ ch := hex_notMem hc.2 (by decide)
      rw [htext] at this
      exact absurd (by simp) this
  | some t =>
    cases dt with
    | none =>
      simp only at htext
      have : '-' ∉ dh := hex_notMem hd.2 (by decide)
      rw [← htext] at this
      exact absurd (by simp) this
    | some u =>
      simp only at htext hdirty
      have e1 := cutLast_append (t ++ '-' :: natStr cn) (nh hc)
      rw [htext, cutLast_append _ (nh hd)] at e1
      simp only [Option.some.injEq, Prod.mk.injEq, List.cons.injEq, true_and] at e1
      obtain ⟨e2, rfl⟩ := e1
      have e3 := cutLast_append (c := '-') t (b := natStr cn) (digit_notMem (by decide))
      rw [← e2, cutLast_append _ (digit_notMem (by decide))] at e3
      simp only [Option.some.injEq, Prod.mk.injEq] at e3
      obtain ⟨rfl, e4⟩ := e3
      exact ⟨rfl, rfl, hdirty, fun _ => (natStr_inj e4).symm⟩

end Punx

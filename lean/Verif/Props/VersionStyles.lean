import Verif.Props.Version2
import Verif.Spec.VersionStyles

/-!
# C139: the styles of version texts
-/

namespace Punx
open Spec

theorem distance_eq {p : Pieces} {n : Nat} (h : p.distance = some (n : Int)) :
    p.distance! = .ok (n : Int) := by
  unfold Pieces.distance!; rw [h]

theorem closest_eq {p : Pieces} {t : Option Str} (h : p.closest = some t) : p.closest! = .ok t := by
  unfold Pieces.closest!; rw [h]

theorem plusOrDot_eq {p : Pieces} {t : Str} (h : p.closest = some (some t)) :
    plusOrDot p = .ok (if '+' ∈ t then s%"." else s%"+") := by
  unfold plusOrDot; rw [h]; dsimp only; split <;> rfl

/-- **C139.** In each documented style the version of a commit is its template filled with tag, number of
commits, commit and mark. -/
theorem style_text {p : Pieces} {c : Commit} (h : Says p c) (hr : c.Real) {name : Str} {s : Style}
    (hs : (name, s) ∈ documentedStyles) :
    renderVersion p name =
      .ok ⟨fill c (s.forCommit c), some p.long, some c.dirty, none, p.date⟩ := by
  obtain ⟨h1, h2, h3, h4, h5⟩ := h
  obtain ⟨tag, n, hex, dirty⟩ := c
  obtain ⟨hr, -⟩ := hr
  dsimp only at *
  have hp : ∀ t, tag = some t → plusOrDot p = .ok (if '+' ∈ t then s%"." else s%"+") := by
    rintro t rfl
    exact plusOrDot_eq h2
  have hd := distance_eq h3
  have hc := closest_eq h2
  have hi : intStr (n : Int) = natStr n := rfl
  unfold renderVersion renderStyle
  rw [h1]
  simp only [documentedStyles, List.mem_cons, Prod.mk.injEq, List.not_mem_nil, or_false] at hs
  rcases hs with ⟨rfl, rfl⟩ | ⟨rfl, rfl⟩ | ⟨rfl, rfl⟩ | ⟨rfl, rfl⟩ | ⟨rfl, rfl⟩ | ⟨rfl, rfl⟩ <;>
  simp only [Option.getD_none, ne_eq, not_true_eq_false, if_false, List.cons_ne_nil, reduceCtorEq,
    List.cons.injEq, Char.reduceEq, and_false, or_self, if_true, and_true] <;>
  [unfold renderPep440; unfold renderPep440Pre; unfold renderPep440Post; unfold renderPep440Old;
    unfold renderGitDescribe; unfold renderGitDescribeLong] <;>
  rw [hc] <;>
  (rcases tag with _ | _ | ⟨x, t⟩ <;>
    [skip; exact absurd rfl hr; skip] <;>
    (try simp only [Option.some.injEq, forall_eq'] at hp) <;>
    simp only [hd, hp, h4, h5, hi, bind, Except.bind, Style.forCommit, Option.isSome, textIf,
      fill] <;>
    by_cases hn : n = 0 <;> cases dirty <;>
    simp [When.holds, Piece.text, List.filter, List.flatMap, hn, Nat.pos_iff_ne_zero])

/-- **C139.** No other style is known; no style, and `default`, mean `pep440`. -/
theorem other_styles {p : Pieces} {c : Commit} (h : Says p c) :
    (∀ name, name ≠ [] → name ≠ s%"default" → (∀ s, (name, s) ∉ documentedStyles) →
      renderVersion p name = .error (.py .valueError)) ∧
    renderVersion p [] = renderVersion p s%"pep440" ∧
    renderVersion p s%"default" = renderVersion p s%"pep440" := by
  refine ⟨fun name h0 hdef hno => ?_, ?_, ?_⟩
  · simp only [documentedStyles, List.mem_cons, Prod.mk.injEq, List.not_mem_nil, or_false, not_or,
      not_and] at hno
    have key : ∀ {w : Str} {st : Style}, (∀ s, name = w → ¬ s = st) → name ≠ w := fun h e => h _ e rfl
    have k1 := key fun s => (hno s).1
    have k2 := key fun s => (hno s).2.1
    have k3 := key fun s => (hno s).2.2.1
    have k4 := key fun s => (hno s).2.2.2.1
    have k5 := key fun s => (hno s).2.2.2.2.1
    have k6 := key fun s => (hno s).2.2.2.2.2
    unfold renderVersion renderStyle
    rw [h.1]
    simp [h0, hdef, k1, k2, k3, k4, k5, k6]
  · unfold renderVersion renderStyle; rfl
  · unfold renderVersion renderStyle; rfl

/-- Three commits after the tag `1.0+x`, with changes. -/
def changedCommit : Commit := ⟨some s%"1.0+x", 3, s%"abc1234", true⟩

/-- The six texts of that commit. -/
theorem style_case : documentedStyles.map (fun x => fill changedCommit (x.2.forCommit changedCommit)) =
    [s%"1.0+x.3.gabc1234.dirty", s%"1.0+x.post.dev3", s%"1.0+x.post3.dev0.gabc1234",
     s%"1.0+x.post3.dev0", s%"1.0+x-3-gabc1234-dirty", s%"1.0+x-3-gabc1234-dirty"] := by
  decide +kernel

end Punx

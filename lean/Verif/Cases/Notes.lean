import Verif.Props.Notes4
import Verif.Cases.Expected

/-!
# C123 applied to files
-/

namespace Punx
open Spec

/-- Notes called `comment` or `1st note`. -/
def comments : Str → Bool := fun k => k == s%"comment" || k == s%"1st note"

theorem comments_notes (k : Str) (h : comments k = true) : IsNote k := by
  rw [comments, Bool.or_eq_true, beq_iff_eq, beq_iff_eq] at h
  rcases h with rfl | rfl <;> exact ⟨by decide, by decide⟩

/-- A file with the notes `a` of its root, `b` of an NXdata group and `c` of a field. -/
def annotated (a b c : List (Str × Val)) : H5File where
  attrs := (s%"default", .str s%"e") :: a
  kids := .cons s%"e" .hard (.group s%"/e" [(s%"NX_class", .str s%"NXentry")]
    (.cons s%"d" .hard (.group s%"/e/d"
      ((s%"NX_class", .str s%"NXdata") :: (s%"signal", .str s%"x") :: b)
      (.cons s%"x" .hard (.dataset s%"/e/d/x" ((s%"units", .str s%"mm") :: c) (.ofVal (.int 1)))
        .nil)) .nil)) .nil

/-- A file with notes. -/
def commented : H5File :=
  annotated [(s%"1st note", .str s%"raw")] [(s%"comment", .str s%"old")]
    [(s%"comment", .arrS [[200]])]

theorem commented_wellNamed : WellNamedFile commented := by
  simp [WellNamedFile, commented, annotated, WellNamedKids, WellNamed, Kids.toList]

theorem commented_without : without comments commented = annotated [] [] [] := by
  rfl

theorem commented_ok : (validateOpen sampleEnv sampleMgr [] commented).res = .ok () := by rfl

/-- The hypotheses of C123 hold for the file. -/
theorem notes_case (l : Line) : l ∈ report (validateOpen sampleEnv sampleMgr [] commented).log ↔
    l ∈ report (validateOpen sampleEnv sampleMgr [] (annotated [] [] [])).log ∨
      NoteLine sampleEnv sampleMgr comments (contents sampleEnv commented) l := by
  rw [notes_report_iff comments_notes (by rfl) commented_wellNamed sampleMgr_entry commented_ok,
    commented_without]

/-- The notes give lines of their own; the name `1st note` is an error that the file without the
notes does not have. -/
example :
    (some s%"/@1st note", s%"validItemName", Status.error) ∈
      report (validateOpen sampleEnv sampleMgr [] commented).log ∧
    (some s%"/e/d@comment", s%"known attribute", Status.ok) ∈
      report (validateOpen sampleEnv sampleMgr [] commented).log ∧
    ∀ l ∈ report (validateOpen sampleEnv sampleMgr [] (annotated [] [] [])).log,
      l.2.2 ≠ .error := by
  refine ⟨?_, ?_, ?_⟩ <;> decide +kernel

/-- A note of a field that cannot be decoded does no harm (see `commented`), but one of a group
stops the validation. -/
theorem note_stops_validation :
    (validateOpen sampleEnv sampleMgr [] (annotated [] [] [(s%"comment", .arrS [[200]])])).res = .ok () ∧
    (validateOpen sampleEnv sampleMgr [] (annotated [] [(s%"comment", .arrS [[200]])] [])).res ≠
      .ok () := by
  exact ⟨by rfl, fun h => by cases h⟩

end Punx

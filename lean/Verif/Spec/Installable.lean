import Verif.Spec.Cache

/-!
# Which archives can be installed
-/

namespace Punx.Spec
open Punx

/-- A year with a 29th of February. -/
def LeapYear (y : Nat) : Prop := 4 ∣ y ∧ (100 ∣ y → 400 ∣ y)

instance (y : Nat) : Decidable (LeapYear y) := by unfold LeapYear; infer_instance

/-- The lengths of the months of a year. -/
def monthLengths (y : Nat) : List Nat :=
  [31, if LeapYear y then 29 else 28, 31, 30, 31, 30, 31, 31, 30, 31, 30, 31]

/-- A date of the calendar, with a time of the day. -/
def CalendarDate (d : Date) : Prop :=
  1 ≤ d.year ∧ d.year ≤ 9999 ∧
  (∃ m n, d.month = m + 1 ∧ (monthLengths d.year)[m]? = some n ∧ 1 ≤ d.day ∧ d.day ≤ n) ∧
  d.hour < 24 ∧ d.minute < 60 ∧ d.second < 60

/-- A member of an archive that stands for a directory. -/
def IsFolder (m : ZipMember) : Prop := s%"/" <:+ m.name

/-- No wanted file is in the way of another wanted member. -/
def NoneInTheWay (z : Archive) (top : Str) : Prop :=
  ∀ m ∈ z.members, ∀ m' ∈ z.members, Wanted top m.name → Wanted top m'.name → ¬ IsFolder m →
    ¬ Above (extractPath m.name) (extractPath m'.name) ∧
    (extractPath m.name = extractPath m'.name → ¬ IsFolder m')

open Classical in
/-- An archive can be installed: it has two wanted members, their newest date is one of the calendar,
they are not in each other's way nor in the way of the info file. -/
def Installable (z : Archive) (top : Str) : Prop :=
  2 ≤ (z.members.filter fun m => decide (Wanted top m.name)).length ∧
  (∃ dt, Newest z top dt ∧ CalendarDate dt) ∧
  NoneInTheWay z top ∧
  ∀ m ∈ z.members, Wanted top m.name → ¬ Above [top, s%"__github_info__.json"] (extractPath m.name)

end Punx.Spec

import Verif.Model.Finding
import Mathlib.Algebra.BigOperators.Group.List.Basic

/-!
# Specification vocabulary for scores, summaries and reports

Written from the documentation of punx, without using the model's helpers.
-/

namespace Punx.Spec

/-- How many findings have a given status. -/
def count (s : Status) (fs : List Finding) : Nat := (fs.filter (fun f => f.status = s)).length

/-- The documented weight of each status (table in the docstring of
`punx/finding.py:1-35`). -/
def weight : Status → Int
  | .ok => 100
  | .note => 75
  | .warn => 25
  | .error => -10000000
  | .optional => 99
  | .todo | .unused | .comment => 0

/-- Statuses that take no part in the score. -/
def unscored (s : Status) : Prop := s = .todo ∨ s = .unused ∨ s = .comment

instance (s : Status) : Decidable (unscored s) := by unfold unscored; infer_instance

/-- Sum of the weights. -/
def total (fs : List Finding) : Int := (fs.map (fun f => weight f.status)).sum

/-- Number of findings that take part in the score. -/
def scored (fs : List Finding) : Nat := (fs.filter (fun f => ¬ unscored f.status)).length

/-- The order of statuses within one address, as actually printed:
TODO/UNUSED/COMMENT, then OK, WARN, NOTE, OPTIONAL, ERROR. -/
def printedRank : Status → Nat
  | .comment => 0
  | .unused => 1
  | .todo => 2
  | .ok => 3
  | .warn => 4
  | .note => 5
  | .optional => 6
  | .error => 7

end Punx.Spec

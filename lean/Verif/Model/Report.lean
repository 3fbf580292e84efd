import Verif.Model.Finding

/-!
# `punx/validate.py`: scores, summaries and the printed report
-/

namespace Punx

/-- `punx/validate.py:126-143`: `finding_score`: total, count, average (the quotient
is kept as a rational; the code computes it in floating point). -/
def scoreLoop (total : Int) (count : Nat) : List Finding → Int × Nat
  | [] => (total, count)
  | f :: fs =>
    if f.status.value ≠ 0 then scoreLoop (total + f.status.value) (count + 1) fs
    else scoreLoop total count fs

/-- Result of `finding_score`: `avgNum / avgDen` is the average. -/
structure Score where
  total : Int
  count : Nat
  avgNum : Int
  avgDen : Nat
  deriving DecidableEq, Repr

/-- `punx/validate.py:134-143` -/
def findingScore (fs : List Finding) : Score :=
  let (total, count) := scoreLoop 0 0 fs
  if count = 0 then ⟨total, count, 0, 1⟩ else ⟨total, count, total, count⟩

/-- `punx/validate.py:167-168`: all requested statuses with count 0. -/
def summaryInit (sts : List Status) : Dict Status Nat :=
  sts.foldl (fun d s => Dict.set d s 0) []

/-- `punx/validate.py:169-170`: `summary[f.status] += 1` for each finding. -/
def summaryLoop (d : Dict Status Nat) : List Finding → Except PyErr (Dict Status Nat)
  | [] => .ok d
  | f :: fs =>
    match Dict.get? d f.status with
    | none => .error .keyError
    | some n => summaryLoop (Dict.set d f.status (n + 1)) fs

/-- `punx/validate.py:145-171`: `finding_summary(report_statuses)`; an empty
selection means all statuses. -/
def findingSummary (sts : List Status) (fs : List Finding) : Except PyErr (Dict Status Nat) :=
  summaryLoop (summaryInit (if sts = [] then Status.all else sts)) fs

/-- `"%3d" % n` -/
def pad3 (n : Int) : Str :=
  let s := intStr n
  List.replicate (3 - s.length) ' ' ++ s

/-- `punx/validate.py:186-191`: sort key; `None += str` is a `TypeError`. -/
def sortKey (f : Finding) : Except PyErr Str :=
  match f.addr with
  | none => .error .typeError
  | some a =>
    .ok (replaceChar '@' s%" @" (a ++ s%" " ++ pad3 (-f.status.value) ++ s%" " ++
      f.status.description))

/-- Keys of all findings, or the exception raised while computing them. -/
def withKeys : List Finding → Except PyErr (List (Str × Finding))
  | [] => .ok []
  | f :: fs => do
    let k ← sortKey f
    let r ← withKeys fs
    .ok ((k, f) :: r)

/-- Rows of the findings table printed by `print_report(statuses)`
(`punx/validate.py:177, 197-204`).  `statuses` are names; an empty selection means all
names. -/
def reportRows (statuses : List Str) (fs : List Finding) : Except PyErr (List Finding) := do
  let sel := if statuses = [] then Status.all.map Status.key else statuses
  let kfs ← withKeys fs
  .ok (((sortBy (fun a b => strLe a.1 b.1) kfs).map (·.2)).filter
    (fun f => f.status.key ∈ sel))

/-- `punx/validate.py:173-219`: `print_report`: the rows, the summary and the score.
The file name must be text. -/
def printReport (statuses : List Str) (fs : List Finding) :
    Except PyErr (List Finding × Dict Status Nat × Score) := do
  let rows ← reportRows statuses fs
  let summary ← findingSummary [] fs
  .ok (rows, summary, findingScore fs)

end Punx

import Verif.Model.H5

/-!
# Arrays that a tree report shows as a whole
-/

namespace Punx.Spec

/-- The extents of an array that decide what is left out: all of them, of arrays with more than
three dimensions only the first. -/
def extents (shape : List Nat) : List Nat := if shape.length < 4 then shape else shape.take 1

/-- No extent of an array of numbers is larger than `m`. -/
def FitsIn (m : Int) (d : DataInfo) : Prop :=
  d.kind = .other → ∀ shape, d.shape = some shape → ∀ n ∈ extents shape, (n : Int) ≤ m

mutual
/-- All arrays in the object fit. -/
def AllFit (m : Int) : Node → Prop
  | .group _ _ kids => AllFitKids m kids
  | .dataset _ _ d => FitsIn m d
  | .datatype .. => True
/-- All arrays in the members of a group fit. -/
def AllFitKids (m : Int) : Kids → Prop
  | .nil => True
  | .cons _ _ n rest => AllFit m n ∧ AllFitKids m rest
  | .broken _ _ rest => AllFitKids m rest
end

end Punx.Spec

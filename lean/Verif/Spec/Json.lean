import Verif.Model.Json

/-!
# Values that can be written in JSON
-/

namespace Punx.Spec

mutual
/-- The keys of every object in the value are different (as in every Python `dict`). -/
inductive Keyed : JVal → Prop
  | null : Keyed .null
  | bool (b : Bool) : Keyed (.bool b)
  | int (n : Int) : Keyed (.int n)
  | str (s : Str) : Keyed (.str s)
  | arr {l : List JVal} : KeyedItems l → Keyed (.arr l)
  | obj {d : List (Str × JVal)} : (d.map (·.1)).Nodup → KeyedPairs d → Keyed (.obj d)
/-- The same for the items of a list. -/
inductive KeyedItems : List JVal → Prop
  | nil : KeyedItems []
  | cons {v : JVal} {l : List JVal} : Keyed v → KeyedItems l → KeyedItems (v :: l)
/-- The same for the values of an object. -/
inductive KeyedPairs : List (Str × JVal) → Prop
  | nil : KeyedPairs []
  | cons (k : Str) {v : JVal} {d : List (Str × JVal)} : Keyed v → KeyedPairs d → KeyedPairs ((k, v) :: d)
end

/-- A character that every encoding in use stores alike: a line end or a printable ASCII
character. -/
def Plain (c : Char) : Prop := c = '\n' ∨ (32 ≤ c.toNat ∧ c.toNat ≤ 126)

/-- A text, a list or an object: the end of what is written is marked. -/
def Bracketed : JVal → Prop
  | .str _ | .arr _ | .obj _ => True
  | _ => False

end Punx.Spec

import Verif.Spec.Describe

/-!
# Where the summary of a schema takes its parts from (C143)
-/

namespace Punx.Spec
open Punx

/-- `c` is the last child of this kind that is listed under the name `n`. -/
def Found (k : SKind) (o : SObj) (n : Str) (c : SObj) : Prop :=
  LastSuch o c ∧ c.kind = k ∧ ListedAs c n

/-- `c` is the last child listed under the name of the first child of this kind. -/
def FoundFirst (k : SKind) (o : SObj) (c : SObj) : Prop :=
  ∃ pre x post n, o.kids = pre ++ x :: post ∧ x.kind = k ∧ (∀ y ∈ pre, y.kind ≠ k) ∧ ListedAs x n ∧
    Found k o n c

/-- The parts of the summary of the tree `d`: `g` is the first group in it and `gg` the group in `g`. -/
structure PartsOf (d g gg : SObj) (s : Summary) : Prop where
  definition : s.definition = d
  group : FoundFirst .group d g
  inner : Found .element g s%"group" gg
  groupAttributes : s.groupAttributes = gg.attributes
  attr : Found .element g s%"attribute" s.attr
  doc : Found .element g s%"doc" s.doc
  field : Found .element g s%"field" s.field
  link : Found .element g s%"link" s.link
  symbols : FoundFirst .element d s.symbols

/-- The default of the attribute `n` of an object; `none`: there is no such attribute. -/
inductive DefaultOf (o : SObj) (n : Str) : Option DefVal → Prop
  | missing : (∀ c, ¬ Found .attribute o n c) → DefaultOf o n none
  | undeclared {c} : Found .attribute o n c → c.info.default = none → DefaultOf o n (some .none)
  | declared {c t} : Found .attribute o n c → c.info.default = some t → DefaultOf o n (some (.text t))

/-- The names that the first group must have. -/
def wantedNames : List Str := [s%"group", s%"attribute", s%"doc", s%"field", s%"link"]

end Punx.Spec

import Verif.Model.NxdlSchema

/-!
# The simple types that a schema declares
-/

namespace Punx.Spec
open Punx

/-- The children of a node that are elements of XML Schema with this name. -/
def xsKids (tag : Str) : XsNode → List XsNode
  | .comment => []
  | .elem _ _ _ _ kids => kids.filter fun
    | .comment => false
    | .elem true t _ _ _ => decide (t = tag)
    | .elem false _ _ _ _ => false

/-- The value of an XML attribute. -/
def xsAttr (k : Str) : XsNode → Option Str
  | .comment => none
  | .elem _ _ _ a _ => Dict.get? a k

/-- The text after the last colon. -/
def LocalPart (s l : Str) : Prop := ':' ∉ l ∧ (s = l ∨ ∃ p, s = p ++ ':' :: l)

/-- What a simple type declares: the base of its last restriction that has one, without prefix, the
values of the patterns of all its restrictions, and the last of the lengths. -/
def DeclaresSimple (int : Str → Option Int) (n : XsNode) (s : SSimple) : Prop :=
  (match ((xsKids s%"restriction" n).filterMap (xsAttr s%"base")).getLast? with
    | none => s.base = none
    | some b => ∃ l, LocalPart b l ∧ s.base = some l) ∧
  s.patterns.map some =
    ((xsKids s%"restriction" n).flatMap (xsKids s%"pattern")).map (xsAttr s%"value") ∧
  s.maxLength = ((((xsKids s%"restriction" n).flatMap (xsKids s%"maxLength")).filterMap
    (xsAttr s%"value")).filterMap int).getLast?

/-- The schema declares the simple type `k` like this (of several declarations the last). -/
def SimpleDeclared (int : Str → Option Int) (root : XsNode) (k : Option Str) (s : SSimple) : Prop :=
  ∃ before n after, xsKids s%"simpleType" root = before ++ n :: after ∧ xsAttr s%"name" n = k ∧
    (∀ m ∈ after, xsAttr s%"name" m ≠ k) ∧ DeclaresSimple int n s

/-- The name `a` is declared before `k` is for the first time. -/
def SimpleEarlier (root : XsNode) (a k : Option Str) : Prop :=
  a ≠ k ∧ ∃ before n after, xsKids s%"simpleType" root = before ++ n :: after ∧
    xsAttr s%"name" n = a ∧ ∀ m ∈ before, xsAttr s%"name" m ≠ k

end Punx.Spec

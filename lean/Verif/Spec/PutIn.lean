import Verif.Model.NxdlSchema

/-!
# An object of the schema with its types put in
-/

namespace Punx.Spec
open Punx

/-- Pattern and length are those of the type, if that is a simple type. -/
def Restricted (i : SInfo) (r : SRef) (i' : SInfo) : Prop :=
  (∃ s, r = .simple s ∧ i' = { i with patterns := s.patterns, maxLength := s.maxLength }) ∨
    (∃ ks, r = .other ks ∧ i' = i)

/-- The children that come from a type: all but references to the group of all elements. -/
inductive Copied : List SObj → List SObj → Prop
  | nil : Copied [] []
  | skip {c cs ds} : c.kind = .group → c.key = some s%"groupGroup" → Copied cs ds →
      Copied (c :: cs) ds
  | copy {c cs ds} : ¬ (c.kind = .group ∧ c.key = some s%"groupGroup") → Copied cs ds →
      Copied (c :: cs) (c :: ds)

mutual
/-- The second object is the first with its types put in. -/
inductive PutIn (schema : Dict (Option Str) SRef) : SObj → SObj → Prop
  /-- It has no type, or one that is not in the schema: it stays as it is. -/
  | same {o} : (∀ r, (o.key, r) ∉ schema) → PutIn schema o o
  /-- An attribute has no children of its type. -/
  | attr {name k info info' kids r} : Dict.get? schema (some k) = some r → Restricted info r info' →
      PutIn schema (.mk .attribute name (some k) info kids)
        (.mk .attribute name (some (s%"__" ++ k)) info' kids)
  /-- Elements and groups have their own children, then those of the type, all with their types put in. -/
  | parts {kind name k info info' kids kids' more r} : kind ≠ .attribute →
      Dict.get? schema (some k) = some r → Restricted info r info' → Copied r.kids more →
      PutInAll schema (kids ++ more) kids' →
      PutIn schema (.mk kind name (some k) info kids) (.mk kind name (some (s%"__" ++ k)) info' kids')

/-- Each with its types put in. -/
inductive PutInAll (schema : Dict (Option Str) SRef) : List SObj → List SObj → Prop
  | nil : PutInAll schema [] []
  | cons {o o' os os'} : PutIn schema o o' → PutInAll schema os os' →
      PutInAll schema (o :: os) (o' :: os')
end

end Punx.Spec

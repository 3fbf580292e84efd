import Verif.Spec.Showable

/-!
# A member of a group, and the group with this member alone
-/

namespace Punx.Spec

/-- A link `l` of this kind is among the members; it leads to the object, or to none. -/
inductive LinkedFrom (l : Str) (k : LinkKind) : Option Node → Kids → Prop
  | here {n : Node} {r : Kids} : LinkedFrom l k (some n) (.cons l k n r)
  | nowhere {r : Kids} : LinkedFrom l k none (.broken l k r)
  | cons {o : Option Node} {l' : Str} {k' : LinkKind} {n' : Node} {r : Kids} :
      LinkedFrom l k o r → LinkedFrom l k o (.cons l' k' n' r)
  | broken {o : Option Node} {l' : Str} {k' : LinkKind} {r : Kids} :
      LinkedFrom l k o r → LinkedFrom l k o (.broken l' k' r)

/-- This link and nothing else. -/
def onlyLink (l : Str) (k : LinkKind) : Option Node → Kids
  | some n => .cons l k n .nil
  | none => .broken l k .nil

end Punx.Spec

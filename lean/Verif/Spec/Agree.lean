import Verif.Spec.Entry

/-!
# Classes that are single values
-/

namespace Punx.Spec

/-- The value is not an array. -/
def SingleValue : Val → Prop
  | .arrO _ | .arrS _ | .arrNum _ => False
  | _ => True

/-- The classes of the groups in the root are not arrays. -/
def SingleClasses (f : H5File) : Prop :=
  ∀ l n a ks v, (l, some (Node.group n a ks)) ∈ f.kids.toList → a.lookup s%"NX_class" = some v →
    SingleValue v

end Punx.Spec

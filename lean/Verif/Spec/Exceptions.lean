import Verif.Py.Basic

/-!
# The exceptions of the checks
-/

namespace Punx.Spec
open Punx

/-- The kinds of exceptions with which a validation may stop.  None of them is caught by
`punx validate`, so each is shown as a traceback. -/
def Uncaught (e : PyErr) : Prop :=
  e = .keyError ∨ e = .valueError ∨ e = .typeError ∨ e = .attributeError ∨ e = .indexError ∨
  e = .nameError ∨ e = .unicodeDecodeError

instance (e : PyErr) : Decidable (Uncaught e) := by unfold Uncaught; infer_instance

end Punx.Spec

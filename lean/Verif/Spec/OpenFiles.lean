import Verif.Model.Validate

/-!
# Files that are opened and closed
-/

namespace Punx.Spec

/-- `OneAtATime l o`: along `l`, a file is opened only while none is open and closed only while
one is; at the end `o` is open. -/
inductive OneAtATime : List FileEvent → Option Str → Prop
  | nil : OneAtATime [] none
  | opened {l n} : OneAtATime l none → OneAtATime (l ++ [.opened n]) (some n)
  | closed {l n} : OneAtATime l (some n) → OneAtATime (l ++ [.closed]) none

end Punx.Spec

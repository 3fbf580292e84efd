import Verif.Model.Reading
import Verif.Spec.Concurrent
import Verif.Spec.Installed

/-!
# Reading definitions while sets are installed (C114)
-/

namespace Punx.Spec
open Punx

/-- `ls` (`os.listdir`) says what is in a directory, in any order. -/
def NamesAll (ls : Disk → FPath → List Str) (d : Disk) (p : FPath) : Prop :=
  (ls d p).Nodup ∧ ∀ n, n ∈ ls d p ↔ d (p ++ [n]) ≠ none

/-- It does so for the three directories with definitions of a set. -/
def ListsSet (ls : Disk → FPath → List Str) (d : Disk) (name : Str) : Prop :=
  ∀ c, NamesAll ls d [name, categoryDir c]

/-- What is on the disk below the directory of a set. -/
def inSet (d : Disk) (name : Str) : FPath → Option FObj := fun q => d (name :: q)

end Punx.Spec

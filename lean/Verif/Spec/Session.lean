import Verif.Model.Main
import Verif.Spec.Argparse
import Verif.Spec.Concurrent
import Verif.Spec.Installed

/-!
# Sessions: runs of the program one after the other (C120)
-/

namespace Punx.Spec
open Punx

/-- The installations that are made for a list of names: one after the other until one fails. -/
def performed (x : Moment) (update : Bool) (k : Nat) (d : Disk) : List Str → List Use
  | [] => []
  | n :: ns =>
    let u : Use := ⟨x.net k, x.removal k d, x.written k, n, update⟩
    match (u.alone d).res with
    | .ok () => u :: performed x update (k + 1) (applyAll d (u.alone d).ops) ns
    | .error _ => [u]

/-- The installations in one run: those of `punx install`. -/
def runUses (M : Machine) (x : Moment) (d : Disk) (args : List Str) : List Use :=
  match mainCommand M.texts M.source (M.user d) args with
  | .ok (.install names update) => performed x update 0 d names
  | _ => []

/-- The installations in a session. -/
def sessionUses (M : Machine) (d : Disk) : List (Moment × List Str) → List Use
  | [] => []
  | (x, args) :: rest =>
    let us := runUses M x d args
    us ++ sessionUses M (afterUses d us) rest

/-- The shipped cache: its descriptions can be read, have the names of their directories, and there is
at least one set. -/
structure Shipped (source : CacheDir) : Prop where
  readable : Readable source.disk
  names : TrueNames source.disk
  some : ∃ k ∈ source.listing, IsListed source.disk k

/-- The operating system shows the user's cache as it is: all that is in it, and the files of the
set. -/
structure Honest (lx : Lxml) (M : Machine) (d : Disk) (name : Str) : Prop where
  ls : ∀ n, n ∈ M.ls d ↔ d [n] ≠ none
  dir : DirOf lx (fun q => d (name :: q)) (M.dir d (M.userPath ++ '/' :: name))

end Punx.Spec

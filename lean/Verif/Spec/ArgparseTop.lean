import Verif.Spec.Argparse

/-!
# When help or the version is shown: all ways of asking

The statement of `Props/ArgparseTop.lean`.
-/

namespace Punx.Spec

open Punx

/-- No argument before `--` can be read as two options of the parser. -/
def Unambiguous (p : CliParser) (args : List Str) : Prop := ∀ a ∈ beforeDashes args, ¬ Ambiguous p a

/-- Options that the program itself does not have. -/
def Foreign (t : Texts) (us : List Str) : Prop := ∀ u ∈ us, IsUnknown t topParser u

/-- The argument is an option of the program itself, or several of them. -/
def OwnOption (t : Texts) (a : Str) : Prop :=
  ∃ o v qs, Options t topParser a (.option o v :: qs) none

/-- Help is asked for among the arguments of a command, before anything wrong. -/
def AskedOf (t : Texts) (q : CliParser) (args : List Str) : Prop :=
  Unambiguous q args ∧ ∃ pre post ps, args = pre ++ post ∧ Consists t q pre ps ∧ AsksHelp t ps

/-- The ways of asking for help or the version: an option of the program itself, which may have options
before it that do not exist; an option of a command, whose name may be shortened if it is the first
argument, and has to be written out after options that do not exist. -/
inductive ShowsHelp (t : Texts) : List Str → Prop
  | itself {us a post} : Foreign t us → OwnOption t a → Unambiguous topParser (us ++ a :: post) →
      ShowsHelp t (us ++ a :: post)
  | command {c name rest q} : Calls c name → subParser name = some q → Unambiguous topParser rest →
      AskedOf t q rest → ShowsHelp t (c :: rest)
  | later {us name rest q} : us ≠ [] → Foreign t us → subParser name = some q →
      Unambiguous topParser (us ++ name :: rest) → AskedOf t q rest →
      ShowsHelp t (us ++ name :: rest)

end Punx.Spec

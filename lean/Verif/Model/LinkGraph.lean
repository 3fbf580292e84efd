import Verif.Py.Basic

/-!
# Walking a file with shared objects

In HDF5 several links may lead to one object, even to a group that contains the link.
The tree model `Verif.Model.H5` cannot represent the latter; here a file is a store
of objects and only the walk is modelled.
-/

namespace Punx

/-- An HDF5 object: a group with its links in order (`none`: a link that leads
nowhere), or anything else. -/
inductive GObj
  | group (members : List (Option Nat))
  | other
  deriving DecidableEq, Repr, Inhabited

/-- Objects by number. -/
abbrev Store := List GObj

/-- the object with this number -/
def Store.at (g : Store) (i : Nat) : GObj := g[i]?.getD .other

/-- `punx/validate.py:294-298`: the loop over the members of a group.  The result are the
subjects, each given by the numbers of the links followed to it.  `enter` is the
recursive call.  `group[item]` raises `KeyError` for a broken link. -/
def walkMembers (g : Store) (enter : Nat → Except PyErr (List (List Nat))) :
    Nat → List (Option Nat) → Except PyErr (List (List Nat))
  | _, [] => .ok []
  | _, none :: _ => .error .keyError
  | i, some j :: ms =>
    match (match g.at j with
      | .group _ => enter j
      | .other => .ok [[]]) with
    | .error e => .error e
    | .ok here =>
      match walkMembers g enter (i + 1) ms with
      | .error e => .error e
      | .ok rest => .ok (here.map (i :: ·) ++ rest)

/-- `punx/validate.py:270-298`: `_group_address_catalog_`, as far as the walk is
concerned, with the recursion limit of the interpreter. -/
def walk (g : Store) : Nat → Nat → Except PyErr (List (List Nat))
  | 0, _ => .error .recursionError
  | n + 1, v =>
    match g.at v with
    | .other => .ok [[]]
    | .group ms =>
      match walkMembers g (walk g n) 0 ms with
      | .error e => .error e
      | .ok l => .ok ([] :: l)

end Punx

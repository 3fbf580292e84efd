import Verif.Py.Basic

/-!
# The tree report of a file with shared objects

As `Verif.Model.LinkGraph`, for `punx/h5tree.py`.
-/

namespace Punx

/-- An object of the store.  Groups have the text of their attribute `target` (empty if there is
none; other values than text are left out) and links: `none` stands for a soft link, which is
not followed, `some i` for a hard link.  External links are left out. -/
inductive TObj
  | group (target : Str) (links : List (Str × Option Nat))
  | other
  deriving DecidableEq, Repr, Inhabited

/-- Objects by number. -/
abbrev TStore := List TObj

/-- the object with this number -/
def TStore.at (g : TStore) (i : Nat) : TObj := g[i]?.getD .other

/-- `obj.name` of the member `n` of the group that was reached as `p`: HDF5 names an object by
the links through which it was opened (this is an assumption on the library). -/
def memberName (p n : Str) : Str := if p = s%"/" then p ++ n else p ++ s%"/" ++ n

/-- The list `groups` of `_renderGroup` (`punx/h5tree.py:119-170`): members that are groups and
no NeXus links (`punx/utils.py:144-147`), under the names by which they were reached. -/
def subgroups (g : TStore) (path : Str) (links : List (Str × Option Nat)) : List (Str × Nat) :=
  (sortBy (fun a b => strLe a.1 b.1) links).filterMap fun l =>
    match l.2 with
    | none => none
    | some j =>
      match g.at j with
      | .other => none
      | .group target _ =>
        if target ≠ [] ∧ target ≠ memberName path l.1 then none
        else some (memberName path l.1, j)

/-- The loop `punx/h5tree.py:172-174`; `enter` is the recursive call. -/
def showAll (enter : Str → Nat → Except PyErr (List Str)) : List (Str × Nat) → Except PyErr (List Str)
  | [] => .ok []
  | (p, v) :: rest =>
    match enter p v with
    | .error e => .error e
    | .ok here =>
      match showAll enter rest with
      | .error e => .error e
      | .ok l => .ok (here ++ l)

/-- `punx/h5tree.py:90-176`: `_renderGroup`, as far as the order and the names of the groups are
concerned, with the recursion limit of the interpreter.  Only groups are entered. -/
def treeWalk (g : TStore) : Nat → Str → Nat → Except PyErr (List Str)
  | 0, _, _ => .error .recursionError
  | n + 1, path, v =>
    match g.at v with
    | .other => .ok [path]
    | .group _ links =>
      match showAll (treeWalk g n) (subgroups g path links) with
      | .error e => .error e
      | .ok l => .ok (path :: l)

end Punx

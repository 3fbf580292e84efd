import Verif.Model.Describe

/-!
# The printed outline of a schema, and the text of a manager (C131, C132)
-/

namespace Punx.Spec
open Punx

/-- The name under which an object is listed: its name, or its kind in parentheses if it has no name
or an empty one. -/
def ListedAs (o : SObj) (n : Str) : Prop :=
  (o.name = some n ∧ n ≠ []) ∨
    ((o.name = none ∨ o.name = some []) ∧ n = s%"(" ++ o.kind.text ++ s%")")

/-- `c` is in `o`, and no child of the same kind after it is listed under the same name. -/
def LastSuch (o c : SObj) : Prop :=
  ∃ pre post, o.kids = pre ++ c :: post ∧
    ∀ d ∈ post, d.kind = c.kind → ∀ n, ListedAs c n → ¬ ListedAs d n

/-- In the order of their names, none of them twice. -/
def InOrder (l : List SObj) : Prop :=
  l.Pairwise fun a b => ∀ n m, ListedAs a n → ListedAs b m → strLe n m = true ∧ n ≠ m

/-- The children of the given kind that are listed, in their order. -/
def ListedKids (k : SKind) (o : SObj) (l : List SObj) : Prop :=
  InOrder l ∧ ∀ c, c ∈ l ↔ LastSuch o c ∧ c.kind = k

mutual
/-- `Outline l o rows`: an object on the level `l`, followed by its attributes and then by its groups,
with what is in them. -/
inductive Outline : Nat → SObj → List (Nat × SObj) → Prop
  | mk {l o as gs ra rg} : ListedKids .attribute o as → ListedKids .group o gs →
      Outlines (l + 1) as ra → Outlines (l + 1) gs rg → Outline l o ((l, o) :: (ra ++ rg))
/-- The same for several objects. -/
inductive Outlines : Nat → List SObj → List (Nat × SObj) → Prop
  | nil {l} : Outlines l [] []
  | cons {l o os r rs} : Outline l o r → Outlines l os rs → Outlines l (o :: os) (r ++ rs)
end

/-- How many of the rows are of the kind with this name. -/
def ofKind (k : Str) (rows : List (Nat × SObj)) : Nat :=
  (rows.filter fun r => r.2.kind.text = k).length

/-- What is printed and returned for these rows: one line for each, their number, and the number of
those of each kind that occurs. -/
structure Reports (rows : List (Nat × SObj)) (p : Printed) : Prop where
  lines : p.lines = rows.map fun r => r.2.line r.1
  count : p.count = rows.length
  tally : ∀ k n, Dict.get? p.tally k = some n ↔ n = ofKind k rows ∧ 0 < n

/-- The rows of a text: the members that are neither private nor `None`, a list or a dictionary,
sorted by name. -/
structure ShownMembers (ms : Dict Str ObjMember) (rows : List (Str × Str)) : Prop where
  sorted : rows.Pairwise fun a b => strLe a.1 b.1 = true ∧ a.1 ≠ b.1
  content : ∀ n t, (n, t) ∈ rows ↔ Dict.get? ms n = some (.text t) ∧ n.head? ≠ some '_'

/-- How many classes are of a category. -/
def ofCategory (c : Category) (classes : Dict Str ClassDef) : Nat :=
  (classes.filter fun kv => kv.2.category = c).length

/-- The entries for the categories that occur, by name. -/
def categoryEntries (classes : Dict Str ClassDef) : List Str :=
  [(s%"applications", Category.applications), (s%"base_classes", .baseClasses),
   (s%"contributed_definitions", .contributed)].filterMap fun e =>
    if ofCategory e.2 classes = 0 then none
    else some (e.1 ++ ':' :: natStr (ofCategory e.2 classes))

end Punx.Spec

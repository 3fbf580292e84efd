import Verif.Spec.Catalog
import Verif.Model.Validator

/-!
# Specification of the items of a file

The list of the objects and attributes of a file with their addresses, class paths and containers,
as a walk over the tree.  It uses the record `Item` of the model, but none of its functions.
-/

namespace Punx.Spec

/-- The class path of the object `n` in a group with class path `cp`: it is extended by the class of
a group, by the name of anything else.  Below a group without a NeXus class nothing is NeXus
content, and below a class that ends with a slash the class path stays as it is. -/
def classpathIn (env : Env) (cp : Str) (n : Node) : Str :=
  if cp = s%"non-NeXus content" then cp
  else if s%"/" <:+ cp then cp
  else match n with
    | .group _ a _ =>
      match nxClassOf env a with
      | some c => cp ++ '/' :: c
      | none => s%"non-NeXus content"
    | .dataset m _ _ | .datatype m _ => cp ++ '/' :: baseName m

/-- The class that is noted for the object `n` in a group with class path `cp`. -/
def classIn (env : Env) (cp : Str) (n : Node) : Option Str :=
  match n with
  | .group _ a _ =>
    if cp = s%"non-NeXus content" ∨ s%"/" <:+ cp then none else nxClassOf env a
  | _ => none

/-- The object `n`, at the position `pos`, in `c` (and the containers of `c`). -/
def memberItem (env : Env) (c : Item) (pos : List Nat) (n : Node) : Item :=
  { oid := pos, obj := .node n, name := baseName n.name, addr := some n.name,
    classpath := classpathIn env c.classpath n, nxClass := classIn env c.classpath n,
    ancestors := c.toCore :: c.ancestors }

/-- Attribute number `j` of the object `o`.  Outside of NeXus content it has no address. -/
def attributeItem (o : Item) (j : Nat) (ka : Str × Val) : Item :=
  { oid := (2 * j + 1) :: o.oid, obj := .val ka.2, name := ka.1,
    addr := if o.classpath = s%"non-NeXus content" then none
      else o.addr.map (· ++ '@' :: ka.1),
    classpath := if o.classpath = s%"non-NeXus content" then o.classpath
      else o.classpath ++ '@' :: ka.1,
    nxClass := none,
    ancestors := o.toCore :: o.ancestors }

/-- The attributes of the object `o`, counted from `j`. -/
def attributeItems (o : Item) : Nat → List (Str × Val) → List Item
  | _, [] => []
  | j, ka :: rest => attributeItem o j ka :: attributeItems o (j + 1) rest

/-- What is noted as the container of the members of the group `o`: the group itself, but outside
of NeXus content its last attribute, if it has one (C09). -/
def containerOf (o : Item) (attrs : List (Str × Val)) : Item :=
  if o.classpath = s%"non-NeXus content" then
    ((attributeItems o 0 (sortByName attrs)).getLast?).getD o
  else o

mutual
/-- The object at `pos` in `c`, its attributes, and what is below it. -/
def contentsNode (env : Env) (c : Item) (pos : List Nat) : Node → List Item
  | .group n a kids =>
    let o := memberItem env c pos (.group n a kids)
    o :: (attributeItems o 0 (sortByName a) ++ contentsKids env (containerOf o a) pos 0 kids)
  | .dataset n a d =>
    let o := memberItem env c pos (.dataset n a d)
    o :: attributeItems o 0 (sortByName a)
  | .datatype n a =>
    let o := memberItem env c pos (.datatype n a)
    o :: attributeItems o 0 (sortByName a)
/-- The members of the group at `pos`, counted from `i`. -/
def contentsKids (env : Env) (c : Item) (pos : List Nat) : Nat → Kids → List Item
  | _, .nil => []
  | i, .cons _ _ n rest =>
    contentsNode env c ((2 * i + 2) :: pos) n ++ contentsKids env c pos (i + 1) rest
  | i, .broken _ _ rest => contentsKids env c pos (i + 1) rest
end

/-- The root of the file. -/
def rootOf (f : H5File) : Item :=
  { oid := [], obj := .file f, name := s%"/", addr := some s%"/", classpath := [], nxClass := none,
    ancestors := [] }

/-- The objects and attributes of a file. -/
def contents (env : Env) (f : H5File) : List Item :=
  rootOf f :: (attributeItems (rootOf f) 0 (sortByName f.attrs) ++
    contentsKids env (rootOf f) [] 0 f.kids)

end Punx.Spec

import Verif.Model.Utils

/-!
# Specification vocabulary for the content of a file

Walks over the tree of a file, written without the catalogue code of the model.
`sortByName` stands for Python's `sorted` on attribute names.
-/

namespace Punx.Spec

/-- The text after the last `/`. -/
def baseName (n : Str) : Str := (n.reverse.takeWhile (· ≠ '/')).reverse

/-- Attributes in alphabetical order of their names. -/
def sortByName (attrs : List (Str × Val)) : List (Str × Val) :=
  sortBy (fun a b => strLe a.1 b.1) attrs

mutual
/-- Every object of a subtree satisfies `P`. -/
def AllNodes (P : Node → Prop) : Node → Prop
  | .group n a kids => P (.group n a kids) ∧ AllKids P kids
  | .dataset n a d => P (.dataset n a d)
  | .datatype n a => P (.datatype n a)
/-- Every object below a group satisfies `P`. -/
def AllKids (P : Node → Prop) : Kids → Prop
  | .nil => True
  | .cons _ _ n rest => AllNodes P n ∧ AllKids P rest
  | .broken _ _ rest => AllKids P rest
end

mutual
/-- No broken link in a subtree. -/
def Intact : Node → Prop
  | .group _ _ kids => IntactKids kids
  | _ => True
/-- No broken link below a group. -/
def IntactKids : Kids → Prop
  | .nil => True
  | .cons _ _ n rest => Intact n ∧ IntactKids rest
  | .broken _ _ _ => False
end

mutual
/-- Number of objects in a subtree, counting every link. -/
def objects : Node → Nat
  | .group _ _ kids => 1 + objectsKids kids
  | _ => 1
def objectsKids : Kids → Nat
  | .nil => 0
  | .cons _ _ n rest => objects n + objectsKids rest
  | .broken _ _ rest => objectsKids rest
end

mutual
/-- Number of attributes in a subtree. -/
def attributes : Node → Nat
  | .group _ a kids => a.length + attributesKids kids
  | .dataset _ a _ => a.length
  | .datatype _ a => a.length
def attributesKids : Kids → Nat
  | .nil => 0
  | .cons _ _ n rest => attributes n + attributesKids rest
  | .broken _ _ rest => attributesKids rest
end

/-- A step of the expected visit: where (positions from the object up to the root: member
`i` is `2i+2`, attribute `j` is `2j+1`), what, and under which name. -/
abbrev Visit := List Nat × H5Obj × Str

/-- Visits of the attributes of the object at `pos`. -/
def visitAttrs (pos : List Nat) (j : Nat) : List (Str × Val) → List Visit
  | [] => []
  | (k, a) :: rest => ((2 * j + 1) :: pos, .val a, k) :: visitAttrs pos (j + 1) rest

/-- The name of an object is the last component of its path, except for "/". -/
def shortName (n : Str) : Str := if n = s%"/" then s%"/" else baseName n

mutual
/-- The expected visit of a subtree: the object, its attributes, its members. -/
def visitNode (pos : List Nat) : Node → List Visit
  | .group n a kids =>
    (pos, .node (.group n a kids), shortName n) :: visitAttrs pos 0 (sortByName a) ++
      visitKids pos 0 kids
  | .dataset n a d =>
    (pos, .node (.dataset n a d), shortName n) :: visitAttrs pos 0 (sortByName a)
  | .datatype n a =>
    (pos, .node (.datatype n a), shortName n) :: visitAttrs pos 0 (sortByName a)
/-- The expected visit of the members of a group, in file order. -/
def visitKids (pos : List Nat) : Nat → Kids → List Visit
  | _, .nil => []
  | i, .cons _ _ n rest => visitNode ((2 * i + 2) :: pos) n ++ visitKids pos (i + 1) rest
  | i, .broken _ _ rest => visitKids pos (i + 1) rest
end

/-- The expected visit of a file. -/
def visitFile (f : H5File) : List Visit :=
  ([], .file f, s%"/") :: visitAttrs [] 0 (sortByName f.attrs) ++ visitKids [] 0 f.kids

/-- A NeXus class path: the classes from the root, ending with a field name for a field;
`none` for content that is not NeXus. -/
abbrev CP := Option (List Str)

/-- The text of a class path. -/
def CP.text : CP → Str
  | none => s%"non-NeXus content"
  | some cs => cs.flatMap (fun c => '/' :: c)

/-- The NeXus class of a group: its `NX_class`, if that is text starting with "NX". -/
def nxClassOf (env : Env) (attrs : List (Str × Val)) : Option Str :=
  match attrs.lookup s%"NX_class" with
  | some (.str c) => if s%"NX" <+: c then some c else none
  | some (.bytes b) =>
    match env.dec b with
    | some c => if s%"NX" <+: c then some c else none
    | none => none
  | _ => none

/-- Class path of an object below a group with class path `cp`. -/
def CP.below (env : Env) (cp : CP) : Node → CP
  | .group _ a _ =>
    match cp, nxClassOf env a with
    | some cs, some c => some (cs ++ [c])
    | _, _ => none
  | .dataset n _ _ => cp.map (· ++ [baseName n])
  | .datatype n _ => cp.map (· ++ [baseName n])

/-- What is expected of a catalogued item: object, address and class path. -/
abbrev Entry := H5Obj × Option Str × Str

/-- Expected entries of the attributes of the object called `n` with class path `cp`. -/
def attrEntries (n : Str) (cp : CP) (attrs : List (Str × Val)) : List Entry :=
  attrs.map (fun ka =>
    match cp with
    | none => (.val ka.2, none, CP.text none)
    | some cs => (.val ka.2, some (n ++ '@' :: ka.1), CP.text (some cs) ++ '@' :: ka.1))

mutual
/-- Expected entries of a subtree below a group with class path `cp`. -/
def entriesNode (env : Env) (cp : CP) : Node → List Entry
  | .group n a kids =>
    let cp' := CP.below env cp (.group n a kids)
    (.node (.group n a kids), some n, cp'.text) :: attrEntries n cp' (sortByName a) ++
      entriesKids env cp' kids
  | .dataset n a d =>
    let cp' := CP.below env cp (.dataset n a d)
    (.node (.dataset n a d), some n, cp'.text) :: attrEntries n cp' (sortByName a)
  | .datatype n a =>
    let cp' := CP.below env cp (.datatype n a)
    (.node (.datatype n a), some n, cp'.text) :: attrEntries n cp' (sortByName a)
def entriesKids (env : Env) (cp : CP) : Kids → List Entry
  | .nil => []
  | .cons _ _ n rest => entriesNode env cp n ++ entriesKids env cp rest
  | .broken _ _ rest => entriesKids env cp rest
end

/-- Expected entries of a file. -/
def entriesFile (env : Env) (f : H5File) : List Entry :=
  (.file f, some s%"/", []) :: attrEntries s%"/" (some []) (sortByName f.attrs) ++
    entriesKids env (some []) f.kids

/-- Objects for which the class path is the documented one: not the root group of another
file, and not a group whose `NX_class` ends with a slash. -/
def PlainNode (env : Env) (n : Node) : Prop :=
  n.name ≠ s%"/" ∧ ∀ c, nxClassOf env n.attrs = some c → ¬ s%"/" <:+ c

/-- Can `obj.attrs["target"]` be read as a link target? -/
def targetReadable (env : Env) : Option Val → Prop
  | none => True
  | some (.str _) => True
  | some (.bytes b) => (env.dec b).isSome
  | some (.arrO xs) => xs ≠ []
  | some (.arrS xs) => xs ≠ [] ∧ ∀ x ∈ xs, ∀ b ∈ x, b.toNat < 128
  | some (.arrNum xs) => xs.length ≤ 1
  | some (.list _) => True
  | some (.int _) | some (.num _) | some .none | some .empty => False

/-- Can `obj.attrs["NX_class"]` be decoded? -/
def classReadable (env : Env) : Option Val → Prop
  | some (.bytes b) => (env.dec b).isSome
  | some (.arrS xs) => ∀ x ∈ xs, ∀ b ∈ x, b.toNat < 128
  | _ => True

/-- Groups and datasets have a readable target (other objects are not examined). -/
def NodeTargetOk (env : Env) : Node → Prop
  | .datatype .. => True
  | n => targetReadable env (n.attrs.lookup s%"target")

/-- Groups have a readable class. -/
def NodeClassOk (env : Env) : Node → Prop
  | .group _ a _ => classReadable env (a.lookup s%"NX_class")
  | _ => True

mutual
/-- h5py reports the path as name, names have neither `/` nor `@`, and the members of a
group and the attributes of an object have different names. -/
def WellNamed (path : Str) : Node → Prop
  | .group n a kids => n = path ∧ (a.map (·.1)).Nodup ∧ (kids.toList.map (·.1)).Nodup ∧
      WellNamedKids path kids
  | .dataset n a _ => n = path ∧ (a.map (·.1)).Nodup
  | .datatype n a => n = path ∧ (a.map (·.1)).Nodup
def WellNamedKids (path : Str) : Kids → Prop
  | .nil => True
  | .cons l _ n rest => l ≠ [] ∧ '/' ∉ l ∧ '@' ∉ l ∧ WellNamed (path ++ '/' :: l) n ∧
      WellNamedKids path rest
  | .broken _ _ rest => WellNamedKids path rest
end

/-- `WellNamed` for a whole file. -/
def WellNamedFile (f : H5File) : Prop :=
  (f.attrs.map (·.1)).Nodup ∧ (f.kids.toList.map (·.1)).Nodup ∧ WellNamedKids [] f.kids

end Punx.Spec

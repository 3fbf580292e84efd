import Verif.Py.Basic

/-!
# HDF5 files as seen through h5py

Trusted description of the h5py objects that punx reads.
-/

namespace Punx

/-- Values of HDF5 attributes and datasets as h5py/numpy/Python objects.
Simplification: arrays are one dimensional; object arrays hold `str`. -/
inductive Val
  | str (s : Str)                  -- `str`
  | bytes (b : List UInt8)         -- `bytes`, `numpy.bytes_`
  | int (n : Int)                  -- integer scalar
  | num (repr : Str)               -- any other scalar, with its `str()`
  | arrO (xs : List Str)           -- `ndarray`, dtype kind 'O'
  | arrS (xs : List (List UInt8))  -- `ndarray`, dtype kind 'S'
  | arrNum (reprs : List Str)      -- `ndarray` of numbers
  | list (xs : List Str)           -- Python `list` of `str`
  | none                           -- `None`
  | empty                          -- `h5py.Empty`
  deriving DecidableEq, Repr, Inhabited

/-- Kind of a link stored in a group (`group.get(name, getlink=True)`). -/
inductive LinkKind
  | hard
  | soft (path : Str)
  | external (file path : Str) (fileExists : Bool)
  deriving DecidableEq, Repr, Inhabited

/-- dtype kinds that punx distinguishes. -/
inductive DKind
  | S | O | other
  deriving DecidableEq, Repr, Inhabited

/-- A dataset's content: what the code reads from it. -/
structure DataInfo where
  /-- `dset[()]` -/
  value : Val
  /-- `dset.dtype.kind` -/
  kind : DKind
  /-- `str(dset.dtype)` -/
  dtype : Str
  /-- `dset.shape`; `none` for a null dataspace -/
  shape : Option (List Nat)
  /-- `[o.dtype.itemsize for o in dset]` (fixed length strings) -/
  itemsizes : List Nat
  /-- `str(dset[()])` -/
  text : Str
  /-- `repr` of the element at an index -/
  cell : List Nat → Str
  /-- `str(dset[0])` -/
  first : Str

/-- A scalar dataset (used in examples). -/
def DataInfo.ofVal (v : Val) : DataInfo :=
  ⟨v, .other, s%"int64", some [], [], [], fun _ => [], []⟩

mutual
/-- Objects in a file.  `name` is what h5py reports as `obj.name`; it is data,
since for external links it is the path inside the other file.  An object with
several hard links occurs once per link; cyclic files are not trees and are
treated in `Verif.Model.LinkGraph`. -/
inductive Node
  | dataset (name : Str) (attrs : List (Str × Val)) (data : DataInfo)
  | datatype (name : Str) (attrs : List (Str × Val))
  | group (name : Str) (attrs : List (Str × Val)) (kids : Kids)
/-- The links of a group, in iteration order: resolved or broken. -/
inductive Kids
  | nil
  | cons (link : Str) (kind : LinkKind) (node : Node) (rest : Kids)
  | broken (link : Str) (kind : LinkKind) (rest : Kids)
end

instance : Inhabited Kids := ⟨.nil⟩
instance : Inhabited Node := ⟨.datatype [] []⟩

/-- An open HDF5 file: the root group (`h5py.File`, its name is "/"). -/
structure H5File where
  attrs : List (Str × Val)
  kids : Kids

namespace Node
/-- `obj.name` -/
def name : Node → Str
  | dataset n _ _ => n
  | datatype n _ => n
  | group n _ _ => n
/-- `obj.attrs` -/
def attrs : Node → List (Str × Val)
  | dataset _ a _ => a
  | datatype _ a => a
  | group _ a _ => a
end Node

namespace Kids

/-- Links of a group as a list: link name and object, `none` if broken. -/
def toList : Kids → List (Str × Option Node)
  | nil => []
  | cons l _ n rest => (l, some n) :: toList rest
  | broken l _ rest => (l, Option.none) :: toList rest

/-- The link called `l`: `none` if there is none, `some none` if it is broken. -/
def find (l : Str) (ks : Kids) : Option (Option Node) := ks.toList.lookup l

end Kids

/-- The components of an HDF5 path name: empty components and "." are skipped by
the HDF5 library. -/
def pathParts (p : Str) : List Str :=
  (split '/' p).filter (fun c => c ≠ [] ∧ c ≠ s%".")

/-- Follow the components of a path from a group.  `none`: it does not resolve. -/
def resolve (start : Node) : List Str → Option Node
  | [] => some start
  | c :: cs =>
    match start with
    | .group _ _ kids =>
      match kids.find c with
      | some (some n) => resolve n cs
      | _ => none
    | _ => none

/-- Does the path exist as a link (the last link may be broken, as in h5py's
`Group.__contains__`)? -/
def linkExists (start : Node) : List Str → Bool
  | [] => true
  | [c] =>
    match start with
    | .group _ _ kids => (kids.find c).isSome
    | _ => false
  | c :: d :: cs =>
    match start with
    | .group _ _ kids =>
      match kids.find c with
      | some (some n) => linkExists n (d :: cs)
      | _ => false
    | _ => false

/-- The root of a file as group object. -/
def H5File.root (f : H5File) : Node := .group s%"/" f.attrs f.kids

/-- An absolute path starts at the root of the file, others at the group. -/
def startNode (f : H5File) (here : Node) (p : Str) : Node :=
  if startsWith p s%"/" then f.root else here

/-- Is "." the last component of the path? -/
def endsInDot (p : Str) : Bool := ((split '/' p).filter (· ≠ [])).getLast? == some s%"."

/-- Does the path, from `start`, lead to a group? -/
def groupThere (start : Node) (parts : List Str) : Bool :=
  match resolve start parts with
  | some (.group ..) => true
  | _ => false

/-- `path in group` (h5py `Group.__contains__` for `str`): the empty name is not
contained; if the path ends with ".", h5py looks whether there is a group. -/
def h5contains (f : H5File) (here : Node) (p : Str) : Bool :=
  if p = [] then false
  else if endsInDot p then groupThere (startNode f here p) (pathParts p)
  else linkExists (startNode f here p) (pathParts p)

/-- `group.get(path)` (h5py `Group.get`): `None` if the path does not resolve;
the empty name is refused by HDF5 with `ValueError`. -/
def h5get (f : H5File) (here : Node) (p : Str) : Except PyErr (Option Node) :=
  if p = [] then .error .valueError else .ok (resolve (startNode f here p) (pathParts p))

/-- `obj.attrs.get(k)` -/
def attrGet (attrs : List (Str × Val)) (k : Str) : Option Val := attrs.lookup k

/-- Python objects stored as `ValidationItem.h5_object`. -/
inductive H5Obj
  | file (f : H5File)
  | node (n : Node)
  | val (v : Val)
  | none                 -- `None`

namespace H5Obj

/-- The group node behind a `File` or `Group`, `none` for anything else. -/
def asGroup : H5Obj → Option Node
  | file f => some f.root
  | node (.group n a k) => some (.group n a k)
  | _ => Option.none

/-- `obj.attrs` : `none` if the object has no such attribute. -/
def attrs? : H5Obj → Option (List (Str × Val))
  | file f => some f.attrs
  | node n => some n.attrs
  | _ => Option.none

/-- `obj.name` : `none` if the object has no such attribute. -/
def name? : H5Obj → Option Str
  | file _ => some s%"/"
  | node n => some n.name
  | _ => Option.none

end H5Obj
end Punx

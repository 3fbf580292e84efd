import Verif.Model.Utils
import Verif.Model.Nxdl
import Verif.Model.Finding

/-!
# `punx/validate.py`: validation items and the address catalogue
-/

namespace Punx

/-- `CLASSPATH_OF_NON_NEXUS_CONTENT`, `punx/validate.py:46`. -/
def nonNeXus : Str := s%"non-NeXus content"

/-- The data of one `ValidationItem`. -/
structure Core where
  /-- identity of the Python object: position in the traversal -/
  oid : List Nat
  obj : H5Obj
  name : Str
  addr : Option Str
  classpath : Str
  /-- attribute `nx_class`, only set for NeXus groups (`:488`) -/
  nxClass : Option Str

/-- `punx/validate.py:393-417`: `ValidationItem`; the `parent` is the first of the
`ancestors`, if any.  (The parent link never changes, so the chain is stored.) -/
structure Item extends Core where
  ancestors : List Core

namespace Item
/-- `v_item.parent` -/
def parent (it : Item) : Option Item :=
  match it.ancestors with
  | [] => none
  | c :: cs => some ⟨c, cs⟩

/-- The chain of items starting with this one. -/
def chain (it : Item) : List Core := it.toCore :: it.ancestors
end Item

/-- `punx/validate.py:446-504`: `determine_NeXus_classpath`.  Result: class path
and the attribute `nx_class` if it is set.  `isGroup` is `isHdf5Group(h5_object)`. -/
def determineClasspath (env : Env) (parent : Option Item) (isGroup : Bool) (name : Str)
    (attrs : List (Str × Val)) : Except PyErr (Str × Option Str) :=
  if name = s%"/" then .ok ([], none)
  else
    match parent with
    | none => .error .attributeError        -- `None.classpath`
    | some p =>
      if p.classpath = nonNeXus then .ok (nonNeXus, none)
      else if endsWith p.classpath s%"/" then .ok (p.classpath, none)
      else if isGroup then do
        let nx ← decodeByteString env ((attrGet attrs s%"NX_class").getD .none)
        match nx with
        | .str c =>
          if startsWith c s%"NX" then .ok (p.classpath ++ s%"/" ++ c, some c)
          else .ok (nonNeXus, none)
        | _ => .ok (nonNeXus, none)
      else .ok (p.classpath ++ s%"/" ++ name, none)

/-- `punx/validate.py:404-407`: `name` of an item for an h5py object. -/
def objName (n : Str) : Str := if n = s%"/" then s%"/" else lastComp '/' n

/-- `punx/validate.py:430-444`: `identify_object_type` only matters when it raises:
`isNeXusLink` is evaluated for files, groups and datasets. -/
def objectTypeCheck (env : Env) : H5Obj → Except PyErr Unit
  | .file f => do let _ ← isNeXusLink env f.attrs s%"/"; .ok ()
  | .node (.datatype ..) => .ok ()
  | .node n => do let _ ← isNeXusLink env n.attrs n.name; .ok ()
  | _ => .ok ()

/-- `punx/validate.py:397-417`: `ValidationItem(parent, obj, attribute_name)`.
For an object without `name` the `attribute_name` is formatted with `%s`, so `None`
becomes the text "None". -/
def mkItem (env : Env) (parent : Option Item) (obj : H5Obj) (attrName : Option Str)
    (oid : List Nat) : Except PyErr Item :=
  match obj.name? with
  | some n => do
    let attrs := obj.attrs?.getD []
    let (cp, nx) ← determineClasspath env parent (isHdf5Group obj) (objName n) attrs
    objectTypeCheck env obj
    .ok ⟨⟨oid, obj, objName n, some n, cp, nx⟩,
      (parent.map Item.chain).getD []⟩
  | none =>
    match parent with
    | none => .error .attributeError          -- `parent.classpath` of `None`
    | some p =>
      let nm := attrName.getD s%"None"
      if p.classpath = nonNeXus then
        .ok ⟨⟨oid, obj, nm, none, nonNeXus, none⟩, p.chain⟩
      else
        .ok ⟨⟨oid, obj, nm, some ((p.addr.getD s%"None") ++ s%"@" ++ nm),
          p.classpath ++ s%"@" ++ nm, none⟩, p.chain⟩

/-- `sorted(o.attrs.items())`: attribute names are unique, so the values are never
compared. -/
def sortAttrs (attrs : List (Str × Val)) : List (Str × Val) :=
  sortBy (fun a b => strLe a.1 b.1) attrs

/-- Loop of `punx/validate.py:286-289` over the sorted attributes. -/
def attrItems (env : Env) (v : Item) : Nat → List (Str × Val) → W Item (List Item)
  | _, [] => pure []
  | j, (k, a) :: rest => do
    let av ← W.lift (mkItem env (some v) (.val a) (some k) ((2 * j + 1) :: v.oid))
    W.tell av
    let avs ← attrItems env v (j + 1) rest
    pure (av :: avs)

/-- `punx/validate.py:281-290`: `get_subject`; emits the items in the order in which
they are put into `addresses` and `classpaths`; returns the item and the items of
its attributes. -/
def getSubject (env : Env) (parent : Option Item) (obj : H5Obj) (attrs : List (Str × Val))
    (oid : List Nat) : W Item (Item × List Item) := do
  let v ← W.lift (mkItem env parent obj none oid)
  W.tell v
  let avs ← attrItems env v 0 (sortAttrs attrs)
  pure (v, avs)

/-- `punx/validate.py:293`: `self.classpaths[obj.classpath][-1]` right after
`get_subject`: the most recent item with the class path of `obj`.  The items just
emitted are `v` and its attributes, so it is found among them. -/
def childParent (v : Item) (avs : List Item) : Item :=
  (avs.filter (fun a => a.classpath = v.classpath)).getLast?.getD v

mutual
/-- `punx/validate.py:292-298` for one member of a group: groups are entered,
other objects are subjects. -/
def catalogNode (env : Env) (parent : Item) (oid : List Nat) : Node → W Item Unit
  | .group n a kids => do
    let (v, avs) ← getSubject env (some parent) (.node (.group n a kids)) a oid
    catalogKids env (childParent v avs) oid 0 kids
  | .dataset n a d => do
    let _ ← getSubject env (some parent) (.node (.dataset n a d)) a oid
    pure ()
  | .datatype n a => do
    let _ ← getSubject env (some parent) (.node (.datatype n a)) a oid
    pure ()
/-- `punx/validate.py:294-298`: loop over the members of a group; `group[item]` of a
broken link raises `KeyError`. -/
def catalogKids (env : Env) (parent : Item) (oid : List Nat) : Nat → Kids → W Item Unit
  | _, .nil => pure ()
  | i, .cons _ _ n rest => do
    catalogNode env parent ((2 * i + 2) :: oid) n
    catalogKids env parent oid (i + 1) rest
  | _, .broken _ _ _ => W.fail .keyError
end

/-- `punx/validate.py:264-268`: `build_address_catalog`. -/
def catalog (env : Env) (f : H5File) : W Item Unit := do
  let (v, avs) ← getSubject env none (.file f) f.attrs []
  catalogKids env (childParent v avs) [] 0 f.kids

/-- `validator.addresses` after the items were emitted (`:283, :288`). -/
def addressTable (items : List Item) : Dict (Option Str) Item :=
  items.foldl (fun d it => Dict.set d it.addr it) []

/-- `punx/validate.py:275-278`: `addClasspath` -/
def addClasspath (d : Dict Str (List Item)) (it : Item) : Dict Str (List Item) :=
  Dict.set d it.classpath ((Dict.get? d it.classpath).getD [] ++ [it])

/-- `validator.classpaths` after the items were emitted. -/
def classpathTable (items : List Item) : Dict Str (List Item) :=
  items.foldl addClasspath []

/-- Observable effects of the validation code. -/
inductive Eff
  /-- finding appended to `validator.validations` and stored in
  `v_item.validations[key]` of the item with this identity -/
  | found (oid : List Nat) (key : Str) (f : Finding)
  /-- `group_object.minOccurs = n` for a group of a class
  (`punx/validations/base_class_items_in_hdf5_group.py:55`) -/
  | setMin (cls grp : Str) (n : Int)
  deriving DecidableEq, Repr

/-- `punx/validate.py:117-124`: `record_finding`. -/
def record (it : Item) (key : Str) (status : Status) (comment : Str) : W Eff Unit :=
  W.tell (.found it.oid key ⟨it.addr, key, status, comment⟩)

/-- The validator while it checks a catalogued file. -/
structure Ctx where
  env : Env
  mgr : Manager
  file : H5File
  /-- `validator.addresses` -/
  addresses : Dict (Option Str) Item
  /-- `validator.classpaths` -/
  classpaths : Dict Str (List Item)
  /-- `group_object.minOccurs` of the definitions when the validation started -/
  minOccurs : Dict (Str × Str) Int

end Punx

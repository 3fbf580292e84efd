import Verif.Model.NxdlSchema

/-!
# The description of `nxdl.xsd`: `punx/schema_manager.py`

Elements outside of annotations are of the namespace of XML Schema, bound to the prefix `xs`:
`lxml.etree.XMLSchema` (line 117), whose verdict is the parameter `valid`, refuses all others.
Names have no quotes (line 282).  `schema_types` (lines 399-400), a copy of
the shared children made when a schema manager is created, is not modelled.
-/

namespace Punx

/-! ## computations that raise exceptions and change shared objects -/

/-- Changes made before an exception stay. -/
def Mut (σ α : Type) : Type := σ → Except PyErr α × σ

namespace Mut
variable {σ α : Type}

instance : Monad (Mut σ) where
  pure a := fun s => (.ok a, s)
  bind m f := fun s => match m s with
    | (.ok a, s') => f a s'
    | (.error e, s') => (.error e, s')

def fail (e : PyErr) : Mut σ α := fun s => (.error e, s)

def lift (x : Except PyErr α) : Mut σ α := fun s => (x, s)

/-- A loop that changes an object of its own. -/
def fold {β : Type} (f : α → β → Mut σ α) : List β → α → Mut σ α
  | [], a => pure a
  | b :: bs, a => do
    let a' ← f a b
    fold f bs a'
end Mut

/-! ## the objects -/

/-- `default_value` of an attribute. -/
inductive MDefault
  | none | text (s : Str) | flag (b : Bool)
  deriving DecidableEq, Repr

/-- `punx/schema_manager.py:418-468`: `Schema_Attribute`. -/
structure MAttr where
  name : Option Str
  required : Bool
  type : Str
  default : MDefault
  enum : List Str
  patterns : List Str
  deriving DecidableEq, Repr

/-- `punx/schema_manager.py:473-522, 593-602`: `Schema_Element` and `_Recursion`. -/
inductive MElem
  | recursion
  | mk (name type : Option Str) (attrs : List (Option Str × MAttr))
      (children : List (Option Str × MElem))

namespace MElem
def attrs : MElem → Dict (Option Str) MAttr
  | recursion => []
  | mk _ _ a _ => a
def children : MElem → Dict (Option Str) MElem
  | recursion => []
  | mk _ _ _ c => c
end MElem

/-- `attrs` and `children` of a type or an element. -/
structure Parts where
  attrs : Dict (Option Str) MAttr := []
  children : Dict (Option Str) MElem := []

/-- `target[k] = v` for all entries. -/
def Dict.putAll {κ β : Type} [DecidableEq κ] (d target : Dict κ β) : Dict κ β :=
  d.foldl (fun t kv => Dict.set t kv.1 kv.2) target

/-- `punx/schema_manager.py:290-299`: `copy_to`. -/
def Parts.copyTo (p target : Parts) : Parts :=
  ⟨Dict.putAll p.attrs target.attrs, Dict.putAll p.children target.children⟩

/-- `punx/schema_manager.py:269-288`: `get_named_node` with the tag `*`. -/
def namedNode (root : XsNode) (k : Str) : Except PyErr XsNode :=
  match root.kids.filter (fun n => match n with
      | .elem true _ _ a _ => Dict.get? a s%"name" = some k
      | _ => false) with
  | [n] => .ok n
  | _ => .error .valueError

/-- `value` of the nodes `xs:simpleType/xs:restriction/xs:tag` (lines 447-459). -/
def facetValues (n : XsNode) (tag : Str) : List Str :=
  (((n.select s%"simpleType").flatMap (·.select s%"restriction")).flatMap (·.select tag)).filterMap
    fun m => Dict.get? m.attrib s%"value"

/-- `text.lower() in ("true", "y", 1)` (line 443): other letters than those of these words have no
lower case in them. -/
def isYes (s : Str) : Bool :=
  s.map Char.toLower = s%"true" || s.map Char.toLower = s%"y"

/-- `punx/schema_manager.py:429-459`: `Schema_Attribute.__init__`. -/
def readAttr (n : XsNode) : Except PyErr MAttr := do
  let type := (Dict.get? n.attrib s%"type").getD s%"str"
  let dflt ← if type = s%"nx:NX_BOOLEAN" then
      match Dict.get? n.attrib s%"default" with
      | none => .error .attributeError
      | some d => .ok (.flag (isYes d))
    else match Dict.get? n.attrib s%"default" with
      | none => .ok MDefault.none
      | some d => .ok (.text d)
  .ok ⟨Dict.get? n.attrib s%"name", Dict.get? n.attrib s%"use" = some s%"required", type, dflt,
    facetValues n s%"enumeration", facetValues n s%"pattern"⟩

/-- `punx/schema_manager.py:301-304`: `parse_attribute`. -/
def addAttr (p : Parts) (n : XsNode) : Except PyErr Parts :=
  (readAttr n).map fun a => { p with attrs := Dict.set p.attrs a.name a }

/-! ## elements and types

`ty` stands for `Schema_Type(ref)`; the state is `_GroupParsing().started`. -/

/-- `punx/schema_manager.py:496-506`: the children of an element without `type`. -/
def inlineAttrs : List XsNode → Dict (Option Str) MAttr →
    Except PyErr (Dict (Option Str) MAttr)
  | [], d => .ok d
  | .comment :: _, _ => .error .attributeError
  | n :: ns, d =>
    if n.isXs s%"complexType" then
      match n.select s%"attribute" with
      | [] => .error .assertionError
      | a :: _ => do
        let o ← readAttr a
        inlineAttrs ns (Dict.set d o.name o)
    else if n.isXs s%"annotation" then inlineAttrs ns d
    else .error .valueError

/-- `punx/schema_manager.py:520-522`: an element with the parts of its type. -/
def typedElem (ty : Option Str → Mut Bool Parts) (name ref : Str) : Mut Bool MElem := do
  let p ← ty (some ref)
  pure (.mk (some name) (some ref) (p.copyTo {}).attrs (p.copyTo {}).children)

/-- `punx/schema_manager.py:508-522`: the first group element is read, others are not. -/
def groupElem (ty : Option Str → Mut Bool Parts) (name ref : Str) : Mut Bool MElem := fun started =>
  if started then (.ok (.mk (some name) (some ref) [] [(some s%"group", .recursion)]), true)
  else typedElem ty name ref true

/-- `punx/schema_manager.py:487-522`: `Schema_Element.__init__`. -/
def readElem (ty : Option Str → Mut Bool Parts) (n : XsNode) : Mut Bool MElem :=
  match Dict.get? n.attrib s%"type", Dict.get? n.attrib s%"name" with
  | none, name => do
    let d ← Mut.lift (inlineAttrs n.kids [])
    pure (.mk name none d [])
  | some _, none => Mut.fail .keyError
  | some ref, some x =>
    if x = s%"group" ∧ ref = s%"nx:groupType" then groupElem ty x ref else typedElem ty x ref

/-- `punx/schema_manager.py:568-581`: one turn of `parse_sequence`. -/
def readSeqItem (ty : Option Str → Mut Bool Parts) (p : Parts) (n : XsNode) : Mut Bool Parts :=
  match n with
  | .comment => Mut.fail .attributeError
  | .elem .. =>
    if n.isXs s%"element" || n.isXs s%"group" then do
      let o ← readElem ty n
      pure { p with children := Dict.set p.children (Dict.get? n.attrib s%"name") o }
    else if n.isXs s%"any" then pure p
    else Mut.fail .valueError

/-- `punx/schema_manager.py:321-330`: one child of an extension. -/
def readExtItem (ty : Option Str → Mut Bool Parts) (p : Parts) (n : XsNode) : Mut Bool Parts :=
  match n with
  | .comment => Mut.fail .attributeError
  | .elem .. =>
    if n.isXs s%"annotation" then pure p
    else if n.isXs s%"attribute" then Mut.lift (addAttr p n)
    else if n.isXs s%"sequence" then Mut.fold (readSeqItem ty) n.kids p
    else Mut.fail .valueError

/-- `punx/schema_manager.py:311-333`: one child of a `complexContent`.  The base is looked up in
a text, not in a tuple. -/
def readContentItem (ty : Option Str → Mut Bool Parts) (p : Parts) (n : XsNode) :
    Mut Bool Parts :=
  match n with
  | .comment => Mut.fail .attributeError
  | .elem .. =>
    if n.isXs s%"extension" then
      match Dict.get? n.attrib s%"base" with
      | none => Mut.fail .typeError
      | some b =>
        if hasSub b s%"nx:basicComponent" then do
          let q ← ty (some b)
          Mut.fold (readExtItem ty) n.kids (q.copyTo p)
        else Mut.fail .valueError
    else Mut.fail .valueError

/-- `punx/schema_manager.py:550-566, 306-309, 335-338`: one child of a type. -/
def readTypeItem (ty : Option Str → Mut Bool Parts) (p : Parts) (n : XsNode) : Mut Bool Parts :=
  match n with
  | .comment => pure p
  | .elem .. =>
    if n.isXs s%"annotation" then pure p
    else if n.isXs s%"attribute" then Mut.lift (addAttr p n)
    else if n.isXs s%"attributeGroup" || n.isXs s%"group" then do
      let q ← ty (Dict.get? n.attrib s%"ref")
      pure (q.copyTo p)
    else if n.isXs s%"complexContent" then Mut.fold (readContentItem ty) n.kids p
    else if n.isXs s%"sequence" then Mut.fold (readSeqItem ty) n.kids p
    else Mut.fail .valueError

/-- `punx/schema_manager.py:538-566`: `Schema_Type.__init__`.  The number of nested calls is
bounded by Python's recursion limit. -/
def readTypeOf (root : XsNode) : Nat → Option Str → Mut Bool Parts
  | 0, _ => Mut.fail .recursionError
  | _ + 1, none => Mut.fail .attributeError
  | fuel + 1, some ref => do
    let n ← Mut.lift (namedNode root (stripNs ref))
    Mut.fold (readTypeItem (readTypeOf root fuel)) n.kids {}

/-! ## the root element -/

/-- What all schema managers of a process share: the members `attrs` and `children` of the class
`Schema_Root` (lines 352-353) and `_GroupParsing().started` (line 590). -/
structure Shared where
  started : Bool := false
  parts : Parts := {}

/-- A computation that knows `started` only. -/
def onStarted {α : Type} (m : Mut Bool α) : Mut Shared α := fun s =>
  let r := m s.started
  (r.1, { s with started := r.2 })

/-- Change of the shared dictionaries. -/
def onParts (f : Parts → Parts) : Mut Shared Unit := fun s => (.ok (), { s with parts := f s.parts })

/-- `punx/schema_manager.py:402-415`: one turn of `parse_sequence` of the root element. -/
def rootSeqItem (ty : Option Str → Mut Bool Parts) (n : XsNode) : Mut Shared Unit :=
  match n with
  | .comment => Mut.fail .attributeError
  | .elem .. =>
    if n.isXs s%"element" then do
      let o ← onStarted (readElem ty n)
      onParts fun p => { p with children := Dict.set p.children (Dict.get? n.attrib s%"name") o }
    else if n.isXs s%"group" then do
      let q ← onStarted (ty (Dict.get? n.attrib s%"ref"))
      onParts q.copyTo
    else Mut.fail .valueError

/-- `punx/schema_manager.py:384-394`: one child of the type of the root element. -/
def rootItem' (ty : Option Str → Mut Bool Parts) (n : XsNode) : Mut Shared Unit :=
  match n with
  | .comment => Mut.fail .attributeError
  | .elem .. =>
    if n.isXs s%"attribute" then do
      let a ← Mut.lift (readAttr n)
      onParts fun p => { p with attrs := Dict.set p.attrs a.name a }
    else if n.isXs s%"attributeGroup" then do
      let q ← onStarted (ty (Dict.get? n.attrib s%"ref"))
      onParts q.copyTo
    else if n.isXs s%"sequence" then Mut.fold (fun _ m => rootSeqItem ty m) n.kids ()
    else if n.isXs s%"annotation" then pure ()
    else Mut.fail .valueError

/-- `punx/schema_manager.py:358-394`: `Schema_Root.__init__` up to the types. -/
def readRoot (fuel : Nat) (root n : XsNode) : Mut Shared Unit :=
  match Dict.get? n.attrib s%"type" with
  | none => Mut.fail .valueError
  | some t =>
    match (root.select s%"complexType").filter
        (fun m => Dict.get? m.attrib s%"name" = some (stripNs t)) with
    | [m] => Mut.fold (fun _ k => rootItem' (readTypeOf root fuel) k) m.kids ()
    | _ => Mut.fail .valueError

/-! ## `nxdlTypes.xsd` -/

/-- `punx/schema_manager.py:218-250`: `Schema_nxdlType`; `union` is kept as a text. -/
structure NxType where
  restriction : Option Str := none
  union : Option Str := none
  values : Option (List Str) := none
  deriving DecidableEq, Repr

/-- `d[k]` for the XML attributes of a node. -/
def needAttr (n : XsNode) (k : Str) : Except PyErr Str :=
  match Dict.get? n.attrib k with
  | none => .error .keyError
  | some v => .ok v

/-- `punx/schema_manager.py:232-250`: one child of the node of a type. -/
def nxTypeItem (o : NxType) (n : XsNode) : Except PyErr NxType :=
  match n with
  | .comment => .ok o
  | .elem .. =>
    if n.isXs s%"annotation" then .ok o
    else if n.isXs s%"list" then
      (needAttr n s%"itemType").map fun v => { o with values := some [stripNs v] }
    else if n.isXs s%"restriction" then do
      let b ← needAttr n s%"base"
      let vs ← (n.select s%"enumeration").mapM (needAttr · s%"value")
      .ok { o with restriction := some (stripNs b), values := some vs }
    else if n.isXs s%"union" then
      (needAttr n s%"memberTypes").map fun v => { o with union := some v }
    else .error .valueError

/-- `punx/schema_manager.py:224-250` -/
def readNxType (n : XsNode) : Except PyErr NxType := n.kids.foldlM nxTypeItem {}

/-- `punx/schema_manager.py:187-195`: the loop over the nodes of the file. -/
def readNxTypes : List XsNode → Dict Str NxType → Except PyErr (Dict Str NxType)
  | [], db => .ok db
  | .comment :: ns, db => readNxTypes ns db
  | n :: ns, db =>
    if n.isXs s%"annotation" then readNxTypes ns db
    else do
      let o ← readNxType n
      match Dict.get? n.attrib s%"name" with
      | none => readNxTypes ns db
      | some k => readNxTypes ns (Dict.set db k o)

/-- `del d[k]` -/
def Dict.erase {κ β : Type} [DecidableEq κ] (d : Dict κ β) (k : κ) : Dict κ β :=
  d.filter (fun kv => kv.1 ≠ k)

/-- `punx/schema_manager.py:166-202`: `parse_nxdlTypes`; there is no file if `types` is `none`. -/
def parseNxTypes (types : Option XsNode) : Except PyErr (Dict Str NxType × List Str) :=
  match types with
  | none => .error .fileNotFound
  | some root => do
    let db ← readNxTypes root.kids []
    match Dict.get? db s%"anyUnitsAttr" with
    | none => .error .keyError
    | some u =>
      if Dict.has (Dict.erase db s%"anyUnitsAttr") s%"primitiveType" then
        .ok (Dict.erase (Dict.erase db s%"anyUnitsAttr") s%"primitiveType", u.values.getD [])
      else .error .keyError

/-! ## a schema manager -/

/-- The `xs:simpleType` nodes as `parse_nxdl_patterns` sees them. -/
def simpleTypesOf (root : XsNode) : List SimpleType :=
  (root.select s%"simpleType").map fun n =>
    ⟨Dict.get? n.attrib s%"name", (n.select s%"restriction").map fun r =>
      ⟨Dict.get? r.attrib s%"base", r.kids.map fun i =>
        match i with
        | .comment => .comment
        | .elem .. =>
          if i.isXs s%"pattern" then .pattern (Dict.get? i.attrib s%"value")
          else if i.isXs s%"maxLength" then .maxLength (Dict.get? i.attrib s%"value")
          else .other⟩⟩

/-- The members of a `Schema_Root` that are its own. -/
structure OwnSchema where
  types : Dict Str NxType
  units : List Str
  patterns : Dict Str SchemaPattern

/-- `punx/schema_manager.py:99-125, 396-398`: `SchemaManager.__init__` for a directory with the
files `nxdl.xsd` (`xsd`) and `nxdlTypes.xsd` (`types`), which the first includes. -/
def newManager (fuel : Nat) (int : Str → Option Int) (valid : XsNode → Option XsNode → Bool)
    (xsd types : Option XsNode) : Mut Shared OwnSchema :=
  match xsd with
  | none => Mut.fail .fileNotFound
  | some root =>
    if valid root types then
      match root.select s%"element" with
      | [n] => do
        readRoot fuel root n
        let tu ← Mut.lift (parseNxTypes types)
        let ps ← Mut.lift (parsePatterns int (simpleTypesOf root))
        pure ⟨tu.1, tu.2, ps⟩
      | _ => Mut.fail .invalidNxdl
    else Mut.fail .exception

end Punx

import Verif.Model.Nxdl

/-!
# Reading NeXus definitions: `punx/nxdl_manager.py`
-/

namespace Punx

/-- XML nodes as lxml presents them.  `nx` tells that the element is in the NXDL
namespace (`punx/nxdl_schema.py:57-62`), `tag` is the local name.  Text content,
processing instructions and attributes with a namespace are left out (the reader
never looks at the first; NXDL has none of the others). -/
inductive Xml
  | comment
  | elem (nx : Bool) (tag : Str) (attrib : Dict Str Str) (kids : List Xml)

instance : Inhabited Xml := ⟨.comment⟩

namespace Xml
/-- `node.attrib` -/
def attrib : Xml → Dict Str Str
  | comment => []
  | elem _ _ a _ => a
/-- the child nodes -/
def kids : Xml → List Xml
  | comment => []
  | elem _ _ _ k => k
/-- the node is selected by `xpath("nx:" + tag)` of its parent -/
def isNx (tag : Str) : Xml → Bool
  | comment => false
  | elem nx t _ _ => nx && t = tag
end Xml

/-- `default_value` of a schema attribute (`punx/nxdl_schema.py:168, 186`), as read
(text or `None`) or as overwritten by the reader (`False`, `1`). -/
inductive DefVal
  | none | text (s : Str) | int (n : Int) | bool (b : Bool)
  deriving DecidableEq, Repr, Inhabited

/-- `default_value == 1` (`punx/validations/application_definition.py:74`). -/
def DefVal.isOne : DefVal → Bool
  | .int n => n = 1
  | .bool b => b
  | _ => false

/-- The schema attributes that the reader overwrites.  Each is one Python object,
referenced by the `xml_attributes` of every attribute, field or group read with
the same manager (`punx/nxdl_manager.py:205-206`); absent if the schema does not
declare it. -/
structure Defaults where
  /-- `nxdl_defaults.attribute.attributes["optional"].default_value` -/
  attrOptional : Option DefVal
  /-- `nxdl_defaults.field.attributes["minOccurs"].default_value` -/
  fieldMinOccurs : Option DefVal
  /-- `nxdl_defaults.group.attributes["minOccurs"].default_value` -/
  groupMinOccurs : Option DefVal
  /-- `"dimensions" in nxdl_defaults.field.components` -/
  dimensions : Bool
  /-- `"dim" in nxdl_defaults.field.components["dimensions"].components` -/
  dim : Bool
  deriving DecidableEq, Repr, Inhabited

/-- The reader changes the shared defaults and may raise; an exception ends the
construction of the manager, so the defaults are lost with it. -/
abbrev Reader := StateT Defaults (Except PyErr)

/-- `raise` -/
def Reader.raise {α} (e : PyErr) : Reader α := fun _ => .error e

/-- `obj.xml_attributes["optional"].default_value = False`
(`punx/nxdl_manager.py:227-230`), for application definitions. -/
def noteAttribute (c : Category) : Reader Unit := fun d =>
  match c with
  | .applications =>
    match d.attrOptional with
    | none => .error .keyError
    | some _ => .ok ((), { d with attrOptional := some (.bool false) })
  | _ => .ok ((), d)

/-- `obj.xml_attributes["minOccurs"].default_value = 1`
(`punx/nxdl_manager.py:257-259`), for fields of application definitions. -/
def noteField (c : Category) : Reader Unit := fun d =>
  match c with
  | .applications =>
    match d.fieldMinOccurs with
    | none => .error .keyError
    | some _ => .ok ((), { d with fieldMinOccurs := some (.int 1) })
  | _ => .ok ((), d)

/-- The same for groups (`punx/nxdl_manager.py:281-283`). -/
def noteGroup (c : Category) : Reader Unit := fun d =>
  match c with
  | .applications =>
    match d.groupMinOccurs with
    | none => .error .keyError
    | some _ => .ok ((), { d with groupMinOccurs := some (.int 1) })
  | _ => .ok ((), d)

/-- `node.attrib[k]` -/
def Xml.need (x : Xml) (k : Str) : Reader Str :=
  match Dict.get? x.attrib k with
  | none => Reader.raise .keyError
  | some v => pure v

/-- `nx:enumeration/nx:item` and their `value` for attributes: items without value are
passed over (`punx/nxdl_manager.py:494-498`). -/
def Xml.enumItems (x : Xml) : List Str :=
  (x.kids.filter (Xml.isNx s%"enumeration")).flatMap fun e =>
    (e.kids.filter (Xml.isNx s%"item")).filterMap fun i => Dict.get? i.attrib s%"value"

/-- `nx:enumeration/nx:item` and their `value` for fields: an item without value adds `None`
(`punx/nxdl_manager.py:597-598`). -/
def Xml.fieldItems (x : Xml) : List (Option Str) :=
  (x.kids.filter (Xml.isNx s%"enumeration")).flatMap fun e =>
    (e.kids.filter (Xml.isNx s%"item")).map fun i => Dict.get? i.attrib s%"value"

/-- The loop `while base_name + str(index) in name_list` of
`punx/nxdl_manager.py:351-354`, with fuel; `length name_list` turns suffice
(`uniqueName_spec`). -/
def freeIndex (used : List Str) (base : Str) : Nat → Nat → Nat
  | 0, i => i
  | fuel + 1, i => if base ++ natStr i ∈ used then freeIndex used base fuel (i + 1) else i

/-- `punx/nxdl_manager.py:332-355`: `ensure_unique_name`. -/
def uniqueName (used : List Str) (name : Str) : Str :=
  if name ∈ used then name ++ natStr (freeIndex used name used.length 1) else name

/-- `punx/nxdl_manager.py:208-238`: `parse_attributes`. -/
def readAttributes (c : Category) : List Xml → Dict Str AttrSpec → Reader (Dict Str AttrSpec)
  | [], acc => pure acc
  | x :: xs, acc =>
    if x.isNx s%"attribute" then do
      let name ← x.need s%"name"
      noteAttribute c
      if Dict.has acc name then Reader.raise .keyError
      else readAttributes c xs (Dict.set acc name { enums := x.enumItems })
    else readAttributes c xs acc

/-- `punx/nxdl_manager.py:519-525`: `NXDL__dim.parse_nxdl_xml`. -/
def Xml.dimSpec (x : Xml) : DimSpec :=
  { index := Dict.get? x.attrib s%"index", value := Dict.get? x.attrib s%"value"
    ref := Dict.get? x.attrib s%"ref", refindex := Dict.get? x.attrib s%"refindex"
    incr := Dict.get? x.attrib s%"incr" }

/-- A component of the schema is looked up (`punx/nxdl_manager.py:511-517, 540-541`). -/
def needComponent (here : Defaults → Bool) : Reader Unit := fun d =>
  if here d then .ok ((), d) else .error .keyError

/-- The loop `punx/nxdl_manager.py:556-559`. -/
def readDims : List Xml → Dict (Option Str) DimSpec → Reader (Dict (Option Str) DimSpec)
  | [], acc => pure acc
  | x :: xs, acc =>
    if x.isNx s%"dim" then do
      needComponent Defaults.dim
      readDims xs (Dict.set acc x.dimSpec.index x.dimSpec)
    else readDims xs acc

/-- `punx/nxdl_manager.py:590-595, 543-559`: `dimensions` of a field, if there is exactly
one such element. -/
def readDimensions (x : Xml) : Reader (Option DimsSpec) :=
  match x.kids.filter (Xml.isNx s%"dimensions") with
  | [y] => do
    needComponent Defaults.dimensions
    let dims ← readDims y.kids []
    pure (some { rank := Dict.get? y.attrib s%"rank", dims := dims })
  | _ => pure none

/-- `punx/nxdl_manager.py:581-598`: `NXDL__field.parse_nxdl_xml`. -/
def readField (c : Category) (x : Xml) : Reader (Str × FieldSpec) := do
  let name ← x.need s%"name"
  let attrs ← readAttributes c x.kids []
  let dims ← readDimensions x
  pure (name, { attrs := attrs, enums := x.fieldItems, dims := dims })

/-- `punx/nxdl_manager.py:240-262`: `parse_fields`; `used` are the names of the groups
and links read before. -/
def readFields (c : Category) (used : List Str) :
    List Xml → Dict Str FieldSpec → Reader (Dict Str FieldSpec)
  | [], acc => pure acc
  | x :: xs, acc =>
    if x.isNx s%"field" then do
      let f ← readField c x
      noteField c
      readFields c used xs (Dict.set acc (uniqueName (used ++ Dict.keys acc) f.1) f.2)
    else readFields c used xs acc

/-- `punx/nxdl_manager.py:288-311, 657-660`: `parse_links`. -/
def readLinks (used : List Str) :
    List Xml → Dict Str LinkSpec → Reader (Dict Str LinkSpec)
  | [], acc => pure acc
  | x :: xs, acc =>
    if x.isNx s%"link" then do
      let name ← x.need s%"name"
      readLinks used xs (Dict.set acc (uniqueName (used ++ Dict.keys acc) name)
        { target := Dict.get? x.attrib s%"target" })
    else readLinks used xs acc

/-- The name of a group element, `attrib.get("name", attrib["type"][2:])`
(`punx/nxdl_manager.py:623`): the type is looked up even if there is a name. -/
def groupName (a : Dict Str Str) : Reader Str :=
  match Dict.get? a s%"type" with
  | none => Reader.raise .keyError
  | some t => pure ((Dict.get? a s%"name").getD (t.drop 2))

/-- `punx/nxdl_manager.py:626-629`: the XML attributes of the group element are stored
among the attributes of the group. -/
def rawAttributes (a : Dict Str Str) (d : Dict Str GAttr) : Dict Str GAttr :=
  a.foldl (fun acc kv =>
    if kv.1 = s%"name" ∨ kv.1 = s%"type" then acc else Dict.set acc kv.1 (.raw kv.2)) d

mutual
/-- `punx/nxdl_manager.py:621-632`: `NXDL__group.parse_nxdl_xml`. -/
def readGroup (c : Category) : Xml → Reader (Str × GroupSpec)
  | .comment => Reader.raise .keyError
  | .elem _ _ attrib kids => do
    let name ← groupName attrib
    let attrs ← readAttributes c kids []
    let groups ← readGroups c kids []
    let fields ← readFields c (Dict.keys groups) kids []
    let links ← readLinks (Dict.keys groups ++ Dict.keys fields) kids []
    pure (name, .mk (rawAttributes attrib (attrs.map fun kv => (kv.1, .spec kv.2)))
      groups fields links)

/-- `punx/nxdl_manager.py:264-286`: `parse_groups`. -/
def readGroups (c : Category) : List Xml → Dict Str GroupSpec → Reader (Dict Str GroupSpec)
  | [], acc => pure acc
  | x :: xs, acc =>
    if x.isNx s%"group" then do
      let g ← readGroup c x
      noteGroup c
      readGroups c xs (Dict.set acc (uniqueName (Dict.keys acc) g.1) g.2)
    else readGroups c xs acc
end

/-- `punx/nxdl_manager.py:313-330, 683-693`: `parse_symbols`.  Within `symbols` the
namespace is not looked at. -/
def readSymbols (x : Xml) : List Str :=
  (x.kids.filter (Xml.isNx s%"symbols")).flatMap fun t =>
    t.kids.filterMap fun n =>
      match n with
      | .elem _ tag a _ => if tag = s%"symbol" then Dict.get? a s%"name" else none
      | .comment => none

/-- `punx/nxdl_manager.py:450-457`: the content of a definition. -/
def readDefinition (title : Str) (c : Category) (root : Xml) : Reader ClassDef := do
  let attrs ← readAttributes c root.kids []
  let groups ← readGroups c root.kids []
  let fields ← readFields c (Dict.keys groups) root.kids []
  let links ← readLinks (Dict.keys groups ++ Dict.keys fields) root.kids []
  pure { title := title, category := c, attrs := attrs, groups := groups, fields := fields,
         links := links, symbols := readSymbols root }

/-- A file of a category directory: its name and what lxml makes of it (`none`:
not parseable, `XMLSyntaxError`). -/
structure NxdlFile where
  name : Str
  content : Option Xml

/-- A directory with definitions, as far as the reader looks at it. -/
structure DefDir where
  /-- `os.path.exists(file_set.path)` -/
  here : Bool
  /-- what is read from `nxdl.xsd`; `none`: there is no such file -/
  schema : Option Defaults
  /-- content of the category directories, `none`: missing -/
  listing : Category → Option (List NxdlFile)

/-- `punx/nxdl_manager.py:147`: the categories, in the order in which they are read. -/
def allCategories : List Category := [.baseClasses, .applications, .contributed]

/-- `sorted(os.listdir(path))` restricted to `*.nxdl.xml`
(`punx/nxdl_manager.py:155-157`). -/
def nxdlFiles (fs : List NxdlFile) : List NxdlFile :=
  (sortBy (fun a b => strLe a.name b.name) fs).filter fun f => endsWith f.name s%".nxdl.xml"

/-- The loop `punx/nxdl_manager.py:149-157`. -/
def fileListFrom (dir : DefDir) : List Category → Except PyErr (List (Category × NxdlFile))
  | [] => .ok []
  | c :: cs =>
    match dir.listing c with
    | none => .error .osError
    | some fs => do
      let rest ← fileListFrom dir cs
      .ok ((nxdlFiles fs).map (fun f => (c, f)) ++ rest)

/-- `punx/nxdl_manager.py:131-158`: `get_NXDL_file_list`. -/
def nxdlFileList (dir : DefDir) : Except PyErr (List (Category × NxdlFile)) :=
  if dir.here then fileListFrom dir allCategories else .error .fileNotFound

/-- `punx/nxdl_manager.py:430`: `definition.title`. -/
def titleOf (f : NxdlFile) : Str := firstComp '.' f.name

/-- `punx/nxdl_manager.py:433-457`: `NXDL__definition.parse_nxdl_xml`.  `valid` is the
validation against the schema of the default file set (lines 161-175). -/
def readFile (valid : Xml → Bool) (c : Category) (f : NxdlFile) : Reader ClassDef :=
  match f.content with
  | none => Reader.raise .exception
  | some x => if valid x then readDefinition (titleOf f) c x else Reader.raise .invalidNxdl

/-- The loop `punx/nxdl_manager.py:94-99`. -/
def readFiles (valid : Xml → Bool) :
    List (Category × NxdlFile) → Dict Str ClassDef → Reader (Dict Str ClassDef)
  | [], acc => pure acc
  | (c, f) :: rest, acc => do
    let cd ← readFile valid c f
    readFiles valid rest (Dict.set acc (titleOf f) cd)

/-- `punx/nxdl_manager.py:75-108`: `NXDL_Manager.__init__` for a given file set.  The
result is the dictionary of classes and the shared defaults, if there is a schema.
Without `nxdl.xsd` the first definition fails (line 382). -/
def loadClasses (valid : Xml → Bool) (dir : DefDir) :
    Except PyErr (Dict Str ClassDef × Option Defaults) :=
  if dir.here then do
    let files ← nxdlFileList dir
    match dir.schema, files with
    | some d, files => do
      let r ← (readFiles valid files []).run d
      .ok (r.1, some r.2)
    | none, [] => .ok ([], none)
    | none, _ :: _ => .error .assertionError
  else .error .fileNotFound

/-- The manager as the validator sees it: the classes read from the directory and the
patterns of the schema (`Verif.Model.Schema`). -/
def loadManager (valid : Xml → Bool) (dir : DefDir)
    (itemPats classPats : Option (List Pat)) : Except PyErr Manager := do
  let r ← loadClasses valid dir
  .ok { classes := r.1, itemPats := itemPats, classPats := classPats,
        fieldMinOccursIsOne :=
          match r.2 with
          | some d => d.fieldMinOccurs.map DefVal.isOne
          | none => none }

end Punx

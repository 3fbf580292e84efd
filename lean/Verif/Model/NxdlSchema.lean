import Verif.Model.NxdlParse
import Verif.Model.Schema

/-!
# Defaults from `nxdl.xsd`: `punx/nxdl_schema.py`

Objects that Python refers to from several places are values here.  This is exact unless the type
of the root element, or a type it is built from, is used again inside of it: only the children of
the root element are changed after they were stored in the catalogue (lines 478-500), all others
are copied first.
-/

namespace Punx

/-- XML nodes of a schema as lxml presents them.  `xs` tells that the element is in the namespace
of XML Schema (`punx/nxdl_schema.py:57-62`), `tag` is the local name, `line` is `sourceline`. -/
inductive XsNode
  | comment
  | elem (xs : Bool) (tag : Str) (line : Nat) (attrib : Dict Str Str) (kids : List XsNode)

namespace XsNode
/-- `node.attrib` -/
def attrib : XsNode → Dict Str Str
  | comment => []
  | elem _ _ _ a _ => a
/-- the child nodes -/
def kids : XsNode → List XsNode
  | comment => []
  | elem _ _ _ _ k => k
/-- `node.sourceline` -/
def line : XsNode → Nat
  | comment => 0
  | elem _ _ l _ _ => l
/-- the node is selected by `xs:tag` -/
def isXs (tag : Str) : XsNode → Bool
  | comment => false
  | elem xs t _ _ _ => xs && t = tag
/-- `node.xpath("xs:" + tag)` -/
def select (tag : Str) (n : XsNode) : List XsNode := n.kids.filter (isXs tag)

mutual
/-- a node and all nodes below, in document order -/
def nodes : XsNode → List XsNode
  | .comment => [.comment]
  | .elem xs t l a k => .elem xs t l a k :: nodesOf k
/-- the same for a list of nodes -/
def nodesOf : List XsNode → List XsNode
  | [] => []
  | n :: ns => nodes n ++ nodesOf ns
end

/-- `root.xpath("//xs:" + tag)` -/
def everywhere (tag : Str) (root : XsNode) : List XsNode := root.nodes.filter (isXs tag)
end XsNode

/-! ## the objects -/

/-- The classes `NXDL_schema__attribute`, `NXDL_schema__element` and `NXDL_schema__group`. -/
inductive SKind
  | attribute | element | group
  deriving DecidableEq, Repr

/-- Members of these objects; an object without the member has the empty value here. -/
structure SInfo where
  required : Bool := false
  default : Option Str := none
  minOccurs : Option Str := none
  maxOccurs : Option Str := none
  patterns : List Str := []
  maxLength : Option Int := none
  deriving DecidableEq, Repr

/-- `punx/nxdl_schema.py:164-172, 324-329, 363-368`: an object of the catalogue.  `key` is `type`
of attributes and elements, `ref` of groups.  Attributes have no `children`. -/
inductive SObj
  | mk (kind : SKind) (name key : Option Str) (info : SInfo) (kids : List SObj)

namespace SObj
def kind : SObj → SKind | mk k _ _ _ _ => k
def name : SObj → Option Str | mk _ n _ _ _ => n
def key : SObj → Option Str | mk _ _ k _ _ => k
def info : SObj → SInfo | mk _ _ _ i _ => i
def kids : SObj → List SObj | mk _ _ _ _ k => k
end SObj

/-- `punx/nxdl_schema.py:396-401`: `NXDL_schema_named_simpleType`. -/
structure SSimple where
  base : Option Str := none
  patterns : List Str := []
  maxLength : Option Int := none
  deriving DecidableEq, Repr

/-- An entry of `db["schema"]`: a simple type, or the children of an attribute group, of a named
group or of a complex type. -/
inductive SRef
  | simple (s : SSimple)
  | other (kids : List SObj)

/-- `reference.children`; those of simple types are empty (line 397). -/
def SRef.kids : SRef → List SObj
  | .simple _ => []
  | .other k => k

/-! ## parsing of single nodes -/

/-- `punx/nxdl_schema.py:174-192`: `NXDL_schema__attribute.parse`. -/
def parseAttr (n : XsNode) : Except PyErr SObj := do
  let found := ((n.select s%"simpleType").flatMap (·.select s%"restriction")).flatMap
    (·.select s%"pattern")
  let pats ← match found with
    | [p] => match Dict.get? p.attrib s%"value" with
      | none => .error .keyError
      | some v => .ok [v]
    | _ => .ok []
  .ok (.mk .attribute (Dict.get? n.attrib s%"name")
    (some (stripNs ((Dict.get? n.attrib s%"type").getD s%"nx:NX_CHAR")))
    { required := Dict.get? n.attrib s%"use" = some s%"required"
      default := Dict.get? n.attrib s%"default"
      patterns := pats } [])

/-- The occurrence limits of elements and groups (lines 340-341, 379-380). -/
def occursOf (a : Dict Str Str) : SInfo :=
  { minOccurs := Dict.get? a s%"minOccurs", maxOccurs := Dict.get? a s%"maxOccurs" }

mutual
/-- `punx/nxdl_schema.py:331-352`: `NXDL_schema__element.parse`. -/
def parseElem : XsNode → Except PyErr SObj
  | .comment => .error .assertionError
  | .elem _ _ _ a kids => do
    let ks ← if (kids.filter (XsNode.isXs s%"complexType")).length = 1 then parseInline kids
      else .ok []
    .ok (.mk .element (Dict.get? a s%"name")
      (some (stripNs ((Dict.get? a s%"type").getD s%"str"))) (occursOf a) ks)
/-- Lines 343-352, over the children of the element: the content of `xs:complexType`. -/
def parseInline : List XsNode → Except PyErr (List SObj)
  | [] => .ok []
  | .comment :: ns => parseInline ns
  | .elem xs t _ _ kids :: ns =>
    if xs && t = s%"complexType" then do
      let es ← parseSeqs kids
      let as ← (kids.filter (XsNode.isXs s%"attribute")).mapM parseAttr
      let rest ← parseInline ns
      .ok (es ++ as ++ rest)
    else parseInline ns
/-- `xs:sequence/xs:element` (lines 345, 382). -/
def parseSeqs : List XsNode → Except PyErr (List SObj)
  | [] => .ok []
  | .comment :: ns => parseSeqs ns
  | .elem xs t _ _ kids :: ns =>
    if xs && t = s%"sequence" then do
      let es ← parseElems kids
      let rest ← parseSeqs ns
      .ok (es ++ rest)
    else parseSeqs ns
/-- The loops `punx/nxdl_schema.py:345-348, 382-385`. -/
def parseElems : List XsNode → Except PyErr (List SObj)
  | [] => .ok []
  | n :: ns =>
    if n.isXs s%"element" then do
      let e ← parseElem n
      let rest ← parseElems ns
      .ok (e :: rest)
    else parseElems ns
end

/-- `punx/nxdl_schema.py:370-385`: `NXDL_schema__group.parse`. -/
def parseGroup (n : XsNode) : Except PyErr SObj := do
  let ks ← parseSeqs n.kids
  .ok (.mk .group (Dict.get? n.attrib s%"name") ((Dict.get? n.attrib s%"ref").map stripNs)
    (occursOf n.attrib) ks)

/-- `punx/nxdl_schema.py:203-221`: the children of an `NXDL_schema__attributeGroup`. -/
def parseAttrGroup (n : XsNode) : Except PyErr (List SObj) :=
  (n.select s%"attribute").mapM parseAttr

/-- The loop `punx/nxdl_schema.py:424-425`; `int` is Python's `int(text)`. -/
def readLengths (int : Str → Option Int) : List XsNode → SSimple → Except PyErr SSimple
  | [], s => .ok s
  | n :: ns, s =>
    match Dict.get? n.attrib s%"value" with
    | none => .error .keyError
    | some v => match int v with
      | none => .error .valueError
      | some k => readLengths int ns { s with maxLength := some k }

/-- The loop `punx/nxdl_schema.py:422-423`. -/
def readValues : List XsNode → SSimple → Except PyErr SSimple
  | [], s => .ok s
  | n :: ns, s =>
    match Dict.get? n.attrib s%"value" with
    | none => .error .keyError
    | some v => readValues ns { s with patterns := s.patterns ++ [v] }

/-- `punx/nxdl_schema.py:419-421`. -/
def SSimple.noteBase (s : SSimple) (n : XsNode) : SSimple :=
  match Dict.get? n.attrib s%"base" with
  | none => s
  | some b => { s with base := some (stripNs b) }

/-- The loop `punx/nxdl_schema.py:418-425`. -/
def readRestrictions (int : Str → Option Int) : List XsNode → SSimple → Except PyErr SSimple
  | [], s => .ok s
  | n :: ns, s => do
    let s2 ← readValues (n.select s%"pattern") (s.noteBase n)
    let s3 ← readLengths int (n.select s%"maxLength") s2
    readRestrictions int ns s3

/-- `punx/nxdl_schema.py:404-425`: `NXDL_schema_named_simpleType.parse`. -/
def parseSimple (int : Str → Option Int) (n : XsNode) : Except PyErr SSimple :=
  readRestrictions int (n.select s%"restriction") {}

/-! ## the catalogue -/

/-- `NXDL_item_catalog.db`.  The sections of attributes, elements and groups are keyed by line;
`schema` and `simple` are keyed by name (`None` for a type without name) and absent until
something is stored.  The entries that these have for lines are left out: no reference has the
form `Line 12`. -/
structure SchemaDb where
  attrs : Dict Nat SObj := []
  elems : Dict Nat SObj := []
  groups : Dict Nat SObj := []
  schema : Option (Dict (Option Str) SRef) := none
  simple : Option (Dict (Option Str) SSimple) := none

/-- `self.db["schema"][name] = obj`, with `add_to_catalog` before it, which creates the section
(lines 504-510, 522-523, 531-532). -/
def SchemaDb.note (db : SchemaDb) (name : Option Str) (r : SRef) : SchemaDb :=
  { db with schema := some (Dict.set (db.schema.getD []) name r) }

/-- `self.db["schema"][name]` -/
def SchemaDb.ref (db : SchemaDb) (name : Option Str) : Except PyErr SRef :=
  match db.schema.bind (Dict.get? · name) with
  | none => .error .keyError
  | some r => .ok r

/-- `catalog[section][line]` (`punx/nxdl_schema.py:73-77, 258-263, 277-282, 300-305`). -/
def atLine (d : Dict Nat SObj) (n : XsNode) : Except PyErr SObj :=
  match Dict.get? d n.line with
  | none => .error .keyError
  | some o => .ok o

/-- The loop `punx/nxdl_schema.py:550-558`: the objects stored under their names. -/
def readSimples (int : Str → Option Int) :
    List XsNode → Dict (Option Str) SSimple → Except PyErr (Dict (Option Str) SSimple)
  | [], d => .ok d
  | n :: ns, d => do
    let s ← parseSimple int n
    readSimples int ns (Dict.set d (Dict.get? n.attrib s%"name") s)

/-- One turn of the loop `punx/nxdl_schema.py:561-567`. -/
def inheritSimple (d : Dict (Option Str) SSimple) (k : Option Str) : Dict (Option Str) SSimple :=
  match Dict.get? d k with
  | none => d
  | some v =>
    match Dict.get? d v.base with
    | none => d
    | some b => Dict.set d k ⟨b.base, v.patterns ++ b.patterns, b.maxLength⟩

/-- `punx/nxdl_schema.py:548-567`: the simple types.  The objects are changed in place, later turns
see the changes of earlier ones. -/
def simpleTypes (int : Str → Option Int) (root : XsNode) :
    Except PyErr (Dict (Option Str) SSimple) := do
  let d ← readSimples int (root.select s%"simpleType") []
  .ok ((Dict.keys d).foldl inheritSimple d)

/-- `punx/nxdl_schema.py:504-516, 534-538`: objects stored by line (`add_to_catalog`). -/
def byLine (parse : XsNode → Except PyErr SObj) :
    List XsNode → Dict Nat SObj → Except PyErr (Dict Nat SObj)
  | [], d => .ok d
  | n :: ns, d => do
    let o ← parse n
    byLine parse ns (Dict.set d n.line o)

/-- `punx/nxdl_schema.py:518-523`: `_parse_nxdl_attributeGroup_nodes`. -/
def attrGroups : List XsNode → SchemaDb → Except PyErr SchemaDb
  | [], db => .ok db
  | n :: ns, db => do
    let ks ← parseAttrGroup n
    attrGroups ns (db.note (Dict.get? n.attrib s%"name") (.other ks))

/-- `punx/nxdl_schema.py:540-546`: `_parse_nxdl_group_nodes`.  The section `schema` is not created
here. -/
def namedGroups : List XsNode → SchemaDb → Except PyErr SchemaDb
  | [], db => .ok db
  | n :: ns, db => do
    let o ← parseGroup n
    let db1 := { db with groups := Dict.set db.groups n.line o }
    match o.name, db1.schema with
    | none, _ => namedGroups ns db1
    | some _, none => .error .keyError
    | some x, some _ => namedGroups ns (db1.note (some x) (.other o.kids))

/-- `punx/nxdl_schema.py:307-315`: `_parse_sequence`. -/
def seqKids (db : SchemaDb) (n : XsNode) : Except PyErr (List SObj) := do
  let es ← (n.select s%"element").mapM (atLine db.elems)
  let gs ← (n.select s%"group").mapM (atLine db.groups)
  .ok (es ++ gs)

/-- `punx/nxdl_schema.py:284-298`: `_parse_extension`. -/
def extensionKids (db : SchemaDb) (n : XsNode) : Except PyErr (List SObj) := do
  let bs ← match Dict.get? n.attrib s%"base" with
    | none => .ok []
    | some b => (db.ref (some (stripNs b))).map SRef.kids
  let ss ← (n.select s%"sequence").mapM (seqKids db)
  let as ← (n.select s%"attribute").mapM (atLine db.attrs)
  .ok (bs ++ ss.flatten ++ as)

/-- `punx/nxdl_schema.py:272-275`: `_parse_complexContent` looks at the first child node, which
may be a comment; an `extension` of another namespace counts as no extension here. -/
def contentKids (db : SchemaDb) (n : XsNode) : Except PyErr (List SObj) :=
  match n.kids with
  | [] => .error .indexError
  | .comment :: _ => .error .attributeError
  | x :: _ => if x.isXs s%"extension" then extensionKids db x else .error .assertionError

/-- `punx/nxdl_schema.py:265-270`: `_parse_attributeGroup`. -/
def attrGroupKids (db : SchemaDb) (n : XsNode) : Except PyErr (List SObj) :=
  match Dict.get? n.attrib s%"ref" with
  | none => .error .keyError
  | some r => (db.ref (some (stripNs r))).map SRef.kids

/-- `punx/nxdl_schema.py:232-263, 300-305`: the children of an `NXDL_schema__complexType`. -/
def complexKids (db : SchemaDb) (n : XsNode) : Except PyErr (List SObj) := do
  let ss ← (n.select s%"sequence").mapM (seqKids db)
  let cs ← (n.select s%"complexContent").mapM (contentKids db)
  let gs ← (n.select s%"group").mapM (atLine db.groups)
  let as ← (n.select s%"attribute").mapM (atLine db.attrs)
  let gas ← (n.select s%"attributeGroup").mapM (attrGroupKids db)
  .ok (ss.flatten ++ cs.flatten ++ gs ++ as ++ gas.flatten)

/-- `punx/nxdl_schema.py:525-532`: `_parse_nxdl_complexType_nodes`. -/
def complexTypes : List XsNode → SchemaDb → Except PyErr SchemaDb
  | [], db => .ok db
  | n :: ns, db =>
    match Dict.get? n.attrib s%"name" with
    | none => complexTypes ns db
    | some x => do
      let ks ← complexKids db n
      complexTypes ns (db.note (some x) (.other ks))

/-- The catalogue after the simple types were stored (lines 553-557). -/
def startDb (simple : Dict (Option Str) SSimple) : SchemaDb :=
  match simple with
  | [] => {}
  | _ :: _ => { simple := some simple, schema := some (simple.map fun kv => (kv.1, .simple kv.2)) }

/-- `punx/nxdl_schema.py:441-453`: the catalogue. -/
def readSchema (int : Str → Option Int) (root : XsNode) : Except PyErr SchemaDb := do
  let simple ← simpleTypes int root
  let attrs ← byLine parseAttr (root.everywhere s%"attribute") []
  let db ← attrGroups (root.select s%"attributeGroup")
    { startDb simple with attrs := attrs }
  let elems ← byLine parseElem (root.everywhere s%"element") []
  let db ← namedGroups (root.everywhere s%"group") { db with elems := elems }
  complexTypes (root.select s%"complexType") db

/-! ## the definition element -/

/-- `punx/nxdl_schema.py:484-488`: references to the group of all NXDL elements are left out when
children are copied. -/
def SObj.isGroupGroup (o : SObj) : Bool := o.kind = .group && o.key = some s%"groupGroup"

/-- `punx/nxdl_schema.py:495-500`: only simple types have these members. -/
def SInfo.restrict (i : SInfo) : SRef → SInfo
  | .simple s => { i with patterns := s.patterns, maxLength := s.maxLength }
  | .other _ => i

/-- One turn of the loop `punx/nxdl_schema.py:469-500`: the child with its substitutions.  The
number of nested calls is bounded by Python's recursion limit. -/
def substitute (schema : Dict (Option Str) SRef) : Nat → SObj → Except PyErr SObj
  | 0, _ => .error .recursionError
  | fuel + 1, .mk kind name key info kids =>
    match Dict.get? schema key, key with
    | none, _ => .ok (.mk kind name key info kids)
    | some _, none => .error .typeError
    | some r, some k => do
      let kids ← match kind with
        | .attribute => .ok kids
        | _ => (kids ++ r.kids.filter (fun o => !o.isGroupGroup)).mapM (substitute schema fuel)
      .ok (.mk kind name (some (s%"__" ++ k)) (info.restrict r) kids)

/-- `punx/nxdl_schema.py:457-502`: `_init_definition_element`. -/
def definitionElement (fuel : Nat) (db : SchemaDb) (root : XsNode) : Except PyErr SObj :=
  match root.select s%"element" with
  | [n] => do
    let o ← atLine db.elems n
    match Dict.get? n.attrib s%"type" with
    | none => .error .keyError
    | some t => do
      let r ← db.ref (some (stripNs t))
      let kids ← (o.kids ++ r.kids).mapM (substitute (db.schema.getD []) fuel)
      .ok (.mk o.kind o.name o.key o.info kids)
  | _ => .error .assertionError

/-! ## the summary -/

/-- `type(child).__name__.split("_")[-1]` -/
def SKind.text : SKind → Str
  | .attribute => s%"attribute"
  | .element => s%"element"
  | .group => s%"group"

/-- `child.name or "(%s)" % kind` (line 628). -/
def SObj.label (o : SObj) : Str :=
  match o.name with
  | none | some [] => s%"(" ++ o.kind.text ++ s%")"
  | some n => n

/-- `punx/nxdl_schema.py:615-634`: `build_tree`, the children of one kind by their labels. -/
def SObj.table (k : SKind) (o : SObj) : Dict Str SObj :=
  (o.kids.filter (·.kind = k)).foldl (fun d c => Dict.set d c.label c) []

/-- `obj.attributes` -/
def SObj.attributes (o : SObj) : Dict Str SObj := o.table .attribute
/-- `obj.components` -/
def SObj.components (o : SObj) : Dict Str SObj := o.table .element
/-- `obj.groups` -/
def SObj.groups (o : SObj) : Dict Str SObj := o.table .group

/-- `punx/nxdl_schema.py:586-594`: `NXDL_Summary`.  `group` itself keeps its own children; its
`attributes` are replaced by those of the component `group`. -/
structure Summary where
  definition : SObj
  groupAttributes : Dict Str SObj
  attr : SObj
  doc : SObj
  field : SObj
  link : SObj
  symbols : SObj
  simpleType : Dict (Option Str) SSimple

/-- `list(d.values())[0]` -/
def firstValue (d : Dict Str SObj) : Except PyErr SObj :=
  match d with
  | [] => .error .indexError
  | (_, o) :: _ => .ok o

/-- `d[k]` -/
def needKey (d : Dict Str SObj) (k : Str) : Except PyErr SObj :=
  match Dict.get? d k with
  | none => .error .keyError
  | some o => .ok o

/-- `punx/nxdl_schema.py:598-613`: `setup`. -/
def summarize (fuel : Nat) (int : Str → Option Int) (root : XsNode) : Except PyErr Summary := do
  let db ← readSchema int root
  let d ← definitionElement fuel db root
  let g ← firstValue d.groups
  let gg ← needKey g.components s%"group"
  let attr ← needKey g.components s%"attribute"
  let doc ← needKey g.components s%"doc"
  let field ← needKey g.components s%"field"
  let link ← needKey g.components s%"link"
  let symbols ← firstValue d.components
  match db.simple with
  | none => .error .keyError
  | some simple => .ok ⟨d, gg.attributes, attr, doc, field, link, symbols, simple⟩

/-- `default_value` of the attribute `k`, if there is one. -/
def defaultOf (d : Dict Str SObj) (k : Str) : Option DefVal :=
  (Dict.get? d k).map fun o => match o.info.default with
    | none => .none
    | some t => .text t

/-- The part of the summary that `nxdl_manager.py` looks up by name or overwrites
(`Verif.Model.NxdlParse`). -/
def Summary.defaults (s : Summary) : Defaults :=
  { attrOptional := defaultOf s.attr.attributes s%"optional"
    fieldMinOccurs := defaultOf s.field.attributes s%"minOccurs"
    groupMinOccurs := defaultOf s.groupAttributes s%"minOccurs"
    dimensions := (Dict.get? s.field.components s%"dimensions").isSome
    dim := ((Dict.get? s.field.components s%"dimensions").bind fun o =>
      Dict.get? o.components s%"dim").isSome }

end Punx

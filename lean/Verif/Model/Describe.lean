import Verif.Model.NxdlSchema
import Verif.Model.Groups
import Verif.Model.Reading

/-!
# Objects as text: `render_class_str`, `print_tree`, `NXDL_Manager.__str__`
-/

namespace Punx

/-- The value of a member of an object, as far as it matters for the text: `None`, a list or a
dictionary, or anything else with `str(v)`. -/
inductive ObjMember
  | nothing
  | collection
  | text (s : Str)
  deriving DecidableEq, Repr

/-- `s.lstrip("_")` -/
def stripMarks (s : Str) : Str := s.dropWhile (· == '_')

/-- `punx/nxdl_schema.py:92-95`: one turn of the loop; `none`: nothing is appended. -/
def memberText : Str × ObjMember → Option Str
  | (k, .text t) => if startsWith k s%"_" then none else some (k ++ s%"=" ++ stripMarks t)
  | _ => none

/-- `punx/nxdl_schema.py:80-98`: `render_class_str` of an object of the class `cls` with the members
`ms` (`obj.__dict__`). -/
def renderClassStr (cls : Str) (ms : Dict Str ObjMember) : Str :=
  cls ++ s%"(" ++ join s%", " ((sortKeys ms).filterMap memberText) ++ s%")"

/-- `None` or a text -/
def ObjMember.ofOption : Option Str → ObjMember
  | none => .nothing
  | some t => .text t

/-- `obj.__dict__` after `build_tree` (`punx/nxdl_schema.py:164-172, 324-329, 363-368, 495-500,
615-634`), in the order of the assignments. -/
def SObj.members (o : SObj) : Dict Str ObjMember :=
  let tables : Dict Str ObjMember :=
    [(s%"attributes", .collection), (s%"groups", .collection), (s%"components", .collection)]
  match o.kind with
  | .attribute =>
    [(s%"name", .ofOption o.name), (s%"type", .ofOption o.key),
     (s%"required", .text (if o.info.required then s%"True" else s%"False")),
     (s%"default_value", .ofOption o.info.default), (s%"enum", .collection),
     (s%"patterns", .collection), (s%"maxLength", .ofOption (o.info.maxLength.map intStr)),
     (s%"nxdl_attributes", .collection)] ++ tables
  | k =>
    [(s%"children", .collection), (s%"name", .ofOption o.name),
     (if k = .element then s%"type" else s%"ref", .ofOption o.key),
     (s%"minOccurs", .ofOption o.info.minOccurs), (s%"maxOccurs", .ofOption o.info.maxOccurs),
     (s%"maxLength", .ofOption (o.info.maxLength.map intStr))] ++ tables

/-- `str(obj)` (`punx/nxdl_schema.py:101-106`) -/
def SObj.text (o : SObj) : Str := renderClassStr (s%"NXDL_schema__" ++ o.kind.text) o.members

/-- `punx/nxdl_schema.py:639, 644-650`: the line of an object. -/
def SObj.line (level : Nat) (o : SObj) : Str :=
  let nm := match o.name with
    | some n => n
    | none => s%"(" ++ o.kind.text ++ s%")"
  let nm := if o.kind = .attribute then '@' :: nm else nm
  List.replicate (4 * level) ' ' ++ nm ++ s%" : " ++ o.text

/-- What `print_tree` prints and returns. -/
structure Printed where
  lines : List Str
  count : Nat
  tally : Dict Str Nat

/-- `punx/nxdl_schema.py:654-657`: one turn of the loop of `keep_stats`. -/
def bump (db : Dict Str Nat) (kv : Str × Nat) : Dict Str Nat :=
  Dict.set db kv.1 ((Dict.get? db kv.1).getD 0 + kv.2)

/-- `punx/nxdl_schema.py:664-666`: the loop over the children; `f` is the nested call. -/
def printKids (f : SObj → Except PyErr Printed) : List SObj → Printed → Except PyErr Printed
  | [], p => .ok p
  | c :: cs, p => do
    let q ← f c
    printKids f cs ⟨p.lines ++ q.lines, p.count + q.count, q.tally.foldl bump p.tally⟩

/-- The values of a table, sorted by their labels (line 664). -/
def sortedValues (d : Dict Str SObj) : List SObj := (sortKeys d).map (·.2)

/-- `punx/nxdl_schema.py:637-667`: `print_tree` of an object as `build_tree` left it: there is no
member `elements` (line 634), so that only `attributes` and `groups` are looked at.  The number of
nested calls is bounded by Python's recursion limit; what was printed before it is reached is left
out. -/
def printTree : Nat → Nat → SObj → Except PyErr Printed
  | 0, _, _ => .error .recursionError
  | fuel + 1, level, o =>
    printKids (printTree fuel (level + 1)) (sortedValues o.attributes ++ sortedValues o.groups)
      ⟨[o.line level], 1, [(o.kind.text, 1)]⟩

/-- `punx/nxdl_schema.py:605`: a group whose `attributes` are replaced. -/
def SObj.withAttributes (g : SObj) (attrs : Dict Str SObj) : SObj :=
  .mk g.kind g.name g.key g.info (attrs.map (·.2) ++ g.kids.filter (·.kind ≠ .attribute))

/-- `summary.definition.groups` after `punx/nxdl_schema.py:604-605`. -/
def Summary.groups (s : Summary) : Dict Str SObj :=
  match s.definition.groups with
  | [] => []
  | (k, g) :: rest => (k, g.withAttributes s.groupAttributes) :: rest

/-- `print_tree(summary.definition)` -/
def printSummary (fuel : Nat) (s : Summary) : Except PyErr Printed :=
  match fuel with
  | 0 => .error .recursionError
  | fuel + 1 =>
    printKids (printTree fuel 1)
      (sortedValues s.definition.attributes ++ sortedValues s.groups)
      ⟨[s.definition.line 0], 1, [(s.definition.kind.text, 1)]⟩

/-! ## the manager -/

/-- `punx/nxdl_manager.py:110-120`: `NXDL_Manager.__str__`. -/
def managerText (classes : Dict Str ClassDef) : Str :=
  let count := classes.foldl (fun d kv => bump d (kv.2.category.dirName, 1)) []
  s%"NXDL_Manager(" ++
    join s%", " ((sortKeys count).map fun kv => kv.1 ++ s%":" ++ natStr kv.2) ++ s%")"

end Punx

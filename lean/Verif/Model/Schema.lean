import Verif.Py.Basic

/-!
# Name patterns of `nxdl.xsd`: `punx/schema_manager.py`
-/

namespace Punx

/-- A child node of an `xs:restriction`, with its XML attribute `value`. -/
inductive Facet
  | comment
  | pattern (value : Option Str)
  | maxLength (value : Option Str)
  | other
  deriving DecidableEq, Repr

/-- An `xs:restriction` element with its XML attribute `base`. -/
structure XsRestriction where
  base : Option Str
  facets : List Facet
  deriving DecidableEq, Repr

/-- An `xs:simpleType` child of the root of the schema. -/
structure SimpleType where
  name : Option Str
  restrictions : List XsRestriction
  deriving DecidableEq, Repr

/-- `punx/schema_manager.py:205-215`: `Schema_pattern`. -/
structure SchemaPattern where
  base : Str
  reList : List Str
  maxLength : Int
  deriving DecidableEq, Repr

/-- `punx/schema_manager.py:56-63`: `strip_ns`. -/
def stripNs (ref : Str) : Str := lastComp ':' ref

/-- The loop `punx/schema_manager.py:148-154`; `int` is Python's `int(text)`. -/
def readFacets (int : Str → Option Int) :
    List Facet → SchemaPattern → Except PyErr SchemaPattern
  | [], o => .ok o
  | .pattern none :: _, _ => .error .keyError
  | .pattern (some p) :: fs, o => readFacets int fs { o with reList := o.reList ++ [p] }
  | .maxLength none :: _, _ => .error .keyError
  | .maxLength (some n) :: fs, o =>
    match int n with
    | none => .error .valueError
    | some n => readFacets int fs { o with maxLength := n }
  | .comment :: fs, o => readFacets int fs o
  | .other :: fs, o => readFacets int fs o

/-- `punx/schema_manager.py:139-154` for one type. -/
def readType (int : Str → Option Int) (t : SimpleType) : Except PyErr SchemaPattern :=
  match t.restrictions with
  | [r] =>
    match r.base with
    | none => .error .keyError
    | some b => readFacets int r.facets ⟨stripNs b, [], -1⟩
  | _ => .error .assertionError

/-- The loop `punx/schema_manager.py:136-154`. -/
def readTypes (int : Str → Option Int) :
    List SimpleType → Dict Str SchemaPattern → Except PyErr (Dict Str SchemaPattern)
  | [], db => .ok db
  | t :: ts, db =>
    match t.name with
    | none => .error .keyError
    | some key =>
      if startsWith key s%"valid" then
        match readType int t with
        | .error e => .error e
        | .ok o => readTypes int ts (Dict.set db key o)
      else readTypes int ts db

/-- `punx/schema_manager.py:157-162`: one turn of the loop over the dictionary. -/
def inheritOne (db : Dict Str SchemaPattern) (k : Str) : Dict Str SchemaPattern :=
  match Dict.get? db k with
  | none => db
  | some v =>
    if v.base ≠ s%"token" then
      match Dict.get? db v.base with
      | none => db
      | some b => Dict.set db k ⟨b.base, v.reList ++ b.reList, b.maxLength⟩
    else db

/-- `punx/schema_manager.py:156-162`: the loop; the objects are changed in place, so
later turns see the changes of earlier ones. -/
def inheritAll (db : Dict Str SchemaPattern) : Dict Str SchemaPattern :=
  (Dict.keys db).foldl inheritOne db

/-- `punx/schema_manager.py:131-164`: `parse_nxdl_patterns`. -/
def parsePatterns (int : Str → Option Int) (ts : List SimpleType) :
    Except PyErr (Dict Str SchemaPattern) :=
  match readTypes int ts [] with
  | .error e => .error e
  | .ok db => .ok (inheritAll db)

end Punx

import Verif.Model.NxdlParse
import Mathlib.Data.List.Forall2

/-!
# What it means to read a definition document correctly

Written over XML documents; independent of the reader.
-/

namespace Punx.Spec

/-- An XML document as a parser delivers it: no element has two attributes of one
name. -/
inductive Lawful : Xml → Prop
  | comment : Lawful .comment
  | elem {nx tag a kids} : (Dict.keys a).Nodup → (∀ x ∈ kids, Lawful x) →
      Lawful (.elem nx tag a kids)

/-- the child elements of the given kind (in the namespace of the definitions) -/
def elements (tag : Str) (kids : List Xml) : List Xml := kids.filter fun
  | .comment => false
  | .elem nx t _ _ => nx && decide (t = tag)

/-- the XML attribute `name` of an element -/
def nameOf (x : Xml) : Option Str := Dict.get? x.attrib s%"name"

/-- The name asked for by a group element: its `name`, or its `type` without `NX`. -/
def AsksGroup (x : Xml) (n : Str) : Prop :=
  nameOf x = some n ∨
    nameOf x = none ∧ ∃ t, Dict.get? x.attrib s%"type" = some t ∧ n = t.drop 2

/-- The name asked for by a field or link element. -/
def AsksName (x : Xml) (n : Str) : Prop := nameOf x = some n

/-- `Named used wanted got`: names are given one after the other; a name that is not
in use is kept, otherwise the smallest positive number that makes it new is appended. -/
inductive Named : List Str → List Str → List Str → Prop
  | nil {used} : Named used [] []
  | fresh {used n wanted got} : n ∉ used → Named (used ++ [n]) wanted got →
      Named used (n :: wanted) (n :: got)
  | again {used n k wanted got} : n ∈ used → 1 ≤ k → n ++ natStr k ∉ used →
      (∀ j, 1 ≤ j → j < k → n ++ natStr j ∈ used) →
      Named (used ++ [n ++ natStr k]) wanted got →
      Named used (n :: wanted) ((n ++ natStr k) :: got)

/-- values listed by the enumeration of an attribute or field element; an item may lack a value -/
def listedItems (x : Xml) : List (Option Str) :=
  (elements s%"enumeration" x.kids).flatMap fun e =>
    (elements s%"item" e.kids).map fun i => Dict.get? i.attrib s%"value"

/-- the same without the items that lack a value -/
def listed (x : Xml) : List Str :=
  (elements s%"enumeration" x.kids).flatMap fun e =>
    (elements s%"item" e.kids).filterMap fun i => Dict.get? i.attrib s%"value"

/-- The attributes declared among `kids`, in order. -/
def DeclaresAttrs (kids : List Xml) (d : Dict Str AttrSpec) : Prop :=
  List.Forall₂ (fun x kv => nameOf x = some kv.1 ∧ kv.2.enums = listed x)
    (elements s%"attribute" kids) d ∧ (Dict.keys d).Nodup

/-- The `dim` elements with the given index. -/
def dimsAt (kids : List Xml) (k : Option Str) : List Xml :=
  (elements s%"dim" kids).filter fun e => Dict.get? e.attrib s%"index" = k

/-- `s` tells what the `dim` element `e` says. -/
def DescribesDim (e : Xml) (s : DimSpec) : Prop :=
  s.index = Dict.get? e.attrib s%"index" ∧ s.value = Dict.get? e.attrib s%"value" ∧
  s.ref = Dict.get? e.attrib s%"ref" ∧ s.refindex = Dict.get? e.attrib s%"refindex" ∧
  s.incr = Dict.get? e.attrib s%"incr"

/-- `s` tells what the `dimensions` element `y` says: the rank, and for every index what the
last `dim` element with this index says. -/
def DescribesDims (y : Xml) (s : DimsSpec) : Prop :=
  s.rank = Dict.get? y.attrib s%"rank" ∧ (Dict.keys s.dims).Nodup ∧
  (∀ k, k ∈ Dict.keys s.dims ↔ dimsAt y.kids k ≠ []) ∧
  ∀ k d, Dict.get? s.dims k = some d →
    ∃ e, (dimsAt y.kids k).getLast? = some e ∧ DescribesDim e d

/-- The dimensions of a field: described if there is exactly one `dimensions` element. -/
def HasDims (x : Xml) (o : Option DimsSpec) : Prop :=
  (∀ s, o = some s → ∃ y, elements s%"dimensions" x.kids = [y] ∧ DescribesDims y s) ∧
  (o = none → ∀ y, elements s%"dimensions" x.kids ≠ [y])

/-- The specification of a field element. -/
def DescribesField (x : Xml) (f : FieldSpec) : Prop :=
  DeclaresAttrs x.kids f.attrs ∧ f.enums = listedItems x ∧ HasDims x f.dims

/-- What a group element says about attributes: an XML attribute other than name and
type, or else a declared attribute. -/
def DescribesAttrs (a : Dict Str Str) (kids : List Xml) (d : Dict Str GAttr) : Prop :=
  ∃ ds, DeclaresAttrs kids ds ∧ ∀ k,
    Dict.get? d k =
      if k ≠ s%"name" ∧ k ≠ s%"type" ∧ Dict.has a k then (Dict.get? a k).map .raw
      else (Dict.get? ds k).map .spec

/-- The groups, fields and links among `kids`: every element is kept, in order, and
all names are given together. -/
structure Contents (kids : List Xml) (groups fields links : List Str) : Prop where
  names : ∃ wg wf wl,
    List.Forall₂ AsksGroup (elements s%"group" kids) wg ∧
    List.Forall₂ AsksName (elements s%"field" kids) wf ∧
    List.Forall₂ AsksName (elements s%"link" kids) wl ∧
    Named [] (wg ++ wf ++ wl) (groups ++ fields ++ links)
  countGroups : groups.length = (elements s%"group" kids).length
  countFields : fields.length = (elements s%"field" kids).length

/-- `Describes x g`: `g` is the specification given by the group element `x`. -/
inductive Describes : Xml → GroupSpec → Prop
  | mk {nx tag a kids attrs} {groups : Dict Str GroupSpec} {fields : Dict Str FieldSpec}
      {links : Dict Str LinkSpec} :
      DescribesAttrs a kids attrs →
      Contents kids (Dict.keys groups) (Dict.keys fields) (Dict.keys links) →
      (∀ (i : Nat) (x : Xml) (kv : Str × GroupSpec),
        (elements s%"group" kids)[i]? = some x → groups[i]? = some kv → Describes x kv.2) →
      (∀ (i : Nat) (x : Xml) (kv : Str × FieldSpec),
        (elements s%"field" kids)[i]? = some x → fields[i]? = some kv →
        DescribesField x kv.2) →
      (∀ (i : Nat) (x : Xml) (kv : Str × LinkSpec),
        (elements s%"link" kids)[i]? = some x → links[i]? = some kv →
        kv.2.target = Dict.get? x.attrib s%"target") →
      Describes (.elem nx tag a kids) (.mk attrs groups fields links)

/-- names of the symbols listed by a document -/
def symbolNames (x : Xml) : List Str :=
  (elements s%"symbols" x.kids).flatMap fun t => t.kids.filterMap fun n =>
    match n with
    | .comment => none
    | .elem _ tag a _ => if tag = s%"symbol" then Dict.get? a s%"name" else none

/-- `DescribesClass t c x cd`: `cd` is the class `t` of category `c` defined by the
document `x`. -/
structure DescribesClass (t : Str) (c : Category) (x : Xml) (cd : ClassDef) : Prop where
  title : cd.title = t
  category : cd.category = c
  attrs : DeclaresAttrs x.kids cd.attrs
  contents : Contents x.kids (Dict.keys cd.groups) (Dict.keys cd.fields) (Dict.keys cd.links)
  groups : ∀ (i : Nat) (g : Xml) (kv : Str × GroupSpec),
    (elements s%"group" x.kids)[i]? = some g → cd.groups[i]? = some kv → Describes g kv.2
  fields : ∀ (i : Nat) (f : Xml) (kv : Str × FieldSpec),
    (elements s%"field" x.kids)[i]? = some f → cd.fields[i]? = some kv → DescribesField f kv.2
  links : ∀ (i : Nat) (l : Xml) (kv : Str × LinkSpec),
    (elements s%"link" x.kids)[i]? = some l → cd.links[i]? = some kv →
    kv.2.target = Dict.get? l.attrib s%"target"
  symbols : cd.symbols = symbolNames x

/-- Names are unique among the groups, fields and links of the group and of all
groups inside it. -/
inductive UniqueNames : GroupSpec → Prop
  | mk {attrs} {groups : Dict Str GroupSpec} {fields : Dict Str FieldSpec}
      {links : Dict Str LinkSpec} :
      (Dict.keys groups ++ Dict.keys fields ++ Dict.keys links).Nodup →
      (∀ kv ∈ groups, UniqueNames kv.2) → UniqueNames (.mk attrs groups fields links)

/-- The declared attributes have names, all different. -/
def GoodAttrs (kids : List Xml) : Prop :=
  (∀ x ∈ elements s%"attribute" kids, (nameOf x).isSome) ∧
    ((elements s%"attribute" kids).map nameOf).Nodup

/-- A field element that can be read. -/
def GoodField (x : Xml) : Prop := (nameOf x).isSome ∧ GoodAttrs x.kids

/-- A group element that can be read. -/
inductive GoodGroup : Xml → Prop
  | mk {nx tag a kids} : Dict.has a s%"type" = true → GoodAttrs kids →
      (∀ g ∈ elements s%"group" kids, GoodGroup g) →
      (∀ f ∈ elements s%"field" kids, GoodField f) →
      (∀ l ∈ elements s%"link" kids, (nameOf l).isSome) →
      GoodGroup (.elem nx tag a kids)

/-- A definition document that can be read. -/
structure GoodDocument (x : Xml) : Prop where
  attrs : GoodAttrs x.kids
  groups : ∀ g ∈ elements s%"group" x.kids, GoodGroup g
  fields : ∀ f ∈ elements s%"field" x.kids, GoodField f
  links : ∀ l ∈ elements s%"link" x.kids, (nameOf l).isSome

/-- Two documents that differ at most in the XML attributes of field elements other
than the name (such as `minOccurs` and `optional`). -/
inductive SameButFieldOptions : Xml → Xml → Prop
  | comment : SameButFieldOptions .comment .comment
  | elem {nx tag a k k'} : k.length = k'.length →
      (∀ (i : Nat) (x y : Xml), k[i]? = some x → k'[i]? = some y → SameButFieldOptions x y) →
      SameButFieldOptions (.elem nx tag a k) (.elem nx tag a k')
  | field {nx a a' k} : Dict.get? a s%"name" = Dict.get? a' s%"name" →
      SameButFieldOptions (.elem nx s%"field" a k) (.elem nx s%"field" a' k)

/-- A value that is equal to the number 1, as Python compares. -/
def IsOne (v : DefVal) : Prop := v = .int 1 ∨ v = .bool true

/-- There is a field somewhere in the element. -/
inductive HasField : Xml → Prop
  | here {x f} : f ∈ elements s%"field" x.kids → HasField x
  | deeper {x g} : g ∈ elements s%"group" x.kids → HasField g → HasField x

/-- The schema declares the three defaults that the reader overwrites, and the parts of
fields that it looks up. -/
def Declared (d : Defaults) : Prop :=
  d.attrOptional.isSome ∧ d.fieldMinOccurs.isSome ∧ d.groupMinOccurs.isSome ∧
    d.dimensions = true ∧ d.dim = true

/-- the file is one of the definitions of its directory -/
def IsNxdl (f : NxdlFile) : Prop := ∃ s, f.name = s ++ s%".nxdl.xml"

/-- the name of the class defined by a file: the text before the first dot -/
def Titled (f : NxdlFile) (t : Str) : Prop :=
  '.' ∉ t ∧ (f.name = t ∨ ∃ rest, f.name = t ++ '.' :: rest)

/-- Rank of a category: later ones replace earlier ones. -/
def rank : Category → Nat
  | .baseClasses => 0 | .applications => 1 | .contributed => 2

/-- The file `f` of category `c` defines `t` and no other file that does so comes
later: a file of a later category, or of the same category with a greater name. -/
def Wins (dir : DefDir) (t : Str) (c : Category) (f : NxdlFile) : Prop :=
  (∃ fs, dir.listing c = some fs ∧ f ∈ fs) ∧ IsNxdl f ∧ Titled f t ∧
    ∀ c' fs' f', dir.listing c' = some fs' → f' ∈ fs' → IsNxdl f' → Titled f' t →
      rank c' < rank c ∨ c' = c ∧ strLe f'.name f.name

end Punx.Spec

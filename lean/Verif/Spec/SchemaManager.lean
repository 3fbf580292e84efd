import Mathlib.Data.List.Forall2
import Verif.Model.SchemaManager
import Verif.Spec.NxdlSchema
import Verif.Spec.Schema

/-!
# Vocabulary for the schema managers
-/

namespace Punx.Spec
open Punx

/-- One creation of a schema manager: the contents of `nxdl.xsd` and `nxdlTypes.xsd`. -/
structure Load where
  xsd : Option XsNode
  types : Option XsNode

/-- The shared objects after schema managers were created one after the other; exceptions are
caught. -/
def afterLoads (fuel : Nat) (int : Str → Option Int) (valid : XsNode → Option XsNode → Bool) :
    List Load → Shared → Shared
  | [], s => s
  | l :: ls, s => afterLoads fuel int valid ls (newManager fuel int valid l.xsd l.types s).2

/-- `p` is `own` laid over `old`. -/
structure LaidOver (own old p : Parts) : Prop where
  attrs : ∀ k, Dict.get? p.attrs k = (Dict.get? own.attrs k).or (Dict.get? old.attrs k)
  children : ∀ k, Dict.get? p.children k = (Dict.get? own.children k).or (Dict.get? old.children k)

/-- `e` occurs in `d`. -/
inductive Within : MElem → MElem → Prop
  | self {d} : Within d d
  | child {d e k c} : (k, c) ∈ d.children → Within c e → Within d e

/-- A group element of which nothing is known. -/
def Hollow (e : MElem) : Prop :=
  ∀ a c, e = .mk (some s%"group") (some s%"nx:groupType") a c →
    a = [] ∧ c = [(some s%"group", .recursion)]

/-! ## what a schema gives to a type -/

/-- The name of a declaration. -/
def nameAttr (n : XsNode) : Option Str := Dict.get? n.attrib s%"name"

/-- XML Schema gives the attribute declaration `n` to the complex type or attribute group `k`. -/
def AttrOf (root : XsNode) (k : Str) (n : XsNode) : Prop := OfType root k n ∨ OfGroup root k n

/-- `v` is the value of a facet `tag` written inside of the attribute declaration `n`. -/
def HasFacet (n : XsNode) (tag v : Str) : Prop :=
  ∃ s ∈ n.select s%"simpleType", ∃ r ∈ s.select s%"restriction", ∃ e ∈ r.select tag,
    Dict.get? e.attrib s%"value" = some v

/-- A word of small letters, written in any case. -/
def AnyCase (v word : Str) : Prop := List.Forall₂ (fun c k => c = k ∨ c.toNat + 32 = k.toNat) v word

/-- `x` says what the attribute declaration `n` says. -/
structure MeansAttr (n : XsNode) (x : MAttr) : Prop where
  name : x.name = nameAttr n
  required : x.required = true ↔ Dict.get? n.attrib s%"use" = some s%"required"
  type : x.type = (Dict.get? n.attrib s%"type").getD s%"str"
  enum : ∀ v, v ∈ x.enum ↔ HasFacet n s%"enumeration" v
  patterns : ∀ v, v ∈ x.patterns ↔ HasFacet n s%"pattern" v
  text : ∀ v, x.default = .text v ↔
    Dict.get? n.attrib s%"default" = some v ∧ x.type ≠ s%"nx:NX_BOOLEAN"
  flag : ∀ b, x.default = .flag b → x.type = s%"nx:NX_BOOLEAN" ∧
    ∃ v, Dict.get? n.attrib s%"default" = some v ∧
      (b = true ↔ AnyCase v s%"true" ∨ AnyCase v s%"y")
  none : x.default = .none ↔ Dict.get? n.attrib s%"default" = none

/-- The dictionary describes exactly the declarations `D`, each under its name. -/
structure Holds (D : XsNode → Prop) (d : Dict (Option Str) MAttr) : Prop where
  sound : ∀ a x, Dict.get? d a = some x → ∃ n, D n ∧ nameAttr n = a ∧ MeansAttr n x
  complete : ∀ n, D n → ∃ x, Dict.get? d (nameAttr n) = some x

/-- What the validity of a schema says about references: they lead to declarations of the right
kind, and attributes occur in attribute groups and complex types only. -/
structure ValidRefs (root : XsNode) : Prop where
  kinds : ∀ m ∈ root.kids, m.isXs s%"complexType" = true ∨
    (m.select s%"complexContent" = [] ∧ m.select s%"group" = [] ∧
      (m.isXs s%"attributeGroup" = true ∨
        m.select s%"attribute" = [] ∧ m.select s%"attributeGroup" = []))
  groups : ∀ g ∈ root.everywhere s%"group", ∀ r, Dict.get? g.attrib s%"ref" = some r →
    ∃ n ∈ root.select s%"group", HasName n (stripNs r)
  attrGroups : ∀ m ∈ root.kids, ∀ g ∈ m.select s%"attributeGroup",
    ∀ r, Dict.get? g.attrib s%"ref" = some r →
      ∃ n ∈ root.select s%"attributeGroup", HasName n (stripNs r)
  sequences : ∀ m ∈ root.kids, m.isXs s%"complexType" = true ∨ m.isXs s%"group" = true ∨
    m.select s%"sequence" = []
  bases : ∀ m ∈ root.kids, ∀ e, Extends m e → ∀ b, Dict.get? e.attrib s%"base" = some b →
    ∃ n ∈ root.select s%"complexType", HasName n (stripNs b)

/-- `m` is the first attribute of a type that is written inside of the element declaration `n`. -/
def FirstInside (n m : XsNode) : Prop :=
  ∃ t ∈ n.select s%"complexType", (t.select s%"attribute").head? = some m

/-- The attributes of an element are those of its type; nothing is known of a group element below
a group element. If the type is written inside of the element, only its first attribute is known,
and nothing else. -/
structure AttrsOfType (root : XsNode) (e : MElem) : Prop where
  typed : ∀ x ref a c, e = .mk x (some ref) a c →
    Holds (AttrOf root (stripNs ref)) a ∨
      x = some s%"group" ∧ ref = s%"nx:groupType" ∧ a = []
  inside : ∀ x a c, e = .mk x none a c → c = [] ∧ ∃ n ∈ root.nodes,
    nameAttr n = x ∧ Dict.get? n.attrib s%"type" = none ∧ Holds (FirstInside n) a

/-! ## the elements of a type -/

/-- `x` is an element or a reference to a group in the content `m`. -/
inductive Particle : XsNode → XsNode → Prop
  | here {m x} : x ∈ m.kids → x.isXs s%"element" = true ∨ x.isXs s%"group" = true → Particle m x
  | inside {m n x} : n ∈ m.kids →
      n.isXs s%"sequence" = true ∨ n.isXs s%"choice" = true ∨ n.isXs s%"all" = true →
      Particle n x → Particle m x

/-- The nodes in which the content of a type or group is written. -/
def Content (t c : XsNode) : Prop := c = t ∨ Extends t c

/-- `t` declares the complex type or the group `k`. -/
def DeclaresChild (root : XsNode) (k : Str) (t : XsNode) : Prop :=
  t ∈ root.kids ∧ (t.isXs s%"complexType" = true ∨ t.isXs s%"group" = true) ∧ HasName t k

/-- `ElemOf root k n`: XML Schema gives the element declaration `n` to the complex type or group
`k`: written there, in a group that is referred to, or in the base. -/
inductive ElemOf (root : XsNode) : Str → XsNode → Prop
  | own {k t c n} : DeclaresChild root k t → Content t c → Particle c n → n.isXs s%"element" = true →
      ElemOf root k n
  | group {k t c g r n} : DeclaresChild root k t → Content t c → Particle c g →
      g.isXs s%"group" = true → Dict.get? g.attrib s%"ref" = some r →
      ElemOf root (stripNs r) n → ElemOf root k n
  | base {k t e b n} : DeclaresChild root k t → Extends t e → Dict.get? e.attrib s%"base" = some b →
      ElemOf root (stripNs b) n → ElemOf root k n

/-- The type or group `k'` is used for `k`, directly or indirectly. -/
inductive Leads (root : XsNode) : Str → Str → Prop
  | refl {k} : Leads root k k
  | group {k t c g r k'} : DeclaresChild root k t → Content t c → Particle c g →
      g.isXs s%"group" = true → Dict.get? g.attrib s%"ref" = some r →
      Leads root (stripNs r) k' → Leads root k k'
  | element {k t c n r k'} : DeclaresChild root k t → Content t c → Particle c n →
      n.isXs s%"element" = true → Dict.get? n.attrib s%"type" = some r →
      Leads root (stripNs r) k' → Leads root k k'
  | base {k t e b k'} : DeclaresChild root k t → Extends t e → Dict.get? e.attrib s%"base" = some b →
      Leads root (stripNs b) k' → Leads root k k'

/-- `r` is the reference of a group or the type of an element in the content of `k`. -/
def Uses (root : XsNode) (k r : Str) : Prop :=
  ∃ t x, DeclaresChild root k t ∧ Particle t x ∧
    ((x.isXs s%"group" = true ∧ Dict.get? x.attrib s%"ref" = some r) ∨
      (x.isXs s%"element" = true ∧ Dict.get? x.attrib s%"type" = some r))

/-- No sequence of the type or group `k` refers to a group. -/
def NoGroupInSequence (root : XsNode) (k : Str) : Prop :=
  ∀ t c s, DeclaresChild root k t → Content t c → s ∈ c.select s%"sequence" → s.select s%"group" = []

/-- The dictionary names exactly the elements `D`, each with its type. -/
structure HoldsElems (D : XsNode → Prop) (d : Dict (Option Str) MElem) : Prop where
  sound : ∀ k c, Dict.get? d k = some c → ∃ n a ch, D n ∧ nameAttr n = k ∧
    c = .mk (nameAttr n) (Dict.get? n.attrib s%"type") a ch
  complete : ∀ n, D n → ∃ c, Dict.get? d (nameAttr n) = some c

/-- The children of an element are those of its type; nothing is known of a group element below
a group element. -/
def ElemsOfType (root : XsNode) (e : MElem) : Prop :=
  ∀ x ref a c, e = .mk x (some ref) a c →
    HoldsElems (ElemOf root (stripNs ref)) c ∨
      x = some s%"group" ∧ ref = s%"nx:groupType" ∧ c = [(some s%"group", .recursion)]

/-! ## types of data and units -/

/-- `n` is a declaration at the top of `nxdlTypes.xsd`. -/
def TopNode (root n : XsNode) : Prop :=
  n ∈ root.kids ∧ n ≠ .comment ∧ n.isXs s%"annotation" = false

/-- The type is written with lists, restrictions and unions only. -/
def NxReadable (n : XsNode) : Prop :=
  ∀ c ∈ n.kids, c = .comment ∨ c.isXs s%"annotation" = true ∨
    (c.isXs s%"list" = true ∧ HasAttr c s%"itemType") ∨
    (c.isXs s%"restriction" = true ∧ HasAttr c s%"base" ∧
      ∀ e ∈ c.select s%"enumeration", HasAttr e s%"value") ∨
    (c.isXs s%"union" = true ∧ HasAttr c s%"memberTypes")

/-- `c` is all that the type consists of, beside its documentation. -/
def Consists (n c : XsNode) : Prop :=
  n.kids.filter (fun k => match k with
    | .comment => false
    | _ => !k.isXs s%"annotation") = [c]

/-- `o` says what the declaration `n` of a type says. -/
structure NxDescribes (n : XsNode) (o : NxType) : Prop where
  list : ∀ c i, Consists n c → c.isXs s%"list" = true → Dict.get? c.attrib s%"itemType" = some i →
    o = ⟨none, none, some [stripNs i]⟩
  union : ∀ c m, Consists n c → c.isXs s%"union" = true →
    Dict.get? c.attrib s%"memberTypes" = some m → o = ⟨none, some m, none⟩
  restriction : ∀ c b, Consists n c → c.isXs s%"restriction" = true →
    Dict.get? c.attrib s%"base" = some b →
    o = ⟨some (stripNs b), none, some ((c.select s%"enumeration").filterMap
      fun e => Dict.get? e.attrib s%"value")⟩

/-! ## the name patterns of a schema -/

/-- The values of the facets `tag` of a restriction, in order. -/
def writtenFacets (r : XsNode) (tag : Str) : List Str :=
  (r.select tag).filterMap fun e => Dict.get? e.attrib s%"value"

/-- The schema has a type for names, `valid…`, called `k`. -/
def NameType (root : XsNode) (k : Str) : Prop :=
  s%"valid" <+: k ∧ ∃ t ∈ root.select s%"simpleType", nameAttr t = some k

/-- The last simple type called `k` in the schema restricts `base`, has the patterns `own`, and `n`
is its last `maxLength` (`none`: it has none). -/
def DeclaresNames (root : XsNode) (k base : Str) (own : List Str) (n : Option Str) : Prop :=
  ∃ pre t post r b, root.select s%"simpleType" = pre ++ t :: post ∧ nameAttr t = some k ∧
    (∀ u ∈ post, nameAttr u ≠ some k) ∧ t.select s%"restriction" = [r] ∧
    Dict.get? r.attrib s%"base" = some b ∧ WithoutPrefix b base ∧
    own = writtenFacets r s%"pattern" ∧ n = (writtenFacets r s%"maxLength").getLast?

end Punx.Spec

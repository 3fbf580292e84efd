import Verif.Model.NxdlSchema

/-!
# What a schema says, whatever its layout
-/

namespace Punx.Spec

mutual
/-- The node without line numbers. -/
def withoutLines : XsNode → XsNode
  | .comment => .comment
  | .elem xs t _ a k => .elem xs t 0 a (withoutLinesOf k)
def withoutLinesOf : List XsNode → List XsNode
  | [] => []
  | n :: ns => withoutLines n :: withoutLinesOf ns
end

/-- The two documents differ at most in their line breaks. -/
def SameContent (r r' : XsNode) : Prop := withoutLines r = withoutLines r'

/-- No two attributes, no two elements and no two groups of the schema start on one line. -/
def DistinctLines (root : XsNode) : Prop :=
  ∀ tag ∈ [s%"attribute", s%"element", s%"group"],
    ((root.everywhere tag).map XsNode.line).Nodup

/-! ## schemas that can be read -/

/-- The patterns written inside of an attribute declaration. -/
def innerPatterns (n : XsNode) : List XsNode :=
  ((n.select s%"simpleType").flatMap (·.select s%"restriction")).flatMap (·.select s%"pattern")

/-- The node has the XML attribute `k`. -/
def HasAttr (n : XsNode) (k : Str) : Prop := ∃ v, Dict.get? n.attrib k = some v

/-- If an attribute declaration has one pattern, this has a value. -/
def PatternGiven (n : XsNode) : Prop := ∀ p, innerPatterns n = [p] → HasAttr p s%"value"

/-- The patterns of a simple type have values, its lengths are numbers. -/
def SimpleReadable (int : Str → Option Int) (n : XsNode) : Prop :=
  ∀ r ∈ n.select s%"restriction",
    (∀ p ∈ r.select s%"pattern", HasAttr p s%"value") ∧
    ∀ m ∈ r.select s%"maxLength", ∃ v k, Dict.get? m.attrib s%"value" = some v ∧ int v = some k

/-- The node declares the name `k`. -/
def HasName (n : XsNode) (k : Str) : Prop := Dict.get? n.attrib s%"name" = some k

/-- The names that can be referred to after the complex types `before` were read: simple types
and attribute groups of the schema, groups wherever they are, and these types. -/
def Known (root : XsNode) (before : List XsNode) (k : Str) : Prop :=
  (∃ n ∈ root.select s%"simpleType", HasName n k) ∨
  (∃ n ∈ root.select s%"attributeGroup", HasName n k) ∨
  (∃ n ∈ root.everywhere s%"group", HasName n k) ∨
  ∃ n ∈ before, HasName n k

/-- A complex type refers to known names only: its content begins with an extension of a known
base, its attribute groups are known. -/
def RefersTo (known : Str → Prop) (n : XsNode) : Prop :=
  (∀ c ∈ n.select s%"complexContent", ∃ x rest, c.kids = x :: rest ∧ x.isXs s%"extension" ∧
    ∀ b, Dict.get? x.attrib s%"base" = some b → known (stripNs b)) ∧
  ∀ g ∈ n.select s%"attributeGroup", ∃ r, Dict.get? g.attrib s%"ref" = some r ∧ known (stripNs r)

/-- The schema can be read. -/
structure SchemaReadable (int : Str → Option Int) (root : XsNode) : Prop where
  simple : ∀ n ∈ root.select s%"simpleType", SimpleReadable int n
  pattern : ∀ n ∈ root.everywhere s%"attribute", PatternGiven n
  section' : (∃ n ∈ root.everywhere s%"group", HasAttr n s%"name") →
    root.select s%"simpleType" ≠ [] ∨ root.select s%"attributeGroup" ≠ []
  order : ∀ before n after, root.select s%"complexType" = before ++ n :: after →
    HasAttr n s%"name" → RefersTo (Known root before) n

/-! ## references to types -/

/-- `c` is a part of `o` once the type of `o` was put in its place: one of its own children, or a
child of the type that is not a reference to the group of all elements. -/
def Part (schema : Dict (Option Str) SRef) (c o : SObj) : Prop :=
  o.kind ≠ .attribute ∧ ∃ k r, o.key = some k ∧ Dict.get? schema (some k) = some r ∧
    (c ∈ o.kids ∨ c ∈ r.kids ∧ ¬ (c.kind = .group ∧ c.key = some s%"groupGroup"))

/-- `c` is reached from `o` by going to parts. -/
inductive ReachesPart (schema : Dict (Option Str) SRef) (o : SObj) : SObj → Prop
  | self : ReachesPart schema o o
  | part {p c} : ReachesPart schema o p → Part schema c p → ReachesPart schema o c

/-- The types can be put in: parts of parts of `o` come to an end, and there is no type without a
name that an object without a type could be mistaken for. -/
def Resolvable (schema : Dict (Option Str) SRef) (o : SObj) : Prop :=
  Acc (Part schema) o ∧
    ∀ c, ReachesPart schema o c → c.key = none → Dict.get? schema none = none

/-- What becomes of an attribute: it takes pattern and length from its simple type. -/
def resolved (schema : Dict (Option Str) SRef) (c : SObj) : SObj :=
  match c.key with
  | none => c
  | some k => match Dict.get? schema (some k) with
    | none => c
    | some r => .mk c.kind c.name (some (s%"__" ++ k)) (match r with
        | .simple s => { c.info with patterns := s.patterns, maxLength := s.maxLength }
        | .other _ => c.info) c.kids

/-! ## where attributes come from -/

/-- `OfGroup root k n`: XML Schema gives the attribute declaration `n` to the attribute group `k`. -/
inductive OfGroup (root : XsNode) : Str → XsNode → Prop
  | own {k g n} : g ∈ root.select s%"attributeGroup" → HasName g k → n ∈ g.select s%"attribute" →
      OfGroup root k n
  | nested {k g r s n} : g ∈ root.select s%"attributeGroup" → HasName g k →
      r ∈ g.select s%"attributeGroup" → Dict.get? r.attrib s%"ref" = some s →
      OfGroup root (stripNs s) n → OfGroup root k n

/-- `Extends t e`: the complex type `t` is written as the extension `e`. -/
def Extends (t e : XsNode) : Prop :=
  ∃ c ∈ t.select s%"complexContent", e ∈ c.select s%"extension"

/-- `OfType root k n`: XML Schema gives the attribute declaration `n` to the complex type `k`:
written there, in its extension, in an attribute group that these refer to, or in the base. -/
inductive OfType (root : XsNode) : Str → XsNode → Prop
  | own {k t n} : t ∈ root.select s%"complexType" → HasName t k → n ∈ t.select s%"attribute" →
      OfType root k n
  | group {k t g r n} : t ∈ root.select s%"complexType" → HasName t k →
      g ∈ t.select s%"attributeGroup" → Dict.get? g.attrib s%"ref" = some r →
      OfGroup root (stripNs r) n → OfType root k n
  | extension {k t e n} : t ∈ root.select s%"complexType" → HasName t k → Extends t e →
      n ∈ e.select s%"attribute" → OfType root k n
  | extensionGroup {k t e g r n} : t ∈ root.select s%"complexType" → HasName t k → Extends t e →
      g ∈ e.select s%"attributeGroup" → Dict.get? g.attrib s%"ref" = some r →
      OfGroup root (stripNs r) n → OfType root k n
  | base {k t e b n} : t ∈ root.select s%"complexType" → HasName t k → Extends t e →
      Dict.get? e.attrib s%"base" = some b → OfType root (stripNs b) n → OfType root k n

/-- The declarations that are kept under their names. -/
def namedNodes (root : XsNode) : List XsNode :=
  root.select s%"simpleType" ++ root.select s%"attributeGroup" ++ root.everywhere s%"group" ++
    root.select s%"complexType"

/-- A schema as the code expects it: names are used once, whatever for; extended types are not
attribute groups and referenced attribute groups are; there is one extension in the content of
a type; attribute groups occur neither in attribute groups nor in extensions. -/
structure PlainSchema (root : XsNode) : Prop where
  names : ((namedNodes root).filterMap fun n => Dict.get? n.attrib s%"name").Nodup
  refs : ∀ t ∈ root.select s%"complexType", ∀ g ∈ t.select s%"attributeGroup",
    ∀ r, Dict.get? g.attrib s%"ref" = some r →
      ∃ a ∈ root.select s%"attributeGroup", HasName a (stripNs r)
  bases : ∀ t ∈ root.select s%"complexType", ∀ e, Extends t e →
    ∀ b, Dict.get? e.attrib s%"base" = some b →
      ∀ a ∈ root.select s%"attributeGroup", ¬ HasName a (stripNs b)
  single : ∀ t ∈ root.select s%"complexType", ∀ c ∈ t.select s%"complexContent",
    ∃ e, c.select s%"extension" = [e]
  flat : ∀ g ∈ root.select s%"attributeGroup", g.select s%"attributeGroup" = []
  flatExtension : ∀ t ∈ root.select s%"complexType", ∀ e, Extends t e →
    e.select s%"attributeGroup" = []

end Punx.Spec

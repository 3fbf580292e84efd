import Verif.Spec.NxdlSchema

/-!
# The parts of complex types, as XML Schema has them (C106)
-/

namespace Punx.Spec
open Punx

/-- The model groups among the children of a node. -/
def particles (n : XsNode) : List XsNode :=
  n.kids.filter fun c => c.isXs s%"sequence" || (c.isXs s%"choice" || c.isXs s%"all")

/-- A declaration of, or reference to, an element or a group. -/
def IsPart (n : XsNode) : Prop := n.isXs s%"element" = true ∨ n.isXs s%"group" = true

/-- `InParticle p n`: the part `n` is in the model group `p`, at any depth. -/
inductive InParticle : XsNode → XsNode → Prop
  | here {p n} : n ∈ p.kids → IsPart n → InParticle p n
  | deeper {p q n} : q ∈ particles p → InParticle q n → InParticle p n

/-- `InContent t n`: the part `n` is in the content of `t` (a complex type, an extension). -/
def InContent (t n : XsNode) : Prop :=
  n ∈ t.select s%"group" ∨ ∃ p ∈ particles t, InParticle p n

/-- `PartOf root k n`: XML Schema gives the part `n` to the complex type `k`: written there, in its
extension, or inherited. -/
inductive PartOf (root : XsNode) : Str → XsNode → Prop
  | own {k t n} : t ∈ root.select s%"complexType" → HasName t k → InContent t n → PartOf root k n
  | extension {k t e n} : t ∈ root.select s%"complexType" → HasName t k → Extends t e →
      InContent e n → PartOf root k n
  | base {k t e b n} : t ∈ root.select s%"complexType" → HasName t k → Extends t e →
      Dict.get? e.attrib s%"base" = some b → PartOf root (stripNs b) n → PartOf root k n

/-- What is kept of a part. -/
def Keeps (n : XsNode) (o : SObj) : Prop :=
  (n.isXs s%"element" = true ∧ parseElem n = .ok o) ∨ (n.isXs s%"group" = true ∧ parseGroup n = .ok o)

/-- Only sequences, which have no model groups in them. -/
def FlatContent (t : XsNode) : Prop :=
  particles t = t.select s%"sequence" ∧ ∀ p ∈ t.select s%"sequence", particles p = []

/-- Content as the code expects it: sequences only, extensions have no group of their own and extend
no group. -/
structure PlainContent (root : XsNode) : Prop where
  types : ∀ t ∈ root.select s%"complexType", FlatContent t
  extensions : ∀ t ∈ root.select s%"complexType", ∀ e, Extends t e →
    FlatContent e ∧ e.select s%"group" = []
  bases : ∀ t ∈ root.select s%"complexType", ∀ e, Extends t e →
    ∀ b, Dict.get? e.attrib s%"base" = some b →
      ∀ g ∈ root.everywhere s%"group", ¬ HasName g (stripNs b)

end Punx.Spec

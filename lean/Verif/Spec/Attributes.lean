import Verif.Spec.Names
import Verif.Model.Nxdl
import Verif.Spec.Catalog

/-!
# Specification vocabulary for attribute values
-/

namespace Punx.Spec

/-- Relaxed patterns of the definitions accept the name. -/
def RelaxedBy (word : Char → Bool) (mgr : Manager) (s : Str) : Prop :=
  ∃ p ∈ mgr.itemPats.getD [], PatAccepts word p s

/-- Verdict on an attribute name: OK if it satisfies one of the rules, else ERROR. -/
def AttrNameRule (word : Char → Bool) (mgr : Manager) (name : Str) (st : Status) : Prop :=
  (OrNewline StrictName name ∨ RelaxedBy word mgr name → st = .ok) ∧
  (¬ OrNewline StrictName name → ¬ RelaxedBy word mgr name → st = .error)

/-- The name is accepted by the strict or relaxed patterns. -/
def NameOk (env : Env) (mgr : Manager) (p : Str) : Prop :=
  OrNewline StrictName p ∨ RelaxedBy env.word mgr p

/-- Verdict on a name that stands in an attribute value. -/
def ValueNameRule (name : Str) (relaxed : Prop) (st : Status) : Prop :=
  (OrNewline StrictName name → st = .ok) ∧
  (¬ OrNewline StrictName name → relaxed → st = .note) ∧
  (¬ OrNewline StrictName name → ¬ relaxed → st = .error)

/-- A name without path syntax. -/
def SimpleName (s : Str) : Prop := s ≠ [] ∧ '/' ∉ s ∧ s ≠ s%"."

/-- Following links by name from a group leads to an object. -/
inductive Reaches : Node → List Str → Node → Prop
  | here (n : Node) : Reaches n [] n
  | step {n : Str} {a : List (Str × Val)} {ks : Kids} {l : Str} {m k : Node} {ls : List Str} :
      ks.toList.lookup l = some (some m) → Reaches m ls k → Reaches (.group n a ks) (l :: ls) k

/-- `/a/b/c` for `[a, b, c]`. -/
def slashed (parts : List Str) : Str := parts.flatMap ('/' :: ·)

/-- Every component is a valid name and every leading part of the path exists. -/
def PathOk (env : Env) (mgr : Manager) (f : H5File) (done ps : List Str) : Prop :=
  ∀ pre p post, ps = pre ++ p :: post →
    NameOk env mgr p ∧ h5contains f f.root (slashed (done ++ pre ++ [p])) = true

/-- The names listed by the value of an `axes` attribute: one text, or an array of texts. -/
def AxesOf (env : Env) (v : Val) (names : List Str) : Prop :=
  (∃ s, TextOf env v s ∧ names = [s]) ∨
  (names ≠ [] ∧ v = .arrO names) ∨
  (∃ bs, v = .arrS bs ∧ bs ≠ [] ∧ bs.map asciiDecode = names.map some) ∨
  v = .list names ∨
  (v = .arrNum [] ∧ names = [])

/-- The value marks the first signal: the number 1, or something printed in digits which denotes
the number 1. -/
def MarksOne (env : Env) (v : Val) : Prop :=
  v = .int 1 ∨
    ∃ s, (TextOf env v s ∨ v = .num s) ∧ env.isdigit s = true ∧ env.int s = some 1

/-- Definitions usable as class of a group: base classes, and contributed definitions that do
not define an `entry` with a `definition` field. -/
def UsableClass (d : ClassDef) : Prop :=
  d.category = .baseClasses ∨
  (d.category = .contributed ∧
    ¬ ∃ e fd, Dict.get? d.groups s%"entry" = some e ∧ Dict.get? e.fields s%"definition" = some fd)

end Punx.Spec

namespace Punx.Spec

/-- An attribute of `owner` with an ordinary name and value: text where the code expects text,
`axes` only on groups and listing non-empty names, `signal` of a field an integer or text that
`int()` can read if it consists of digits. -/
structure OrdinaryAttr (env : Env) (owner : H5Obj) (k : Str) (v : Val) : Prop where
  name : '@' ∉ k
  text : k = s%"NX_class" ∨ k = s%"target" → ∃ s, TextOf env v s
  signal : k = s%"signal" →
    (∃ s, TextOf env v s ∧ (isHdf5Dataset owner = true → env.isdigit s = true →
      ∃ n, env.int s = some n)) ∨ (isHdf5Dataset owner = true ∧ ∃ n, v = .int n)
  axes : k = s%"axes" → (∃ g, owner.asGroup = some g) ∧
    ∃ names, AxesOf env v names ∧ [] ∉ names

/-- An object with an ordinary name and ordinary attributes. -/
def OrdinaryNode (env : Env) (n : Node) : Prop :=
  '@' ∉ n.name ∧ ∀ ka ∈ n.attrs, OrdinaryAttr env (.node n) ka.1 ka.2

/-- All names and attributes of the file are ordinary. -/
def OrdinaryFile (env : Env) (f : H5File) : Prop :=
  (∀ ka ∈ f.attrs, OrdinaryAttr env (.file f) ka.1 ka.2) ∧ AllKids (OrdinaryNode env) f.kids

/-- What a manager must provide: at least one pattern for class names. -/
def HasClassPattern (mgr : Manager) : Prop := ∃ p ps, mgr.classPats = some (p :: ps)

end Punx.Spec

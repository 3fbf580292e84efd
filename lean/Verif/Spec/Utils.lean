import Verif.Spec.Names

/-!
# Specification vocabulary for `punx/utils.py`
-/

namespace Punx.Spec

/-- `dec` decodes UTF-8: exactly the encodings of texts, to these texts. -/
def IsUtf8 (dec : List UInt8 → Option Str) : Prop :=
  ∀ b s, dec b = some s ↔ utf8Encode s = b

/-- All characters are ASCII. -/
def Ascii (s : Str) : Prop := ∀ c ∈ s, c.toNat < 128

/-- The value is not a byte string, nor an array of strings. -/
def NotStrings (v : Val) : Prop :=
  (∀ b, v ≠ .bytes b) ∧ (∀ xs, v ≠ .arrO xs) ∧ (∀ xs, v ≠ .arrS xs)

/-- Value of an attribute that is text, possibly in an array: the (first) text. -/
def FirstText (env : Env) (v : Val) (s : Str) : Prop :=
  TextOf env v s ∨ (∃ xs, v = .arrO (s :: xs)) ∨ ∃ b xs, v = .arrS (b :: xs) ∧ env.dec b = some s

/-- A group with this NX_class. -/
def GroupOf (env : Env) (c : Str) (n : Node) : Prop :=
  ∃ name attrs kids v, n = .group name attrs kids ∧ attrs.lookup s%"NX_class" = some v ∧
    FirstText env v c

/-- NX_class of the group is an empty array, or bytes that cannot be decoded. -/
def BadClass (env : Env) (n : Node) : Prop :=
  ∃ name attrs kids v, n = .group name attrs kids ∧ attrs.lookup s%"NX_class" = some v ∧
    ((v = .arrO [] ∨ v = .arrS [] ∨ v = .arrNum []) ∨
     (∃ b, v = .bytes b ∧ env.dec b = none) ∨ ∃ b xs, v = .arrS (b :: xs) ∧ env.dec b = none)

end Punx.Spec

import Verif.Model.Regex
import Verif.Model.Utils
import Verif.Model.Finding

/-!
# Specification vocabulary for names

The naming rules written with character tests, without the regular expression code.
-/

namespace Punx.Spec

/-- `a` ... `z` -/
def Lower (c : Char) : Prop := 97 ≤ c.toNat ∧ c.toNat ≤ 122
/-- `A` ... `Z` -/
def Upper (c : Char) : Prop := 65 ≤ c.toNat ∧ c.toNat ≤ 90
/-- `0` ... `9` -/
def Digit (c : Char) : Prop := 48 ≤ c.toNat ∧ c.toNat ≤ 57

/-- Language of a regular expression: `word` are the characters that `\w` stands for. -/
inductive Matches (word : Char → Bool) : Re → Str → Prop
  | eps : Matches word .eps []
  | dot {c : Char} : c ≠ '\n' → Matches word .dot [c]
  | cls {items : List ClsItem} {c : Char} {i : ClsItem} :
      i ∈ items → i.has word c = true → Matches word (.cls items) [c]
  | seq {a b : Re} {s t : Str} :
      Matches word a s → Matches word b t → Matches word (.seq a b) (s ++ t)
  | altL {a b : Re} {s : Str} : Matches word a s → Matches word (.alt a b) s
  | altR {a b : Re} {s : Str} : Matches word b s → Matches word (.alt a b) s
  | starNil {a : Re} : Matches word (.star a) []
  | starCons {a : Re} {s t : Str} :
      Matches word a s → Matches word (.star a) t → Matches word (.star a) (s ++ t)

/-- The strict rule: a lower case letter or underscore, then lower case letters, digits and
underscores. -/
def StrictName (s : Str) : Prop :=
  ∃ c cs, s = c :: cs ∧ (Lower c ∨ c = '_') ∧ ∀ d ∈ cs, Lower d ∨ Digit d ∨ d = '_'

/-- The relaxed rule: a letter or underscore, then word characters. -/
def RelaxedName (word : Char → Bool) (s : Str) : Prop :=
  ∃ c cs, s = c :: cs ∧ (Upper c ∨ Lower c ∨ c = '_') ∧ ∀ d ∈ cs, word d = true ∨ d = '_'

/-- The class name rule: `NX` and at least one more character of the same line. -/
def ClassName (s : Str) : Prop := ∃ t, s = 'N' :: 'X' :: t ∧ t ≠ [] ∧ '\n' ∉ t

/-- `P`, or `P` followed by one newline. -/
def OrNewline (P : Str → Prop) (s : Str) : Prop := P s ∨ ∃ t, s = t ++ ['\n'] ∧ P t

/-- A pattern text `p1|p2|...` used as `"^" + text + "$"`: all but the last alternative only
have to match the beginning of the text. -/
def PatAccepts (word : Char → Bool) (p : Pat) (s : Str) : Prop :=
  (∃ r ∈ (p.first :: p.rest).dropLast, ∃ t, t <+: s ∧ Matches word r t) ∨
    OrNewline (Matches word ((p.first :: p.rest).getLast (by simp))) s

/-- Documented verdict on the name of a group or field, given whether the name satisfies the
relaxed rule of the definitions. -/
def NameRule (classpath name : Str) (relaxed : Prop) (st : Status) : Prop :=
  (s%"NXcollection" <:+: classpath → st = .warn) ∧
  (¬ s%"NXcollection" <:+: classpath →
    (OrNewline StrictName name → st = .ok) ∧
    (¬ OrNewline StrictName name → relaxed → st = .note) ∧
    (¬ OrNewline StrictName name → ¬ relaxed → st = .error))

/-- Does the `target` attribute of an object at `addr` name something else? -/
def TargetElsewhere (env : Env) (attrs : List (Str × Val)) (addr : Str) : Prop :=
  match attrs.lookup s%"target" with
  | none => False
  | some (.str t) => t ≠ addr
  | some (.bytes b) => env.dec b ≠ some addr
  | some _ => True

/-- The text that an attribute value stands for. -/
def TextOf (env : Env) (v : Val) (s : Str) : Prop :=
  v = .str s ∨ ∃ b, v = .bytes b ∧ env.dec b = some s

end Punx.Spec

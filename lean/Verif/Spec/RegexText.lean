import Verif.Spec.Names

/-!
# How regular expressions are written

The part of the syntax of Python's `re` that name patterns of NXDL schemas need, as a grammar: what
a text stands for, not how it is read.
-/

namespace Punx.Spec

/-- Characters that stand for themselves only after a backslash. -/
def Special (c : Char) : Prop :=
  c ∈ ['.', '^', '$', '*', '+', '?', '{', '}', '[', ']', '\\', '|', '(', ')']

/-- Characters that stand for themselves in a set, wherever they are. -/
def PlainInSet (c : Char) : Prop := c ∉ ['[', ']', '\\', '^', '-']

/-- The members of a set `[...]`. -/
inductive SetText : Str → List ClsItem → Prop
  | nil : SetText [] []
  | word {t : Str} {is : List ClsItem} : SetText t is → SetText ('\\' :: 'w' :: t) (.word :: is)
  | range {a b : Char} {t : Str} {is : List ClsItem} : PlainInSet a → PlainInSet b →
      a.toNat ≤ b.toNat → SetText t is → SetText (a :: '-' :: b :: t) (.range a b :: is)
  | char {a : Char} {t : Str} {is : List ClsItem} : PlainInSet a → SetText t is →
      SetText (a :: t) (.range a a :: is)

/-- One expression after the other. -/
def inOrder : List Re → Re
  | [] => .eps
  | [r] => r
  | r :: rs => .seq r (inOrder rs)

/-- One of the expressions. -/
def oneOf : List Re → Re
  | [] => .zero
  | [r] => r
  | r :: rs => .alt r (oneOf rs)

mutual
/-- What can be repeated. -/
inductive AtomText : Str → Re → Prop
  | char {c : Char} : ¬ Special c → AtomText [c] (.chr c)
  | escaped {c : Char} : Special c → AtomText ['\\', c] (.chr c)
  | dot : AtomText ['.'] .dot
  | word : AtomText ['\\', 'w'] (.cls [.word])
  | set {t : Str} {is : List ClsItem} : SetText t is → is ≠ [] →
      AtomText ('[' :: t ++ [']']) (.cls is)
  | group {t : Str} {bs : List Re} : ChoiceText t bs → AtomText ('(' :: t ++ [')']) (oneOf bs)
/-- The parts of a sequence. -/
inductive SeqText : Str → List Re → Prop
  | nil : SeqText [] []
  | once {s t : Str} {r : Re} {rs : List Re} : AtomText s r → SeqText t rs →
      SeqText (s ++ t) (r :: rs)
  | star {s t : Str} {r : Re} {rs : List Re} : AtomText s r → SeqText t rs →
      SeqText (s ++ '*' :: t) (.star r :: rs)
  | plus {s t : Str} {r : Re} {rs : List Re} : AtomText s r → SeqText t rs →
      SeqText (s ++ '+' :: t) (.plus r :: rs)
  | opt {s t : Str} {r : Re} {rs : List Re} : AtomText s r → SeqText t rs →
      SeqText (s ++ '?' :: t) (.opt r :: rs)
/-- The alternatives of a pattern or group. -/
inductive ChoiceText : Str → List Re → Prop
  | last {t : Str} {rs : List Re} : SeqText t rs → ChoiceText t [inOrder rs]
  | more {t u : Str} {rs bs : List Re} : SeqText t rs → ChoiceText u bs →
      ChoiceText (t ++ '|' :: u) (inOrder rs :: bs)
end

/-- The text is a pattern with these alternatives. -/
def PatternText (t : Str) (p : Pat) : Prop := p.text = t ∧ ChoiceText t (p.first :: p.rest)

/-- `re.compile` reads the texts of this grammar as they are written. -/
def Compiles (pattern : Str → Pat) : Prop := ∀ {t p}, PatternText t p → pattern t = p

/-- All texts are of this grammar. -/
def AllWritten (ts : List Str) : Prop := ∀ t ∈ ts, ∃ p, PatternText t p

/-- One of the patterns with these texts accepts `s`. -/
def WrittenAccepts (word : Char → Bool) (ts : List Str) (s : Str) : Prop :=
  ∃ t ∈ ts, ∃ p, PatternText t p ∧ PatAccepts word p s

end Punx.Spec

import Verif.Py.Basic

/-!
# Regular expressions

The patterns of `nxdl.xsd` and of `punx/validate.py:47` as used with
`re.compile("^" + p + "$").match(s)` (`punx/validations/item_name.py:113,157`).
-/

namespace Punx

/-- Item of a character class. -/
inductive ClsItem
  | range (lo hi : Char)     -- `a-z`, or a single character
  | word                     -- `\w`
  deriving DecidableEq, Repr

/-- Regular expressions over code points. -/
inductive Re
  | zero
  | eps
  | dot                        -- `.` (anything but newline)
  | cls (items : List ClsItem) -- `[...]`
  | seq (a b : Re)
  | alt (a b : Re)
  | star (a : Re)
  deriving DecidableEq, Repr

namespace Re

/-- `a+` -/
def plus (a : Re) : Re := seq a (star a)

/-- `a?` -/
def opt (a : Re) : Re := alt eps a

/-- The literal character. -/
def chr (c : Char) : Re := cls [.range c c]

end Re

/-- Does the character belong to the class item?  `word` tells which characters
`\w` matches (parameter of the model). -/
def ClsItem.has (word : Char → Bool) (c : Char) : ClsItem → Bool
  | .range lo hi => lo.toNat ≤ c.toNat && c.toNat ≤ hi.toNat
  | .word => word c

namespace Re

/-- Does the expression match the empty string? -/
def nullable : Re → Bool
  | zero => false
  | eps => true
  | dot => false
  | cls _ => false
  | seq a b => a.nullable && b.nullable
  | alt a b => a.nullable || b.nullable
  | star _ => true

/-- Brzozowski derivative. -/
def deriv (word : Char → Bool) (c : Char) : Re → Re
  | zero => zero
  | eps => zero
  | dot => if c = '\n' then zero else eps
  | cls items => if items.any (·.has word c) then eps else zero
  | seq a b =>
    if a.nullable then alt (seq (deriv word c a) b) (deriv word c b)
    else seq (deriv word c a) b
  | alt a b => alt (deriv word c a) (deriv word c b)
  | star a => seq (deriv word c a) (star a)

/-- Does the expression match exactly this text? -/
def fullMatch (word : Char → Bool) : Re → Str → Bool
  | r, [] => r.nullable
  | r, c :: cs => fullMatch word (deriv word c r) cs

/-- Does the expression match some prefix of this text? -/
def prefixMatch (word : Char → Bool) : Re → Str → Bool
  | r, [] => r.nullable
  | r, c :: cs => r.nullable || prefixMatch word (deriv word c r) cs

end Re

/-- Match up to the position where `$` (without MULTILINE) matches: the end, or
just before a newline that is the last character. -/
def dollarMatch (word : Char → Bool) (r : Re) (s : Str) : Bool :=
  r.fullMatch word s ||
    (s.getLast? == some '\n' && r.fullMatch word s.dropLast)

/-- A pattern text with its top level alternatives (`p1|p2|...`), first and rest. -/
structure Pat where
  text : Str
  first : Re
  rest : List Re
  deriving DecidableEq, Repr

/-- `re.compile("^" + p + "$").match(s) is not None`.  The anchors bind tighter
than a top level `|`: only the last alternative is anchored at the end. -/
def patMatch (word : Char → Bool) (p : Pat) (s : Str) : Bool :=
  go p.first p.rest
where
  go (r : Re) : List Re → Bool
    | [] => dollarMatch word r s
    | r' :: rs => r.prefixMatch word s || go r' rs

/-- `VALIDITEMNAME_STRICT_PATTERN = r"[a-z_][a-z0-9_]*"`, `punx/validate.py:47`. -/
def strictPat : Pat where
  text := s%"[a-z_][a-z0-9_]*"
  first := .seq (.cls [.range 'a' 'z', .range '_' '_'])
    (.star (.cls [.range 'a' 'z', .range '0' '9', .range '_' '_']))
  rest := []

/-- `validItemName` pattern of the bundled `nxdl.xsd`: `[A-Za-z_][\w_]*`
(`punx/cache/*/nxdl.xsd`). -/
def relaxedPat : Pat where
  text := s%"[A-Za-z_][\\w_]*"
  first := .seq (.cls [.range 'A' 'Z', .range 'a' 'z', .range '_' '_'])
    (.star (.cls [.word, .range '_' '_']))
  rest := []

/-- `validNXClassName` pattern of the bundled `nxdl.xsd`: `NX.+`. -/
def nxClassPat : Pat where
  text := s%"NX.+"
  first := .seq (.chr 'N') (.seq (.chr 'X') (.plus .dot))
  rest := []

end Punx

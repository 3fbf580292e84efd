import Verif.Model.Cache

/-!
# `punx/cache_manager.py:109-124`: files in JSON, as texts

What `json.dumps(obj, indent=2)` writes and what `json.loads` reads, character by character.

Simplifications: numbers are whole (Python reads a number with a fraction or an exponent as
`float`, `loads` here refuses it), `NaN` and `Infinity` are refused; keys of objects are texts;
texts have no surrogates (a `\uXXXX` that is half a pair is refused, Python keeps it); there is no
limit on the depth of the value or on the number of digits; Python closes the file at once
(`open(...)` without `with`, so this is what CPython does).
-/

namespace Punx

/-- What `json.loads` gives: the values that can be written. -/
inductive JVal
  | null
  | bool (b : Bool)
  | int (n : Int)
  | str (s : Str)
  | arr (l : List JVal)
  | obj (d : List (Str × JVal))

namespace JVal

/-! ## writing -/

/-- One digit of `'{0:04x}'.format(n)`. -/
def hexDigit (n : Nat) : Char := if n < 10 then Char.ofNat (48 + n) else Char.ofNat (87 + n)

/-- `'\\u{0:04x}'.format(n)`. -/
def uEscape (n : Nat) : Str :=
  ['\\', 'u', hexDigit (n / 4096 % 16), hexDigit (n / 256 % 16), hexDigit (n / 16 % 16),
   hexDigit (n % 16)]

/-- `json.encoder.py_encode_basestring_ascii`: one character (`ensure_ascii` is the default). -/
def escape (c : Char) : Str :=
  if c = '"' then s%"\\\"" else if c = '\\' then s%"\\\\" else if c = '\n' then s%"\\n"
  else if c = '\r' then s%"\\r" else if c = '\t' then s%"\\t"
  else if c = Char.ofNat 12 then s%"\\f" else if c = Char.ofNat 8 then s%"\\b"
  else if 32 ≤ c.toNat ∧ c.toNat ≤ 126 then [c]
  else if c.toNat < 65536 then uEscape c.toNat
  else uEscape (55296 + (c.toNat - 65536) / 1024) ++ uEscape (56320 + (c.toNat - 65536) % 1024)

/-- A text in quotes. -/
def quote (s : Str) : Str := '"' :: s.flatMap escape ++ ['"']

/-- The start of a line in `json.dumps(obj, indent=2)`. -/
def newLine (level : Nat) : Str := '\n' :: List.replicate (2 * level) ' '

/-- Texts of items between brackets, one in each line; nothing if there are none. -/
def inBrackets (level : Nat) (a z : Char) : List Str → Str
  | [] => [a, z]
  | t :: ts => a :: newLine (level + 1) ++ join (',' :: newLine (level + 1)) (t :: ts) ++ newLine level ++ [z]

mutual
/-- `punx/cache_manager.py:115`: `json.dumps(obj, indent=2)`; `level` is the level that the value
is at. -/
def dump (level : Nat) : JVal → Str
  | .null => s%"null"
  | .bool true => s%"true"
  | .bool false => s%"false"
  | .int n => intStr n
  | .str s => quote s
  | .arr l => inBrackets level '[' ']' (dumpItems (level + 1) l)
  | .obj d => inBrackets level '{' '}' (dumpPairs (level + 1) d)
/-- The items of a list. -/
def dumpItems (level : Nat) : List JVal → List Str
  | [] => []
  | v :: l => dump level v :: dumpItems level l
/-- The pairs of an object. -/
def dumpPairs (level : Nat) : List (Str × JVal) → List Str
  | [] => []
  | (k, v) :: d => (quote k ++ s%": " ++ dump level v) :: dumpPairs level d
end

/-- `punx/cache_manager.py:109-115`: the text that `write_json_file` writes. -/
def dumps (v : JVal) : Str := dump 0 v

/-! ## reading -/

/-- `json.decoder.WHITESPACE`. -/
def isSpace (c : Char) : Bool := c = ' ' || c = '\t' || c = '\n' || c = '\r'

/-- Skip white space. -/
def skip (s : Str) : Str := s.dropWhile isSpace

/-- The value of a hexadecimal digit. -/
def unhex (c : Char) : Option Nat :=
  if 48 ≤ c.toNat ∧ c.toNat ≤ 57 then some (c.toNat - 48)
  else if 97 ≤ c.toNat ∧ c.toNat ≤ 102 then some (c.toNat - 87)
  else if 65 ≤ c.toNat ∧ c.toNat ≤ 70 then some (c.toNat - 55)
  else none

/-- `json.decoder._decode_uXXXX`: the number of `\uabcd`. -/
def unhex4 (a b c d : Char) : Option Nat :=
  match unhex a, unhex b, unhex c, unhex d with
  | some a, some b, some c, some d => some (a * 4096 + b * 256 + c * 16 + d)
  | _, _, _, _ => none

/-- `json.decoder.BACKSLASH`: what stands for which character. -/
def unescape (c : Char) : Option Char :=
  if c = '"' then some '"' else if c = '\\' then some '\\' else if c = '/' then some '/'
  else if c = 'b' then some (Char.ofNat 8) else if c = 'f' then some (Char.ofNat 12)
  else if c = 'n' then some '\n' else if c = 'r' then some '\r' else if c = 't' then some '\t'
  else none

/-- A piece of a text: a character, or the number of `\uXXXX`. -/
inductive Piece
  | char (c : Char)
  | code (n : Nat)

/-- `json.decoder.py_scanstring` (`strict` is the default): the pieces up to the quote that ends the
text, and what is left. -/
def scan : Str → Option (List Piece × Str)
  | [] => none
  | c :: r =>
    if c = '"' then some ([], r)
    else if c = '\\' then
      match r with
      | [] => none
      | e :: r =>
        if e = 'u' then
          match r with
          | a :: b :: c :: d :: r =>
            match unhex4 a b c d, scan r with
            | some n, some (ps, r) => some (.code n :: ps, r)
            | _, _ => none
          | _ => none
        else
          match unescape e, scan r with
          | some x, some (ps, r) => some (.char x :: ps, r)
          | _, _ => none
    else if c.toNat < 32 then none
    else
      match scan r with
      | some (ps, r) => some (.char c :: ps, r)
      | none => none

/-- The characters of the pieces: two codes that are a pair of surrogates are one character. -/
def assemble : List Piece → Option Str
  | [] => some []
  | .char c :: ps => (assemble ps).map (c :: ·)
  | .code n :: ps =>
    if n < 55296 ∨ 57343 < n then (assemble ps).map (Char.ofNat n :: ·)
    else
      match ps with
      | .code m :: ps =>
        if n < 56320 ∧ 56320 ≤ m ∧ m ≤ 57343 then
          (assemble ps).map (Char.ofNat (65536 + (n - 55296) * 1024 + (m - 56320)) :: ·)
        else none
      | _ => none

/-- The text after its first quote, and what is left. -/
def readText (s : Str) : Option (Str × Str) :=
  match scan s with
  | some (ps, r) => (assemble ps).map (·, r)
  | none => none

/-- `[0-9]` -/
def isDec (c : Char) : Bool := 48 ≤ c.toNat && c.toNat ≤ 57

/-- The first group of `json.scanner.NUMBER_RE`, without sign: digits and what is left. -/
def digitsOf : Str → Str × Str
  | '0' :: r => (['0'], r)
  | s => (s.takeWhile isDec, s.dropWhile isDec)

/-- A fraction or an exponent follows (`1e` without a number is refused, too: no value can be
followed by an `e`). -/
def isReal : Str → Bool
  | '.' :: c :: _ => isDec c
  | 'e' :: _ => true
  | 'E' :: _ => true
  | _ => false

/-- `json.scanner.NUMBER_RE`, without sign: the number and what is left.  A fraction or an exponent
is refused (see the head of this file). -/
def readNat (s : Str) : Option (Nat × Str) :=
  if (digitsOf s).1 = [] ∨ isReal (digitsOf s).2 then none
  else some (Nat.ofDigitChars 10 (digitsOf s).1 0, (digitsOf s).2)

/-- A number and what is left. -/
def readInt : Str → Option (JVal × Str)
  | '-' :: s => (readNat s).map fun (n, r) => (.int (-(n : Int)), r)
  | s => (readNat s).map fun (n, r) => (.int n, r)

mutual
/-- `json.scanner.py_scanner.scan_once`: a value and what is left.  `fuel` bounds the recursion. -/
def value (fuel : Nat) (s : Str) : Option (JVal × Str) :=
  match fuel with
  | 0 => none
  | fuel + 1 =>
    match s with
    | '"' :: r => (readText r).map fun (t, r) => (.str t, r)
    | '{' :: r =>
      match skip r with
      | '}' :: r => some (.obj [], r)
      | '"' :: r => (pairs fuel r).map fun (d, r) => (.obj (Dict.update [] d), r)
      | _ => none
    | '[' :: r =>
      match skip r with
      | ']' :: r => some (.arr [], r)
      | r => (items fuel r).map fun (l, r) => (.arr l, r)
    | 'n' :: 'u' :: 'l' :: 'l' :: r => some (.null, r)
    | 't' :: 'r' :: 'u' :: 'e' :: r => some (.bool true, r)
    | 'f' :: 'a' :: 'l' :: 's' :: 'e' :: r => some (.bool false, r)
    | s => readInt s
/-- `json.decoder.JSONArray`: the items of a list, from the first one on. -/
def items (fuel : Nat) (s : Str) : Option (List JVal × Str) :=
  match fuel with
  | 0 => none
  | fuel + 1 =>
    match value fuel s with
    | none => none
    | some (v, r) =>
      match skip r with
      | ']' :: r => some ([v], r)
      | ',' :: r => (items fuel (skip r)).map fun (l, r) => (v :: l, r)
      | _ => none
/-- `json.decoder.JSONObject`: the pairs of an object, from the first one on, after its quote. -/
def pairs (fuel : Nat) (s : Str) : Option (List (Str × JVal) × Str) :=
  match fuel with
  | 0 => none
  | fuel + 1 =>
    match readText s with
    | none => none
    | some (k, r) =>
      match skip r with
      | ':' :: r =>
        match value fuel (skip r) with
        | none => none
        | some (v, r) =>
          match skip r with
          | '}' :: r => some ([(k, v)], r)
          | ',' :: r =>
            match skip r with
            | '"' :: r => (pairs fuel r).map fun (d, r) => ((k, v) :: d, r)
            | _ => none
          | _ => none
      | _ => none
end

/-- `punx/cache_manager.py:124`: `json.loads` (`JSONDecodeError` is a `ValueError`). -/
def loads (s : Str) : Except PyErr JVal :=
  match value (s.length + 1) (skip s) with
  | some (v, r) => if skip r = [] then .ok v else .error .valueError
  | none => .error .valueError

end JVal

/-! ## the info file as a text -/

/-- A description of a set, as the value that is written. -/
def Content.value (o : Dict Str Str) : JVal := .obj (o.map fun (k, v) => (k, .str v))

/-- The text in a file. -/
def Content.text : Content → Str
  | .json o => (Content.value o).dumps
  | .raw t => t

/-- `punx/cache_manager.py:118-124`, `:529-531`: the four entries that are read from the text of an
info file, in the order of `json_file_keys` (`:478`). -/
def readInfoText (t : Str) : Except PyErr (List (Option JVal)) :=
  match JVal.loads t with
  | .error e => .error e
  | .ok (.obj d) => .ok ([s%"ref", s%"sha", s%"zip_url", s%"last_modified"].map (Dict.get? d))
  | .ok _ => .error .attributeError
end Punx

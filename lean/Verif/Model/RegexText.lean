import Verif.Model.Regex

/-!
# Reading the text of a regular expression

`re.compile` (`punx/validations/item_name.py:97-100, 113, 157`) for the part of the syntax that the
name patterns of NXDL schemas are written in: characters, `.`, `\w`, sets, groups, alternatives and
the repetitions `*`, `+`, `?`.  Texts that use anything else (`none`) are left to the library.
-/

namespace Punx

/-- Characters that are read as such only after a backslash. -/
def isSpecial (c : Char) : Bool :=
  ['.', '^', '$', '*', '+', '?', '{', '}', '[', ']', '\\', '|', '(', ')'].contains c

/-- Characters that are read as such in a set. -/
def isPlain (c : Char) : Bool := !['[', ']', '\\', '^', '-'].contains c

/-- The members of a set, after `[`, and the text after `]`. -/
def readSet : Str → Option (List ClsItem × Str)
  | [] => none
  | ']' :: t => some ([], t)
  | '\\' :: 'w' :: t => (readSet t).map fun p => (.word :: p.1, p.2)
  | a :: '-' :: b :: t =>
    if isPlain a && isPlain b && a.toNat ≤ b.toNat then
      (readSet t).map fun p => (.range a b :: p.1, p.2)
    else none
  | a :: t => if isPlain a then (readSet t).map fun p => (.range a a :: p.1, p.2) else none

/-- A repetition that follows an expression, and the text after it. -/
def readRepeat (r : Re) : Str → Re × Str
  | '*' :: t => (.star r, t)
  | '+' :: t => (.plus r, t)
  | '?' :: t => (.opt r, t)
  | t => (r, t)

/-- One expression after the other. -/
def seqAll : List Re → Re
  | [] => .eps
  | [r] => r
  | r :: rs => .seq r (seqAll rs)

/-- One of the expressions. -/
def altAll : List Re → Re
  | [] => .zero
  | [r] => r
  | r :: rs => .alt r (altAll rs)

mutual
/-- What can be repeated, and the text after it.  The number bounds the nested calls. -/
def readAtom : Nat → Str → Option (Re × Str)
  | 0, _ => none
  | _, [] => none
  | _ + 1, '.' :: t => some (.dot, t)
  | _ + 1, '\\' :: 'w' :: t => some (.cls [.word], t)
  | _ + 1, '\\' :: c :: t => if isSpecial c then some (.chr c, t) else none
  | _ + 1, '[' :: t =>
    match readSet t with
    | some (i :: is, t') => some (.cls (i :: is), t')
    | _ => none
  | n + 1, '(' :: t =>
    match readChoice n t with
    | some (bs, ')' :: t') => some (altAll bs, t')
    | _ => none
  | _ + 1, c :: t => if isSpecial c then none else some (.chr c, t)
/-- The parts of a sequence, up to the end of the text, `|` or `)`. -/
def readSeq : Nat → Str → Option (List Re × Str)
  | 0, _ => none
  | _ + 1, [] => some ([], [])
  | n + 1, c :: t =>
    if c = '|' ∨ c = ')' then some ([], c :: t)
    else
      match readAtom n (c :: t) with
      | none => none
      | some (r, t') =>
        match readSeq n (readRepeat r t').2 with
        | none => none
        | some (rs, t'') => some ((readRepeat r t').1 :: rs, t'')
/-- The alternatives, up to the end of the text or `)`. -/
def readChoice : Nat → Str → Option (List Re × Str)
  | 0, _ => none
  | n + 1, t =>
    match readSeq n t with
    | none => none
    | some (rs, '|' :: t') => (readChoice n t').map fun p => (seqAll rs :: p.1, p.2)
    | some (rs, t') => some ([seqAll rs], t')
end

/-- The pattern that a text stands for. -/
def readPattern (t : Str) : Option Pat :=
  match readChoice (3 * t.length + 2) t with
  | some (b :: bs, []) => some ⟨t, b, bs⟩
  | _ => none

end Punx

/-!
# Python primitives used by the model

Python `str` is a list of Unicode code points (`Str`), a `dict` is an insertion
ordered association list, an exception is a value of `PyErr`.
-/

namespace Punx

/-- Python `str`: sequence of code points (surrogates excluded). -/
abbrev Str := List Char

open Lean in
/-- `s%"abc"` is the `Str` literal `['a', 'b', 'c']`. -/
macro:max "s%" s:str : term => do
  let cs := s.getString.toList.map (fun c => Syntax.mkCharLit c)
  `(([ $(cs.toArray),* ] : List Char))

/-- Exception classes raised by the modelled code (only the class is kept). -/
inductive PyErr
  | keyError | valueError | typeError | attributeError | indexError | nameError
  | unicodeDecodeError | recursionError | fileNotFound | hdf5OpenError | osError
  | assertionError | invalidNxdl | exception | systemExit (code : Int)
  deriving DecidableEq, Repr, Inhabited

/-! ## strings -/

/-- `s.startswith(p)` -/
def startsWith (s p : Str) : Bool := p.isPrefixOf s

/-- `s.endswith(p)` -/
def endsWith (s p : Str) : Bool := p.isSuffixOf s

/-- `sub in s` (substring test): `sub` starts at some position of `s`. -/
def hasSub (sub : Str) : Str → Bool
  | [] => sub.isPrefixOf []
  | c :: cs => sub.isPrefixOf (c :: cs) || hasSub sub cs

/-- `s.split(sep)` for a one character separator; never empty. -/
def split (sep : Char) : Str → List Str
  | [] => [[]]
  | c :: cs =>
    match split sep cs with
    | [] => [[]]          -- unreachable, see `split_ne_nil`
    | w :: ws => if c = sep then [] :: w :: ws else (c :: w) :: ws

/-- `s.split(sep)[-1]` : the text after the last separator. -/
def lastComp (sep : Char) (s : Str) : Str :=
  (split sep s).getLast?.getD []

/-- `s.split(sep)[0]` : the text before the first separator. -/
def firstComp (sep : Char) (s : Str) : Str :=
  s.takeWhile (· != sep)

/-- `s.replace(old, new)` for a one character `old`. -/
def replaceChar (old : Char) (new : Str) (s : Str) : Str :=
  s.flatMap (fun c => if c = old then new else [c])

/-- `sep.join(parts)` -/
def join (sep : Str) : List Str → Str
  | [] => []
  | [a] => a
  | a :: b :: rest => a ++ sep ++ join sep (b :: rest)

/-- Decimal digits of a natural number, `str(n)`. -/
def natStr (n : Nat) : Str := Nat.toDigits 10 n

/-- `str(n)` of an integer. -/
def intStr (n : Int) : Str :=
  match n with
  | .ofNat k => natStr k
  | .negSucc k => '-' :: natStr (k + 1)

/-! ## order of strings and stable sorting -/

/-- `a <= b` for Python strings: lexicographic by code point. -/
def strLe : Str → Str → Bool
  | [], _ => true
  | _ :: _, [] => false
  | a :: as, b :: bs => if a = b then strLe as bs else a.toNat < b.toNat

/-- Insert before the first element that is not smaller. -/
def insertBy {α} (le : α → α → Bool) (a : α) : List α → List α
  | [] => [a]
  | b :: bs => if le a b then a :: b :: bs else b :: insertBy le a bs

/-- `sorted(xs)`: stable sort (elements that compare equal keep their order). -/
def sortBy {α} (le : α → α → Bool) : List α → List α
  | [] => []
  | a :: as => insertBy le a (sortBy le as)

/-! ## dictionaries -/

/-- Python `dict`/`OrderedDict`: insertion ordered, at most one entry per key. -/
abbrev Dict (κ β : Type _) := List (κ × β)

namespace Dict
variable {κ β : Type _} [DecidableEq κ]

/-- `d.get(k)` -/
def get? (d : Dict κ β) (k : κ) : Option β :=
  match d with
  | [] => none
  | (k', v) :: rest => if k' = k then some v else get? rest k

/-- `k in d` -/
def has (d : Dict κ β) (k : κ) : Bool := (get? d k).isSome

/-- `d[k] = v`: an existing key keeps its position. -/
def set (d : Dict κ β) (k : κ) (v : β) : Dict κ β :=
  match d with
  | [] => [(k, v)]
  | (k', v') :: rest => if k' = k then (k, v) :: rest else (k', v') :: set rest k v

/-- `d.keys()` -/
def keys (d : Dict κ β) : List κ := d.map (·.1)

/-- `d.values()` -/
def values (d : Dict κ β) : List β := d.map (·.2)

/-- `d.update(e)` -/
def update (d e : Dict κ β) : Dict κ β := e.foldl (fun acc kv => set acc kv.1 kv.2) d

end Dict

/-! ## effects and exceptions -/

/-- A computation that emits effects and may raise: effects emitted before the
exception are kept, as in Python. -/
structure W (ε α : Type _) where
  log : List ε
  res : Except PyErr α

namespace W
variable {ε α β : Type _}

protected def pure (a : α) : W ε α := ⟨[], .ok a⟩

protected def bind (x : W ε α) (f : α → W ε β) : W ε β :=
  match x.res with
  | .ok a => ⟨x.log ++ (f a).log, (f a).res⟩
  | .error e => ⟨x.log, .error e⟩

instance : Monad (W ε) where
  pure := W.pure
  bind := W.bind

/-- emit one effect -/
def tell (e : ε) : W ε Unit := ⟨[e], .ok ()⟩

/-- `raise` -/
def fail (e : PyErr) : W ε α := ⟨[], .error e⟩

/-- run a computation without effects -/
def lift (x : Except PyErr α) : W ε α := ⟨[], x⟩

/-- `for x in xs: f(x)` -/
def forEach (xs : List α) (f : α → W ε Unit) : W ε Unit :=
  match xs with
  | [] => W.pure ()
  | x :: rest => W.bind (f x) (fun _ => forEach rest f)

end W
end Punx

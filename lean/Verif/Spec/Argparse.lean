import Verif.Model.Argparse

/-!
# What the arguments of a command mean: the grammar

The statements of `Props/Argparse*.lean` use the descriptions of the parsers (which options they have)
and this grammar, not the functions that read arguments.
-/

namespace Punx

/-- `n` is a name of the option `o` of the parser. -/
def HasName (p : CliParser) (n : Str) (o : CliOpt) : Prop := o ∈ p.opts ∧ n ∈ o.names

/-- The names are letters with a dash or words with two dashes, without `=`; no name is used twice. -/
structure WellNamed (p : CliParser) : Prop where
  shape : ∀ n o, HasName p n o →
    (∃ c, n = ['-', c] ∧ c ≠ '-' ∧ c ≠ '=') ∨ (∃ s, n = '-' :: '-' :: s ∧ s ≠ [] ∧ '=' ∉ s)
  distinct : (p.opts.flatMap (·.names)).Nodup

/-- `n` stands for the option: it is its name, or it is not a name, and the option has the only name
that begins so. -/
def StandsFor (p : CliParser) (n : Str) (o : CliOpt) : Prop :=
  HasName p n o ∨
    (∀ o', ¬ HasName p n o') ∧
      ∃ m, HasName p m o ∧ n <+: m ∧ ∀ m' o', HasName p m' o' → n <+: m' → m' = m

/-- The argument begins with two dashes, and what is before its `=` is not a name but the beginning of
two names. -/
def Ambiguous (p : CliParser) (a : Str) : Prop :=
  ∃ n, '=' ∉ n ∧ ((a = '-' :: '-' :: n ∧ n ≠ []) ∨ ∃ v, a = '-' :: '-' :: (n ++ '=' :: v)) ∧
    (∀ o, ¬ HasName p ('-' :: '-' :: n) o) ∧
    ∃ m o m' o', HasName p m o ∧ HasName p m' o' ∧ m ≠ m' ∧
      '-' :: '-' :: n <+: m ∧ '-' :: '-' :: n <+: m'

/-- No option of the parser is meant: neither by a letter after one dash nor by a beginning of a name
after two dashes. -/
def NoOption (p : CliParser) (a : Str) : Prop :=
  (∀ c s, a = '-' :: c :: s → ∀ o, ¬ HasName p ['-', c] o) ∧
  (∀ n, '=' ∉ n → (a = '-' :: '-' :: n ∨ ∃ v, a = '-' :: '-' :: (n ++ '=' :: v)) →
    ∀ m o, HasName p m o → ¬ '-' :: '-' :: n <+: m)

/-- The argument is a word: it does not begin with a dash, or it is a single dash, or it means no option
and is a negative number or has a space. -/
def IsWord (t : Texts) (p : CliParser) (a : Str) : Prop :=
  a.head? ≠ some '-' ∨ a = ['-'] ∨
    (a ≠ ['-', '-'] ∧ NoOption p a ∧ (t.negative a = true ∨ ' ' ∈ a))

/-- The argument looks like an option but there is no such option. -/
def IsUnknown (t : Texts) (p : CliParser) (a : Str) : Prop :=
  a.head? = some '-' ∧ a ≠ ['-'] ∧ a ≠ ['-', '-'] ∧ NoOption p a ∧ t.negative a = false ∧ ' ' ∉ a

/-- What arguments consist of: words, options with their texts, what is left over, and `--`. -/
inductive Piece
  | word (s : Str)
  | option (o : CliOpt) (v : Option Str)
  | extra (s : Str)
  | dashes

/-- The letters after a single dash: flags, then at most one option with a text, which is the rest of the
letters (without one `=`) or the next argument.  A letter that is no option leaves the rest over. -/
inductive Letters (p : CliParser) : Str → List Piece → Option CliOpt → Prop
  | flag {c o} : HasName p ['-', c] o → o.takes = false → Letters p [c] [.option o none] none
  | flags {c o s ps w} : HasName p ['-', c] o → o.takes = false → Letters p s ps w →
      Letters p (c :: s) (.option o none :: ps) w
  | text {c o s} : HasName p ['-', c] o → o.takes = true → s ≠ [] → s.head? ≠ some '=' →
      Letters p (c :: s) [.option o (some s)] none
  | textEq {c o s} : HasName p ['-', c] o → o.takes = true →
      Letters p (c :: '=' :: s) [.option o (some s)] none
  | awaits {c o} : HasName p ['-', c] o → o.takes = true → Letters p [c] [] (some o)
  | left {c o d s} : HasName p ['-', c] o → o.takes = false → d ≠ '-' → d ≠ '=' →
      (∀ o', ¬ HasName p ['-', d] o') →
      Letters p (c :: d :: s) [.option o none, .extra ('-' :: d :: s)] none

/-- An argument with options: letters after one dash, or a name, which may be abbreviated, after two; or
an unknown option.  The last value is the option whose text is the next argument. -/
inductive Options (t : Texts) (p : CliParser) : Str → List Piece → Option CliOpt → Prop
  | letters {s ps w} : Letters p s ps w → Options t p ('-' :: s) ps w
  | long {n o} : n ≠ [] → '=' ∉ n → StandsFor p ('-' :: '-' :: n) o → o.takes = false →
      Options t p ('-' :: '-' :: n) [.option o none] none
  | longAwaits {n o} : n ≠ [] → '=' ∉ n → StandsFor p ('-' :: '-' :: n) o → o.takes = true →
      Options t p ('-' :: '-' :: n) [] (some o)
  | longText {n o v} : '=' ∉ n → StandsFor p ('-' :: '-' :: n) o → o.takes = true →
      Options t p ('-' :: '-' :: (n ++ '=' :: v)) [.option o (some v)] none
  | unknown {a} : IsUnknown t p a → Options t p a [.extra a] none

/-- The arguments consist of these pieces. -/
inductive Consists (t : Texts) (p : CliParser) : List Str → List Piece → Prop
  | nil : Consists t p [] []
  | word {a as ps} : IsWord t p a → Consists t p as ps → Consists t p (a :: as) (.word a :: ps)
  | options {a as qs ps} : Options t p a qs none → Consists t p as ps →
      Consists t p (a :: as) (qs ++ ps)
  | optionsText {a v as qs o ps} : Options t p a qs (some o) → IsWord t p v → Consists t p as ps →
      Consists t p (a :: v :: as) (qs ++ .option o (some v) :: ps)
  | dashes {as} : Consists t p (['-', '-'] :: as) (.dashes :: as.map .word)

/-- The option does not leave the program: it does not show help or the version, and where it needs a
number it has got one. -/
def Piece.Fine (t : Texts) : Piece → Prop
  | .option o v => o.kind ≠ .exits ∧ (o.kind = .number → ∀ s, v = some s → ∃ i, t.int s = some i)
  | _ => True

/-- The pieces are options. -/
def OnlyOptions (ps : List Piece) : Prop := ∀ x ∈ ps, ∃ o v, x = .option o v

/-- One word between options; `--` may be right before or right after it. -/
def OneWord (ps : List Piece) (w : Str) : Prop :=
  ∃ as bs, OnlyOptions as ∧ OnlyOptions bs ∧
    (ps = as ++ .word w :: bs ∨ ps = as ++ .dashes :: .word w :: bs ∨ ps = as ++ .word w :: .dashes :: bs)

/-- The words among the pieces. -/
def wordsOf (ps : List Piece) : List Str :=
  ps.filterMap fun | .word w => some w | _ => none

/-- Any number of words (with `--` before, between or after them) without an option between them. -/
def WordsTogether (ps : List Piece) (ws : List Str) : Prop :=
  ∃ as run bs, OnlyOptions as ∧ OnlyOptions bs ∧ (∀ x ∈ run, x = .dashes ∨ ∃ w, x = .word w) ∧
    ps = as ++ run ++ bs ∧ wordsOf run = ws

/-- The words that a parser wants. -/
def WordsFor (rest : Rest) (ps : List Piece) (ws : List Str) : Prop :=
  match rest with
  | .none => OnlyOptions ps ∧ ws = []
  | .one => ∃ w, ws = [w] ∧ OneWord ps w
  | .many => WordsTogether ps ws
  | .command => False

/-- The options among the pieces, with their texts. -/
def optionsOf (ps : List Piece) : List (CliOpt × Option Str) :=
  ps.filterMap fun | .option o v => some (o, v) | _ => none

/-- The option has been given, last with this text; or it has not been given and this is the default. -/
def Given (ps : List Piece) (o : CliOpt) (default value : Option Str) : Prop :=
  (∃ v as bs, ps = as ++ .option o (some v) :: bs ∧ (∀ v', .option o v' ∉ bs) ∧ value = some v) ∨
    (∀ v', .option o v' ∉ ps) ∧ value = default

/-- Help or the version is asked for, before anything that is wrong. -/
def AsksHelp (t : Texts) (ps : List Piece) : Prop :=
  ∃ as o v bs, ps = as ++ .option o v :: bs ∧ o.kind = .exits ∧ ∀ x ∈ as, x.Fine t

/-- The word is the name of the command or its beginning, with two letters or more. -/
def Calls (c name : Str) : Prop := 2 ≤ c.length ∧ c <+: name

/-- The arguments before `--`. -/
def beforeDashes (args : List Str) : List Str := args.takeWhile (· != s%"--")

end Punx

import Verif.Model.Cli

/-!
# The command line: `punx/main.py` with `argparse`

`punx/main.py:315-441` describes the arguments of the sub-commands to `argparse`, which reads them.
What `argparse` does for the kinds of arguments used there is modelled here function by function
(`argparse.py` of CPython 3.11; the lines are those of 3.11.10).

Simplifications: the texts that are printed are not modelled (an option that shows help or the version
leaves with status 0; an error leaves with status 2).  What `int(text)` gives and which texts
`argparse` takes for negative numbers (`argparse.py:1386`) are parameters (`Texts`).
-/

namespace Punx

/-- Two functions on texts: `int(text)` (`none`: `ValueError`), and whether `argparse` sees a negative
number in the text (`argparse.py:1386`). -/
structure Texts where
  int : Str → Option Int
  negative : Str → Bool

/-- What an option does: show something and leave (`help`, `version`), set a flag (`store_true`,
`store_false`), keep the text after it, keep the number after it (`type=int`). -/
inductive OptKind
  | exits
  | flag
  | text
  | number
deriving DecidableEq, Repr

/-- An option: its names, the attribute that it sets and what it does. -/
structure CliOpt where
  names : List Str
  dest : Str
  kind : OptKind
deriving DecidableEq, Repr

/-- `nargs` of the option is `None` (one text follows), and not `0`. -/
def CliOpt.takes (o : CliOpt) : Bool :=
  match o.kind with
  | .exits => false
  | .flag => false
  | .text => true
  | .number => true

/-- The arguments that are not options: there are none, one (`nargs=None`), any number (`nargs="*"`),
or the name of a sub-command with everything after it (`nargs=PARSER`). -/
inductive Rest
  | none
  | one
  | many
  | command
deriving DecidableEq, Repr

/-- An argument parser. -/
structure CliParser where
  opts : List CliOpt
  rest : Rest
deriving DecidableEq, Repr

/-- `self._option_string_actions`: the names of the options with their options. -/
def CliParser.table (p : CliParser) : List (Str × CliOpt) :=
  p.opts.flatMap fun o => o.names.map fun n => (n, o)

/-- `self._option_string_actions[name]`. -/
def CliParser.named (p : CliParser) (name : Str) : Option CliOpt :=
  (p.table.find? (fun e => e.1 == name)).map Prod.snd

/-- An argument that is read as an option (`argparse.py:2258-2298`): the argument itself, the option
(`none`: there is no such option), whether its name begins with two dashes, whether its text is after
`=`, and its text. -/
structure OptUse where
  raw : Str
  opt : Option CliOpt
  long : Bool
  sep : Bool
  explicit : Option Str

/-- `str.partition("=")`: the text before the first `=`, and the text after it if there is one. -/
def partitionEq : Str → Str × Option Str
  | [] => ([], none)
  | c :: s => if c == '=' then ([], some s) else ((c :: (partitionEq s).1), (partitionEq s).2)

/-- `argparse.py:2300-2340`: `_get_option_tuples`, for a text of two characters or more that begins
with a dash. -/
def optionTuples (p : CliParser) (a : Str) : List OptUse :=
  if startsWith a s%"--" then
    (p.table.filter fun e => startsWith e.1 (partitionEq a).1).map fun e =>
      ⟨a, some e.2, true, (partitionEq a).2.isSome, (partitionEq a).2⟩
  else
    p.table.filterMap fun e =>
      if e.1 == a.take 2 then some ⟨a, some e.2, false, false, some (a.drop 2)⟩
      else if startsWith e.1 a then some ⟨a, some e.2, startsWith e.1 s%"--", false, none⟩
      else none

/-- `argparse.py:2244-2298`: `_parse_optional`; `none`: the argument is not an option.  No name of an
option of `punx` looks like a negative number (`_has_negative_number_optionals`). -/
def parseOptional (t : Texts) (p : CliParser) (a : Str) : Except PyErr (Option OptUse) :=
  if !startsWith a s%"-" then .ok none
  else
    match p.named a with
    | some o => .ok (some ⟨a, some o, startsWith a s%"--", false, none⟩)
    | none =>
      if a.length == 1 then .ok none
      else
        match (partitionEq a).2, p.named (partitionEq a).1 with
        | some v, some o => .ok (some ⟨a, some o, startsWith a s%"--", true, some v⟩)
        | _, _ =>
          match optionTuples p a with
          | _ :: _ :: _ => .error (.systemExit 2)
          | [u] => .ok (some u)
          | [] =>
            if t.negative a then .ok none
            else if a.contains ' ' then .ok none
            else .ok (some ⟨a, none, false, false, none⟩)

/-- What an argument is: `A`, `O` or `-` of `arg_strings_pattern` (`argparse.py:1935-1961`). -/
inductive CliItem
  | word (s : Str)
  | option (u : OptUse)
  | dashes

/-- The argument itself. -/
def CliItem.raw : CliItem → Str
  | .word s => s
  | .option u => u.raw
  | .dashes => s%"--"

/-- `argparse.py:1935-1961`: all arguments are looked at before anything is done. -/
def classify (t : Texts) (p : CliParser) : List Str → Except PyErr (List CliItem)
  | [] => .ok []
  | a :: as =>
    if a == s%"--" then .ok (.dashes :: as.map .word)
    else
      match parseOptional t p a with
      | .error e => .error e
      | .ok none =>
        match classify t p as with
        | .error e => .error e
        | .ok is => .ok (.word a :: is)
      | .ok (some u) =>
        match classify t p as with
        | .error e => .error e
        | .ok is => .ok (.option u :: is)

/-- What one argument that is read as options amounts to (`action_tuples` of `argparse.py:1995`): the
options with their texts, an option whose text is the next argument, and what is left over. -/
structure Uses where
  done : List (CliOpt × Option Str)
  awaits : Option CliOpt
  extra : Option Str

/-- An option without a text of its own (`argparse.py:2047-2053`). -/
def useAlone (o : CliOpt) : Uses :=
  if o.takes then ⟨[], some o, none⟩ else ⟨[(o, none)], none, none⟩

/-- `argparse.py:2005-2042`: an option with a text in the same argument.  A flag named by a single
letter leaves the text for more letters. -/
def useExplicit (p : CliParser) (o : CliOpt) (long sep : Bool) : Str → Except PyErr Uses
  | [] => if o.takes then .ok ⟨[(o, some [])], none, none⟩ else .error (.systemExit 2)
  | c :: s =>
    if o.takes then .ok ⟨[(o, some (c :: s))], none, none⟩
    else if long then .error (.systemExit 2)
    else if sep || c == '-' then .error (.systemExit 2)
    else
      match p.named ['-', c] with
      | none => .ok ⟨[(o, none)], none, some ('-' :: c :: s)⟩
      | some o' =>
        match s with
        | [] => .ok { useAlone o' with done := (o, none) :: (useAlone o').done }
        | d :: s' =>
          match (if d == '=' then useExplicit p o' false true s'
              else useExplicit p o' false false (d :: s')) with
          | .error e => .error e
          | .ok r => .ok { r with done := (o, none) :: r.done }

/-- `argparse.py:1986-2053`: the options in one argument. -/
def useOption (p : CliParser) (u : OptUse) : Except PyErr Uses :=
  match u.opt with
  | none => .ok ⟨[], none, some u.raw⟩
  | some o =>
    match u.explicit with
    | none => .ok (useAlone o)
    | some s => useExplicit p o u.long u.sep s

/-- `argparse.py:1964-1983` (`take_action`) for one option, as far as it can leave the program: help
and version are shown, a text that is no number is an error (`argparse.py:2531-2556`). -/
def takeOne (t : Texts) (o : CliOpt) (v : Option Str) : Except PyErr Unit :=
  match o.kind, v with
  | .exits, _ => .error (.systemExit 0)
  | .number, some s => if (t.int s).isSome then .ok () else .error (.systemExit 2)
  | _, _ => .ok ()

/-- `argparse.py:2058-2059`: the actions of the options of one argument, one after the other. -/
def takeActions (t : Texts) : List (CliOpt × Option Str) → Except PyErr Unit
  | [] => .ok ()
  | d :: ds =>
    match takeOne t d.1 d.2 with
    | .error e => .error e
    | .ok () => takeActions t ds

/-- The state of the arguments that are not options (`positionals` of `argparse.py:2064`): still to be
read, being read, or read. -/
inductive Phase
  | fresh
  | taking
  | done
deriving DecidableEq, Repr

/-- What has been read: the options with their texts, the words, and what is left over. -/
structure Seen where
  options : List (CliOpt × Option Str)
  words : List Str
  extras : List Str

/-- Nothing has been read. -/
def Seen.empty : Seen := ⟨[], [], []⟩

/-- After an argument with options, the words before it are complete (`argparse.py:2079-2080`:
`positionals` are removed when they have been read). -/
def Phase.close : Phase → Phase
  | .fresh => .fresh
  | .taking => .done
  | .done => .done

/-- `argparse.py:2064-2129`: words and options alternately, in the order of the arguments.
`argparse.py:2346-2385` gives the patterns: one word (`-*A-*`) is read together with a `--` before or
after it (when there is no word after `--`, the missing word is an error, `:2155-2157`); any number of
words (`-*[A-]*`) as far as they reach without an option between them; a
sub-command (`-*A[-AO]*`) with everything after it.  The first `--` is removed (`:2477-2481`), except
for sub-commands. -/
def eat (t : Texts) (p : CliParser) : Phase → Seen → List CliItem → Except PyErr Seen
  | _, s, [] => .ok s
  | ph, s, .option u :: is =>
    match useOption p u with
    | .error e => .error e
    | .ok r =>
      match r.awaits with
      | none =>
        match takeActions t r.done with
        | .error e => .error e
        | .ok () =>
          eat t p ph.close { s with options := s.options ++ r.done, extras := s.extras ++ r.extra.toList } is
      | some o =>
        match is with
        | .word v :: is' =>
          match takeActions t (r.done ++ [(o, some v)]) with
          | .error e => .error e
          | .ok () =>
            eat t p ph.close { s with options := s.options ++ (r.done ++ [(o, some v)]) } is'
        | _ => .error (.systemExit 2)
  | ph, s, .word w :: is =>
    match p.rest, ph with
    | .one, .fresh => eat t p .taking { s with words := s.words ++ [w] } is
    | .many, .fresh => eat t p .taking { s with words := s.words ++ [w] } is
    | .many, .taking => eat t p .taking { s with words := s.words ++ [w] } is
    | .command, .fresh => .ok { s with words := s.words ++ (w :: is.map CliItem.raw) }
    | _, _ => eat t p ph.close { s with extras := s.extras ++ [w] } is
  | ph, s, .dashes :: is =>
    match p.rest, ph with
    | .one, .fresh => eat t p .fresh s is
    | .one, .taking => eat t p .done s is
    | .many, .fresh => eat t p .taking s is
    | .many, .taking => eat t p .taking s is
    | .command, .fresh =>
      match is with
      | [] => .ok { s with extras := s.extras ++ [s%"--"] }
      | _ => .ok { s with words := s.words ++ (s%"--" :: is.map CliItem.raw) }
    | _, _ => eat t p ph { s with extras := s.extras ++ [s%"--"] } is

/-- `argparse.py:1917-2177`: `_parse_known_args`.  One word is required (`:2155-2157`); any number of
words and a sub-command (`punx/main.py:339`, not `required`) are not. -/
def parseKnown (t : Texts) (p : CliParser) (args : List Str) : Except PyErr Seen :=
  match classify t p args with
  | .error e => .error e
  | .ok is =>
    match eat t p .fresh .empty is with
    | .error e => .error e
    | .ok s =>
      if p.rest == .one && s.words.isEmpty then .error (.systemExit 2) else .ok s

/-! ## the sub-commands -/

/-- Every parser has it (`argparse.py:1760-1765`). -/
def helpOpt : CliOpt := ⟨[s%"-h", s%"--help"], s%"help", .exits⟩

/-- `punx/main.py:329-339`: the parser for everything. -/
def topParser : CliParser := ⟨[helpOpt, ⟨[s%"-v", s%"--version"], s%"version", .exits⟩], .command⟩

/-- `punx/main.py:341-344`. -/
def configurationParser : CliParser := ⟨[helpOpt], .none⟩

/-- `punx/main.py:346-351`. -/
def demonstrateParser : CliParser := ⟨[helpOpt], .none⟩

/-- `punx/main.py:375-381`. -/
def updateOpt : CliOpt := ⟨[s%"-u", s%"--update"], s%"update", .flag⟩

/-- `punx/main.py:360-381`. -/
def installParser : CliParser := ⟨[helpOpt, updateOpt], .many⟩

/-- `punx/main.py:390-396`. -/
def attributesOpt : CliOpt := ⟨[s%"-a"], s%"show_attributes", .flag⟩

/-- `punx/main.py:397-405`. -/
def itemsOpt : CliOpt := ⟨[s%"-m", s%"--max_array_items"], s%"max_array_items", .number⟩

/-- `punx/main.py:385-405`. -/
def treeParser : CliParser := ⟨[helpOpt, attributesOpt, itemsOpt], .one⟩

/-- `punx/main.py:412-420`. -/
def fileSetOpt : CliOpt := ⟨[s%"-f", s%"--file_set_name"], s%"file_set_name", .text⟩

/-- `punx/main.py:422-428`. -/
def reportOpt : CliOpt := ⟨[s%"--report"], s%"report", .text⟩

/-- `punx/main.py:408-428`. -/
def validateParser : CliParser := ⟨[helpOpt, fileSetOpt, reportOpt], .one⟩

/-- A sub-command with its arguments: `args.func` and what it uses of `args`. -/
inductive Command
  | configuration
  | demonstrate
  | install (names : List Str) (update : Bool)
  | tree (infile : Str) (showAttrs : Bool) (shown : Int)
  | validate (a : ValidateArgs)

/-- The last text given to an option (`setattr` for each). -/
def lastText (o : CliOpt) (ds : List (CliOpt × Option Str)) : Option Str :=
  (ds.filterMap fun d => if d.1 == o then d.2 else none).getLast?

/-- `punx/main.py:422`: the default of `--report`. -/
def allStatuses : Str := join s%"," (sortBy strLe (Status.all.map Status.key))

/-- `args` of a sub-command from what has been read (`punx/main.py:341-428`).  `ref` is the `ref` of the
default file set. -/
def commandOf (t : Texts) (ref : Option Str) (name : Str) (s : Seen) : Except PyErr Command :=
  if name == s%"configuration" then .ok .configuration
  else if name == s%"demonstrate" then .ok .demonstrate
  else if name == s%"install" then
    .ok (.install (if s.words.isEmpty then [s%"main"] else s.words)
      (s.options.any fun d => d.1 == updateOpt))
  else if name == s%"tree" then
    .ok (.tree (s.words.headD []) (!s.options.any fun d => d.1 == attributesOpt)
      (((lastText itemsOpt s.options).bind t.int).getD 5))
  else if name == s%"validate" then
    .ok (.validate ⟨s.words.headD [],
      (match lastText fileSetOpt s.options with | some v => some v | none => ref),
      (lastText reportOpt s.options).getD allStatuses⟩)
  else .error (.systemExit 2)

/-- `self._name_parser_map` of the sub-commands. -/
def subParser (name : Str) : Option CliParser :=
  if name == s%"configuration" then some configurationParser
  else if name == s%"demonstrate" then some demonstrateParser
  else if name == s%"install" then some installParser
  else if name == s%"tree" then some treeParser
  else if name == s%"validate" then some validateParser
  else none

/-- `argparse.py:1873-1915` with `:1222-1257`: `parse_args` of the parser for everything, for arguments
whose sub-command is written out; `main` of `punx` leaves with status 1 when there is none
(`punx/main.py:437-440`). -/
def parseArgs (t : Texts) (ref : Option Str) (args : List Str) : Except PyErr Command :=
  match parseKnown t topParser args with
  | .error e => .error e
  | .ok s =>
    match s.words with
    | [] => if s.extras.isEmpty then .error (.systemExit 1) else .error (.systemExit 2)
    | name :: rest =>
      match subParser name with
      | none => .error (.systemExit 2)
      | some p =>
        match parseKnown t p rest with
        | .error e => .error e
        | .ok s' =>
          if (s.extras ++ s'.extras).isEmpty then commandOf t ref name s' else .error (.systemExit 2)

/-- `punx/main.py:277-312`: the first argument is completed to the name of a sub-command, then
`argparse` reads the arguments. -/
def parseCommandLine (t : Texts) (ref : Option Str) : List Str → Except PyErr Command
  | [] => parseArgs t ref []
  | w :: ws =>
    if startsWith w s%"-" then parseArgs t ref (w :: ws)
    else
      match expandCommand commands w with
      | .error e => .error e
      | .ok c => parseArgs t ref (c :: ws)

/-- `punx/main.py:315-319,413,417`: the `ref` of the default file set, which is needed before anything
is read. -/
def defaultRef (source user : CacheDir) : Except PyErr (Option Str) :=
  match allFileSets source user with
  | .error e => .error e
  | .ok sets =>
    match defaultSet? sets with
    | .error e => .error e
    | .ok none => .error .attributeError
    | .ok (some s) => .ok s.ref

/-- `punx/main.py:434-441` with `:315-431`: the sub-command that `main` runs. -/
def mainCommand (t : Texts) (source user : CacheDir) (args : List Str) : Except PyErr Command :=
  match defaultRef source user with
  | .error e => .error e
  | .ok ref => parseCommandLine t ref args

end Punx

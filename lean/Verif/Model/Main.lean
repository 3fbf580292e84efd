import Verif.Model.Argparse
import Verif.Model.Process

/-!
# `punx/main.py:434-441`: whole runs of the program, one after the other

Each run is a new process.  The caches are read when it starts and, by `punx install`, when it ends.
-/

namespace Punx

/-- What stays the same from run to run: what Python and lxml make of texts, the cache of the source
directory, and how the operating system shows a disk. -/
structure Machine where
  texts : Texts
  lib : Lib
  /-- `re.compile` -/
  pattern : Str → Pat
  env : Env
  upper : Char → Str
  abspath : Str → Str
  source : CacheDir
  /-- directory of the user's cache -/
  userPath : Str
  /-- `os.listdir` of the user's cache -/
  ls : Disk → List Str
  /-- the directories of the file sets, by their paths -/
  dir : Disk → Str → SetDir
  /-- `punx/main.py:127`: the example file -/
  demoFile : Str

/-- What may be different in each run: the data files, the NXDL files, the network, what can be
removed, the clock. -/
structure Moment where
  files : Str → FileState
  xml : Str → XmlState
  fileExists : Str → Bool
  xslt : Str → Str → Except PyErr (Option (List Str))
  net : Nat → Nat → Answer
  removal : Nat → Disk → Removal
  written : Nat → Str

/-- What a run shows: what the commands do (`Act`), or the table of the file sets with the default
one. -/
inductive Shown
  | act (a : Act)
  | table (rows : List CacheRow) (default : Option Str)

/-- The user's cache. -/
def Machine.user (M : Machine) (d : Disk) : CacheDir := ⟨M.userPath, M.ls d, d⟩

/-- The disks as the functions of `punx` see them. -/
def Machine.disks (M : Machine) (d : Disk) : Disks := ⟨M.source, M.user d, M.dir d⟩

/-- The surroundings of a command. -/
def Machine.world (M : Machine) (x : Moment) (d : Disk) : World :=
  commandWorld M.lib M.pattern (M.disks d) M.env x.files M.upper M.abspath

/-- `punx/nxdltree.py:58-59`: the path of the default file set (there is one when a command runs:
`punx/main.py:412`). -/
def Machine.defaultPath (M : Machine) (d : Disk) : Str :=
  match allFileSets M.source (M.user d) with
  | .error _ => []
  | .ok sets =>
    match selectFileSet sets none with
    | .error _ => []
    | .ok s => s.path

/-- The table is printed at the end. -/
def showTable (r : Except PyErr (List CacheRow × Option Str)) : W Shown Unit :=
  match r with
  | .error e => W.fail e
  | .ok (rows, default) => W.tell (.table rows default)

/-- What a command does is shown. -/
def showActs (r : W Act Unit) : W Shown Unit := ⟨r.log.map .act, r.res⟩

/-- `punx/main.py:434-441`: one run of the program with these arguments: what it shows, how it ends, and
the user's cache afterwards.  `punx install` changes the cache also if it ends with an error. -/
def runMain (M : Machine) (x : Moment) (d : Disk) (args : List Str) : W Shown Unit × Disk :=
  match mainCommand M.texts M.source (M.user d) args with
  | .error e => (W.fail e, d)
  | .ok .configuration => (showTable (funcConfiguration M.source (M.user d)), d)
  | .ok .demonstrate => (showActs (funcDemo (M.world x d) M.demoFile), d)
  | .ok (.install names update) =>
    let d' := applyAll d (installAll x.net x.removal x.written update 0 d names).ops
    (showTable (funcInstall M.source (M.user d) (M.ls d') x.net x.removal x.written update names), d')
  | .ok (.tree infile showAttrs shown) =>
    (showActs (funcTree (M.world x d) ⟨x.xml, M.defaultPath d, x.fileExists, x.xslt⟩ infile showAttrs
      shown), d)
  | .ok (.validate a) => (showActs (funcValidate (M.world x d) a), d)

/-- Runs one after the other. -/
def session (M : Machine) (d : Disk) : List (Moment × List Str) → List (W Shown Unit) × Disk
  | [] => ([], d)
  | (x, args) :: rest =>
    let r := runMain M x d args
    let s := session M r.2 rest
    (r.1 :: s.1, s.2)

end Punx

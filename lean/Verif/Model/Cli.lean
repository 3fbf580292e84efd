import Verif.Model.Validate
import Verif.Model.Report
import Verif.Model.H5Tree
import Verif.Model.Cache

/-!
# `punx/main.py`, `punx/nxdltree.py`: the command line
-/

namespace Punx

/-! ## choice of the command -/

/-- `punx/main.py:341-408`: the names of the sub-commands. -/
def commands : List Str :=
  [s%"configuration", s%"demonstrate", s%"install", s%"tree", s%"validate"]

/-- `punx/main.py:286-311`: the sub-command for a word; `self.error` of `argparse` leaves the program
with status 2. -/
def expandCommand (choices : List Str) (w : Str) : Except PyErr Str :=
  if !choices.isEmpty && !choices.contains w then
    if w.length < 2 then .error (.systemExit 2)
    else
      match choices.filter (fun c => startsWith c w) with
      | [] => .error (.systemExit 2)
      | [c] => .ok c
      | _ :: _ :: _ => .error (.systemExit 2)
  else .ok w

/-- `punx/main.py:277-312` with `:434-441`: which sub-command is run for the words after the name of
the program.  Without any word no sub-command is chosen: `main` leaves with status 1 (`:437-440`).
Options before the sub-command are left to `argparse` (`dashed`; `Model/Argparse.lean` has the whole). -/
def chooseCommand (dashed : List Str → Except PyErr Str) : List Str → Except PyErr Str
  | [] => .error (.systemExit 1)
  | w :: ws => if startsWith w s%"-" then dashed (w :: ws) else expandCommand commands w

/-! ## `punx validate` -/

/-- `str.upper()`: ASCII letters as usual; `other` is what happens to the other characters (some of
them become ASCII letters). -/
def pyUpper (other : Char → Str) (s : Str) : Str :=
  s.flatMap (fun c => if c.toNat < 128 then [c.toUpper] else other c)

/-- `punx/main.py:213-218`: the words that are names of statuses, and the others. -/
def reportChoices (other : Char → Str) (option : Str) : List Str × List Str :=
  ((split ',' (pyUpper other option)).filter (fun c => (Status.all.map Status.key).contains c),
   (split ',' (pyUpper other option)).filter (fun c => !(Status.all.map Status.key).contains c))

/-- What the commands work with. -/
structure World where
  env : Env
  /-- `cm.all_file_sets` -/
  sets : Except PyErr (Dict Str FileSet)
  /-- the definitions that `NXDL_Manager` reads for a file set -/
  load : Str → Except PyErr Manager
  /-- the files -/
  files : Str → FileState
  /-- `str.upper()` of characters outside of ASCII -/
  upper : Char → Str
  /-- `os.path.abspath` -/
  abspath : Str → Str

/-- What the commands do. -/
inductive Act
  /-- `Data_File_Validator(ref)` reads the definitions -/
  | loadDefinitions (ref : Str)
  /-- `validator.validate(fname)` looks at the data file -/
  | openFile (fname : Str)
  /-- `print_report`: the file name, the rows, the summary, the score -/
  | report (fname : Str) (rows : List Finding) (summary : Dict Status Nat) (score : Score)
  /-- lines printed by `punx tree` -/
  | tree (lines : List Str)

/-- Arguments of `punx validate`.  The default of the file set may be missing in its description. -/
structure ValidateArgs where
  infile : Str
  fileSet : Option Str
  report : Str

/-- `punx/main.py:84-92`: `exit_message`. -/
def exitMessage {ε α : Type} : W ε α := W.fail (.systemExit 1)

/-- `punx/main.py:226-238`: validation and report. -/
def validateAndReport (w : World) (mgr : Manager) (infile : Str) (choices : List Str) : W Act Unit :=
  let r := validate w.env mgr w.files infile VState.init
  W.bind (W.tell (.openFile infile)) fun _ =>
    match r.2 with
    | .error .fileNotFound => exitMessage
    | .error .hdf5OpenError => exitMessage
    | .error e => W.fail e
    | .ok () =>
      match printReport choices r.1.validations with
      | .error e => W.fail e
      | .ok (rows, summary, score) => W.tell (.report infile rows summary score)

/-- `punx/main.py:189-238`: `func_validate`.  `validate.validate_xml` does not exist.  The file sets are
listed first (`:195`); that a default one can be selected from them has been seen before
(`punx/main.py:319`, `mainCommand`). -/
def funcValidate (w : World) (a : ValidateArgs) : W Act Unit :=
  match w.sets with
  | .error e => W.fail e
  | .ok sets =>
    if endsWith a.infile s%".nxdl.xml" then W.fail .attributeError
    else
      match a.fileSet with
      | none => exitMessage
      | some ref =>
        if !(Dict.keys sets).contains ref then exitMessage
        else
          W.bind (W.tell (.loadDefinitions ref)) fun _ =>
            match w.load ref with
            | .error e => W.fail e
            | .ok mgr =>
              if 0 < (reportChoices w.upper a.report).2.length then exitMessage
              else validateAndReport w mgr a.infile (reportChoices w.upper a.report).1

/-- `punx/main.py:105-139`: the validation that `punx demonstrate` makes (`GITHUB_NXDL_BRANCH` is
`main`, `punx/cache_manager.py:90`); `dataFile` is the example file. -/
def demoValidate (w : World) (dataFile : Str) : W Act Unit :=
  funcValidate w ⟨dataFile, some s%"main",
    join s%"," (sortBy strLe (Status.all.map Status.key))⟩

/-! ## `punx tree` -/

/-- An XML file for `lxml.etree.parse`: missing, not readable as XML, or with this `category` of the
root element. -/
inductive XmlState
  | missing
  | broken
  | doc (category : Option Str)

/-- `punx/nxdltree.py:83-87`: the directories of the categories. -/
def categoryTable : Dict Str Str :=
  [(s%"application", s%"applications"), (s%"base", s%"base_classes"),
   (s%"contributed", s%"contributed_definitions")]

/-- `punx/nxdltree.py:73-99`: `_determine_category_`; `None.getroot()` for a file that cannot be
read. -/
def determineCategory : XmlState → Except PyErr Str
  | .missing => .error .attributeError
  | .broken => .error .attributeError
  | .doc none => .error .valueError
  | .doc (some c) =>
    match Dict.get? categoryTable c with
    | none => .error .valueError
    | some p => .ok p

/-- `punx/nxdltree.py:43-50`: the constructor of `NxdlTreeView`: the category of a file that exists
(`none`: the attribute is not set). -/
def nxdlTreeView : XmlState → Except PyErr (Option Str)
  | .missing => .ok none
  | st =>
    match determineCategory st with
    | .error e => .error e
    | .ok p => .ok (some p)

/-- `punx/nxdltree.py:52-71`: `report`.  `setPath` is the path of the default file set, `exists` tells
which files there are, `xslt` stands for `xslt_transformation` and `splitlines` (`none`: one of the
files is no XML). -/
def nxdlTreeReport (setPath : Str) (fileExists : Str → Bool)
    (xslt : Str → Str → Except PyErr (Option (List Str))) (fname : Str) (category : Option Str) :
    Except PyErr (List Str) :=
  match category with
  | none => .error .attributeError
  | some c =>
    let sheet := setPath ++ '/' :: c ++ '/' :: s%"nxdlformat.xsl"
    if !fileExists sheet then .error .valueError
    else
      match xslt sheet fname with
      | .error e => .error e
      | .ok none => .error .attributeError
      | .ok (some ls) => .ok ((s%"file: " ++ fname) :: (s%"XSLT: " ++ sheet) :: ls)

/-- What `punx tree` needs for NXDL files. -/
structure NxdlWorld where
  xml : Str → XmlState
  setPath : Str
  fileExists : Str → Bool
  xslt : Str → Str → Except PyErr (Option (List Str))

/-- `punx/main.py:160-186`: `func_tree`.  `Hdf5TreeView` never raises `FileNotFound` or
`HDF5_Open_Error`; exceptions of the `NxdlTreeView` constructor lead to `exit_message`. -/
def funcTree (w : World) (x : NxdlWorld) (infile : Str) (showAttrs : Bool) (shown : Int) :
    W Act Unit :=
  if endsWith infile s%".nxdl.xml" then
    match nxdlTreeView (x.xml (w.abspath infile)) with
    | .error _ => exitMessage
    | .ok category =>
      match nxdlTreeReport x.setPath x.fileExists x.xslt (w.abspath infile) category with
      | .error e => W.fail e
      | .ok ls => W.tell (.tree ls)
  else
    match treeReport w.env shown showAttrs (w.abspath infile) (w.files (w.abspath infile)) with
    | .error e => W.fail e
    | .ok none => W.tell (.tree [])
    | .ok (some ls) => W.tell (.tree ls)

/-- `punx/main.py:105-149`: `func_demo`: validation, then the tree of the same file, with attributes
and five items of each array.  `dataFile` is the absolute path of the example file; a missing file
gives no lines, and joining `None` is a `TypeError`. -/
def funcDemo (w : World) (dataFile : Str) : W Act Unit :=
  W.bind (demoValidate w dataFile) fun _ =>
    match treeReport w.env 5 true dataFile (w.files dataFile) with
    | .error e => W.fail e
    | .ok none => W.fail .typeError
    | .ok (some ls) => W.tell (.tree ls)

/-! ## `punx configuration` -/

/-- `punx/cache_manager.py:269-287`: the default file set of a new cache manager: `KeyError` is
caught. -/
def defaultSet? (sets : Dict Str FileSet) : Except PyErr (Option FileSet) :=
  match selectFileSet sets none with
  | .error .keyError => .ok none
  | .error e => .error e
  | .ok s => .ok (some s)

/-- `punx/main.py:95-102`: `func_configuration`: the table of the file sets, and the `ref` of the
default one.  Simplification: the caches do not change between the two times they are read. -/
def funcConfiguration (source user : CacheDir) : Except PyErr (List CacheRow × Option Str) :=
  match allFileSets source user with
  | .error e => .error e
  | .ok sets =>
    match defaultSet? sets with
    | .error e => .error e
    | .ok default =>
      match tableOfCaches sets with
      | .error e => .error e
      | .ok rows =>
        match default with
        | none => .error .attributeError
        | some s => .ok (rows, s.ref)

/-! ## `punx install` -/

/-- `punx/main.py:252-259`: one set after the other.  What the network, the removal and the clock
do may be different for each. -/
def installAll (net : Nat → Nat → Answer) (removal : Nat → Disk → Removal) (written : Nat → Str)
    (update : Bool) (k : Nat) (d : Disk) : List Str → Deed Unit
  | [] => ⟨[], .ok ()⟩
  | name :: names =>
    (downloadFileSet (net k) (removal k d) (written k) d name update).andThen d fun _ d' =>
      installAll net removal written update (k + 1) d' names

/-- `punx/main.py:241-262`: `func_install`, with what is printed at the end: the table of all sets, and
the default file set.  `punx/cache_manager.py:269-279`: that one is selected when the cache manager is
made, which is before the installation (`punx/main.py:319`).  `listing` is what `os.listdir` gives for
the user's cache afterwards.  Simplification: nothing else changes the caches meanwhile. -/
def funcInstall (source user : CacheDir) (listing : List Str) (net : Nat → Nat → Answer)
    (removal : Nat → Disk → Removal) (written : Nat → Str) (update : Bool) (names : List Str) :
    Except PyErr (List CacheRow × Option Str) :=
  match allFileSets source user with
  | .error e => .error e
  | .ok sets =>
    match selectFileSet sets none with
    | .error e => .error e
    | .ok default =>
      let deed := installAll net removal written update 0 user.disk names
      match deed.res with
      | .error e => .error e
      | .ok () =>
        match allFileSets source ⟨user.path, listing, applyAll user.disk deed.ops⟩ with
        | .error e => .error e
        | .ok sets' =>
          match tableOfCaches sets' with
          | .error e => .error e
          | .ok rows => .ok (rows, default.ref)

end Punx

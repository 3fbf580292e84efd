import Verif.Model.Cache
import Verif.Model.Cli
import Verif.Model.SchemaManager

/-!
# File sets, their schemas and their definitions in one process

`punx/cache_manager.py`, `punx/nxdl_manager.py`, `punx/schema_manager.py`: which objects a process
makes, and which of them are used for what.
Simplification: `nxdl.xsd` and `nxdlTypes.xsd` are well formed XML if they are there.
-/

namespace Punx

/-! ## the surroundings -/

/-- The directory of a file set. -/
structure SetDir where
  /-- `os.path.exists(path)` -/
  here : Bool
  /-- `nxdl.xsd` -/
  xsd : Option XsNode
  /-- `nxdlTypes.xsd` -/
  types : Option XsNode
  /-- content of the category directories, `none`: missing -/
  listing : Category → Option (List NxdlFile)

/-- The disk while a function runs. -/
structure Disks where
  source : CacheDir
  user : CacheDir
  /-- the directories of the file sets, by their paths -/
  dir : Str → SetDir

/-- What is left to Python and lxml. -/
structure Lib where
  /-- recursion limit -/
  fuel : Nat
  /-- `int` -/
  int : Str → Option Int
  /-- `lxml.etree.XMLSchema` accepts `nxdl.xsd`, with `nxdlTypes.xsd` beside it -/
  compiles : XsNode → Option XsNode → Bool
  /-- `assertValid` of the schema made from these files accepts a document -/
  accepts : XsNode → Option XsNode → Xml → Bool

/-! ## objects -/

/-- A `SchemaManager`: the files from which it was made, and what it has read. -/
structure SchemaObj where
  xsd : XsNode
  types : Option XsNode
  own : OwnSchema

/-- An `NXDL_File_Set`; `schema` is there if `__schema_manager_loaded__`. -/
structure SetObj where
  info : FileSet
  schema : Option SchemaObj

/-- The state of a process.  `objs` are all file sets ever made; they are known by their positions. -/
structure Proc where
  /-- attributes of the classes of `schema_manager.py` -/
  shared : Shared := {}
  objs : List SetObj := []
  /-- there is a `CacheManager` (`punx/singletons.py:20-23`) -/
  made : Bool := false
  /-- `cm.NXDL_file_sets` -/
  sets : Dict Str Nat := []
  /-- `cm.default_file_set` -/
  default : Option Nat := none

/-- `cm.NXDL_file_sets` with the descriptions of the sets. -/
def Proc.infos (p : Proc) : Dict Str FileSet :=
  p.sets.filterMap fun kv => (p.objs[kv.2]?).map fun o => (kv.1, o.info)

/-- New objects for the sets of a cache (`punx/cache_manager.py:424`), put into the dictionary of all
sets (`:335`). -/
def addSets : List (Str × FileSet) → Proc → Proc
  | [], p => p
  | (k, f) :: r, p =>
    addSets r { p with objs := p.objs ++ [⟨f, none⟩], sets := Dict.set p.sets k p.objs.length }

/-- `punx/cache_manager.py:330-340`: `cm.all_file_sets`. -/
def readSets (w : Disks) : Mut Proc Unit := fun p =>
  match w.source.allFileSets with
  | .error e => (.error e, { p with sets := [] })
  | .ok s =>
    match w.user.allFileSets with
    | .error e => (.error e, addSets s { p with sets := [] })
    | .ok u => (.ok (), addSets u (addSets s { p with sets := [] }))

/-- `punx/cache_manager.py:299-325`: `cm.select_NXDL_file_set(ref)`. -/
def selectSet (ref : Option Str) : Mut Proc Unit := fun p =>
  match chooseSet p.infos ref with
  | .error e => (.error e, p)
  | .ok k =>
    match Dict.get? p.sets k with
    | none => (.error .keyError, p)
    | some i =>
      match p.objs[i]? with
      | none => (.error .keyError, p)
      | some o =>
        (if o.info.printable then .ok () else .error .typeError, { p with default := some i })

/-- `punx/cache_manager.py:277-292`: `CacheManager.__init__`. -/
def initCaches (w : Disks) : Mut Proc Unit := do
  readSets w
  fun p =>
    match selectSet none p with
    | (.error .keyError, p') => (.ok (), p')
    | r => r

/-- `CacheManager()` (`punx/singletons.py:20-23`).  If the constructor fails its object is lost. -/
def cacheManager (w : Disks) : Mut Proc Unit := fun p =>
  if p.made then (.ok (), p)
  else
    match initCaches w { p with sets := [], default := none } with
    | (.ok (), p') => (.ok (), { p' with made := true })
    | (.error e, p') => (.error e, { p' with sets := [], default := none })

/-- `punx/cache_manager.py:485-498`: `file_set.schema_manager` is made when it is needed. -/
def setSchema (lib : Lib) (w : Disks) (i : Nat) : Mut Proc (Option SchemaObj) := fun p =>
  match p.objs[i]? with
  | none => (.ok none, p)
  | some o =>
    match o.schema with
    | some s => (.ok (some s), p)
    | none =>
      let d := w.dir o.info.path
      if !d.here then (.ok none, p)
      else
        match newManager lib.fuel lib.int lib.compiles d.xsd d.types p.shared with
        | (.error e, sh) => (.error e, { p with shared := sh })
        | (.ok own, sh) =>
          match d.xsd with
          | none => (.error .fileNotFound, { p with shared := sh })
          | some x =>
            (.ok (some ⟨x, d.types, own⟩),
              { p with shared := sh, objs := p.objs.set i ⟨o.info, some ⟨x, d.types, own⟩⟩ })

/-! ## `NXDL_Manager` -/

/-- The argument of `NXDL_Manager` and of `Data_File_Validator`: nothing, the name of a set, or a
set. -/
inductive SetArg
  | latest
  | named (ref : Str)
  | object (i : Nat)

/-- `cm.default_file_set`, which must not be `None` (`punx/nxdl_manager.py:84`,
`punx/schema_manager.py:87`). -/
def defaultSet : Mut Proc Nat := fun p =>
  match p.default with
  | none => (.error .assertionError, p)
  | some i => (.ok i, p)

/-- The object with this number; `assert isinstance(…)` in `punx/nxdl_manager.py:84`. -/
def setObj (i : Nat) : Mut Proc SetObj := fun p =>
  match p.objs[i]? with
  | none => (.error .assertionError, p)
  | some o => (.ok o, p)

/-- `punx/nxdl_manager.py:76-83`: the set that is meant. -/
def wantedSet (w : Disks) : SetArg → Mut Proc Nat
  | .object i => pure i
  | .latest => do
    cacheManager w
    defaultSet
  | .named r => do
    cacheManager w
    selectSet (some r)
    defaultSet

/-- `punx/nxdl_manager.py:123-128`: `get_nxdl_defaults`; the part of it that is changed later. -/
def readDefaults (lib : Lib) (d : SetDir) : Except PyErr (Option Defaults) :=
  match d.xsd with
  | none => .ok none
  | some x => (summarize lib.fuel lib.int x).map fun s => some s.defaults

/-- `punx/nxdl_manager.py:161-175`: `validate_xml_tree` uses the schema of the default file set. -/
def validateXml (lib : Lib) (w : Disks) (x : Xml) : Mut Proc Unit := do
  cacheManager w
  let i ← defaultSet
  let s ← setSchema lib w i
  match s with
  | none => Mut.fail .attributeError
  | some s => if lib.accepts s.xsd s.types x then pure () else Mut.fail .invalidNxdl

/-- `punx/nxdl_manager.py:94-99, 433-457`: the loop over the files. -/
def readDefs (lib : Lib) (w : Disks) :
    List (Category × NxdlFile) → Dict Str ClassDef → Defaults → Mut Proc (Dict Str ClassDef × Defaults)
  | [], acc, d => pure (acc, d)
  | (c, f) :: rest, acc, d =>
    match f.content with
    | none => Mut.fail .exception
    | some x => do
      validateXml lib w x
      let r ← Mut.lift ((readDefinition (titleOf f) c x).run d)
      readDefs lib w rest (Dict.set acc (titleOf f) r.1) r.2

/-- A `NXDL_Manager`. -/
structure ManagerObj where
  fileSet : Nat
  classes : Dict Str ClassDef
  defaults : Option Defaults

/-- `punx/nxdl_manager.py:94-99`: the classes.  Without `nxdl.xsd` the first definition fails
(line 382). -/
def readClasses (lib : Lib) (w : Disks) (i : Nat) :
    Option Defaults → List (Category × NxdlFile) → Mut Proc ManagerObj
  | none, [] => pure ⟨i, [], none⟩
  | none, _ :: _ => Mut.fail .assertionError
  | some ds, files => do
    let r ← readDefs lib w files [] ds
    pure ⟨i, r.1, some r.2⟩

/-- `punx/nxdl_manager.py:75-108`: `NXDL_Manager.__init__`. -/
def nxdlManager (lib : Lib) (w : Disks) (arg : SetArg) : Mut Proc ManagerObj := do
  let i ← wantedSet w arg
  let o ← setObj i
  if !(w.dir o.info.path).here then Mut.fail .fileNotFound
  else do
    let s ← Mut.lift (readDefaults lib (w.dir o.info.path))
    let files ← Mut.lift (fileListFrom ⟨true, s, (w.dir o.info.path).listing⟩ allCategories)
    readClasses lib w i s files

/-- `punx/main.py:199-211` with `:319`: what `punx validate` does before it looks at the data file:
the cache manager is made, the sets are listed again, the validator is made for one that is known. -/
def commandLoad (lib : Lib) (w : Disks) (ref : Str) : Mut Proc ManagerObj := do
  cacheManager w
  readSets w
  fun p =>
    if Dict.has p.sets ref then nxdlManager lib w (.named ref) p
    else (.error (.systemExit 1), p)

/-- The manager as the validation sees it (`Verif.Model.Nxdl`); `pattern` stands for `re.compile`.
The patterns are those of the schema of its file set.  Simplification: that schema has been read,
which is so if the set has definitions. -/
def ManagerObj.view (pattern : Str → Pat) (p : Proc) (m : ManagerObj) : Manager :=
  let pats (k : Str) : Option (List Pat) := do
    let o ← p.objs[m.fileSet]?
    let s ← o.schema
    let q ← Dict.get? s.own.patterns k
    pure (q.reList.map pattern)
  { classes := m.classes
    itemPats := pats s%"validItemName"
    classPats := pats s%"validNXClassName"
    fieldMinOccursIsOne :=
      match m.defaults with
      | some d => d.fieldMinOccurs.map DefVal.isOne
      | none => none }

/-- The surroundings of a command (`Verif.Model.Cli`), with the definitions that it reads itself, in a
new process. -/
def commandWorld (lib : Lib) (pattern : Str → Pat) (w : Disks) (env : Env) (files : Str → FileState)
    (upper : Char → Str) (abspath : Str → Str) : World :=
  { env := env
    sets := allFileSets w.source w.user
    load := fun ref =>
      match commandLoad lib w ref {} with
      | (.ok m, p) => .ok (m.view pattern p)
      | (.error e, _) => .error e
    files := files
    upper := upper
    abspath := abspath }

end Punx

import Verif.Py.Basic

/-!
# `punx/cache_manager.py`, `punx/singletons.py`: the caches of NXDL file sets

The disk is a function from paths (relative to one cache directory) to what is there.  Everything
that changes the disk is a list of operations (`Op`), so that an installation can be stopped
between any two of them (and in the middle of writing a file).
-/

namespace Punx

/-! ## files -/

/-- A path below the cache directory, as its components. -/
abbrev FPath := List Str

/-- Content of a file: a JSON object whose values are texts, or anything else (which is no JSON;
simplification: there are no JSON files with other values). -/
inductive Content
  | json (fields : Dict Str Str)
  | raw (text : Str)
  deriving DecidableEq, Repr

/-- What is at a path. -/
inductive FObj
  | dir
  | file (c : Content)
  deriving DecidableEq, Repr

/-- The disk below the cache directory.  There are no links, and nothing else uses the disk. -/
abbrev Disk := FPath → Option FObj

namespace Disk

/-- `os.path.exists`, `pathlib.Path.exists` -/
def has (d : Disk) (p : FPath) : Bool := (d p).isSome

/-- `os.path.isdir` -/
def isDir (d : Disk) (p : FPath) : Bool := d p == some .dir

/-- Put something at a path. -/
def put (d : Disk) (p : FPath) (o : Option FObj) : Disk := fun q => if q = p then o else d q

end Disk

/-- Operations of the operating system that change the disk; each happens as a whole or not at all
(except `write`, see `Torn`). -/
inductive Op
  /-- `mkdir` -/
  | mkdir (p : FPath)
  /-- `open(…, "w")`: the file is there and empty -/
  | create (p : FPath)
  /-- write the content of an opened file -/
  | write (p : FPath) (c : Content)
  /-- `unlink`, `rmdir` -/
  | remove (p : FPath)
  /-- `rename` -/
  | rename (p q : FPath)
  deriving DecidableEq, Repr

/-- Effect of an operation. -/
def Op.apply (d : Disk) : Op → Disk
  | .mkdir p => d.put p (some .dir)
  | .create p => d.put p (some (.file (.raw [])))
  | .write p c => d.put p (some (.file c))
  | .remove p => d.put p none
  | .rename p q => fun r =>
    if q <+: r then d (p ++ r.drop q.length)
    else if p <+: r then none
    else d r

/-- Effect of operations one after the other. -/
def applyAll (d : Disk) (ops : List Op) : Disk := ops.foldl Op.apply d

/-- What a piece of code does to the disk: the operations, and the result or the exception. -/
structure Deed (α : Type) where
  ops : List Op
  res : Except PyErr α

namespace Deed

/-- Do one thing after the other; the second sees the disk as the first has left it. -/
def andThen {α β : Type} (d : Disk) (x : Deed α) (f : α → Disk → Deed β) : Deed β :=
  match x.res with
  | .error e => ⟨x.ops, .error e⟩
  | .ok a =>
    let y := f a (applyAll d x.ops)
    ⟨x.ops ++ y.ops, y.res⟩

end Deed

/-! ## file sets -/

/-- `punx/cache_manager.py:88`: `INFO_FILE_NAME`. -/
def infoName : Str := s%"__github_info__.json"

/-- `punx/cache_manager.py:100-106`: `get_short_sha`; `SHORT_SHA_LENGTH` is 7 (`:89`). -/
def shortSha (sha : Str) : Str := sha.take (min 7 sha.length)

/-- `punx/cache_manager.py:465-531`: `NXDL_File_Set`, after `read_info_file`. -/
structure FileSet where
  path : Str
  cache : Str
  info : Str
  ref : Option Str
  sha : Option Str
  zipUrl : Option Str
  lastModified : Option Str
  deriving DecidableEq, Repr

/-- `s.find(sub) > 0`: the first occurrence of `sub` is not at the start. -/
def findPositive (sub s : Str) : Bool := !startsWith s sub && hasSub sub s

/-- `punx/cache_manager.py:513-531`: `read_info_file` for the subdirectory `item` of the cache
directory `cachePath` (an absolute path without a slash at the end). -/
def readInfoFile (cachePath : Str) (d : Disk) (item : Str) : Except PyErr FileSet :=
  let path := cachePath ++ '/' :: item
  let cache := if findPositive s%"punx/cache" path then s%"source" else s%"user"
  match d [item, infoName] with
  | none => .error .fileNotFound
  | some .dir => .error .osError
  | some (.file (.raw _)) => .error .valueError
  | some (.file (.json o)) =>
    .ok { path := path, cache := cache, info := path ++ '/' :: infoName,
          ref := Dict.get? o s%"ref", sha := Dict.get? o s%"sha",
          zipUrl := Dict.get? o s%"zip_url", lastModified := Dict.get? o s%"last_modified" }

/-- A cache: its directory and what is in it.  `listing` is what `os.listdir` gives; the order is
that of the operating system. -/
structure CacheDir where
  path : Str
  listing : List Str
  disk : Disk

/-- `punx/cache_manager.py:420-425`: the loop of `Base_Cache.all_file_sets`. -/
def listSets (path : Str) (d : Disk) : List Str → Dict Str FileSet → Except PyErr (Dict Str FileSet)
  | [], fs => .ok fs
  | item :: items, fs =>
    if d.isDir [item] && d.has [item, infoName] then
      match readInfoFile path d item with
      | .error e => .error e
      | .ok s => listSets path d items (Dict.set fs item s)
    else listSets path d items fs

/-- `punx/cache_manager.py:411-426`: `Base_Cache.all_file_sets`. -/
def CacheDir.allFileSets (c : CacheDir) : Except PyErr (Dict Str FileSet) :=
  listSets c.path c.disk c.listing []

/-- `punx/cache_manager.py:330-340`: `CacheManager.all_file_sets`: source, then user. -/
def allFileSets (source user : CacheDir) : Except PyErr (Dict Str FileSet) :=
  match source.allFileSets with
  | .error e => .error e
  | .ok s =>
    match user.allFileSets with
    | .error e => .error e
    | .ok u => .ok (Dict.update (Dict.update [] s) u)

/-- Comparing the dates of file sets, `None` has no order (`TypeError`). -/
def dateText (s : FileSet) : Str := s.lastModified.getD []

/-- Sorting by date raises `TypeError` if there are two or more sets and one of them has no date:
every set is compared with another one. -/
def datesComparable (sets : Dict Str FileSet) : Bool :=
  sets.length < 2 || sets.all (fun kv => kv.2.lastModified.isSome)

/-- `punx/cache_manager.py:500-511`: `NXDL_File_Set.__str__` (called for a log message) needs
`sha` when `ref` is known. -/
def FileSet.printable (s : FileSet) : Bool := s.ref.isNone || s.sha.isSome

/-- `punx/cache_manager.py:309-320`: the name of the set that `select_NXDL_file_set` chooses.
`reverse=True` keeps the order of equal elements. -/
def chooseSet (sets : Dict Str FileSet) (ref : Option Str) : Except PyErr Str :=
  if !datesComparable sets then .error .typeError
  else
    let keys := (sortBy (fun a b => strLe (dateText b.2) (dateText a.2)) sets).map (·.1)
    let known : Option Str :=
      match ref with
      | some r => if keys.contains r then some r else none
      | none => none
    let chosen : Option Str := match known with
      | some r => some r
      | none => keys.head?
    match chosen with
    | none => .error .indexError
    | some r => .ok r

/-- `punx/cache_manager.py:299-325`: `select_NXDL_file_set`.  The result becomes `default_file_set`
(also if printing it fails, `:321-324`). -/
def selectFileSet (sets : Dict Str FileSet) (ref : Option Str) : Except PyErr FileSet :=
  match chooseSet sets ref with
  | .error e => .error e
  | .ok r =>
    match Dict.get? sets r with
    | none => .error .keyError
    | some s => if s.printable then .ok s else .error .typeError

/-- A row of the table of file sets. -/
structure CacheRow where
  name : Str
  cache : Str
  date : Str
  sha : Str
  path : Str
  deriving DecidableEq, Repr

/-- `punx/cache_manager.py:369-376`: one row; `get_short_sha(None)` is a `TypeError`,
`str(None)` is `None`. -/
def cacheRow (kv : Str × FileSet) : Except PyErr CacheRow :=
  match kv.2.sha with
  | none => .error .typeError
  | some sha => .ok ⟨kv.1, kv.2.cache, kv.2.lastModified.getD s%"None", shortSha sha, kv.2.path⟩

/-- The rows, in order. -/
def cacheRows : List (Str × FileSet) → Except PyErr (List CacheRow)
  | [] => .ok []
  | kv :: kvs =>
    match cacheRow kv with
    | .error e => .error e
    | .ok r =>
      match cacheRows kvs with
      | .error e => .error e
      | .ok rs => .ok (r :: rs)

/-- `punx/cache_manager.py:347-377`: `table_of_caches`. -/
def tableOfCaches (sets : Dict Str FileSet) : Except PyErr (List CacheRow) :=
  if !datesComparable sets then .error .typeError
  else cacheRows (sortBy (fun a b => strLe (dateText a.2) (dateText b.2)) sets)

/-! ## archives -/

/-- A date of an archive member: year, month, day, hour, minute, second. -/
structure Date where
  year : Nat
  month : Nat
  day : Nat
  hour : Nat
  minute : Nat
  second : Nat
  deriving DecidableEq, Repr

/-- Comparison of lists of numbers, as Python compares tuples. -/
def natsLe : List Nat → List Nat → Bool
  | [], _ => true
  | _ :: _, [] => false
  | a :: as, b :: bs => if a < b then true else if b < a then false else natsLe as bs

/-- The date as a tuple. -/
def Date.toList (d : Date) : List Nat := [d.year, d.month, d.day, d.hour, d.minute, d.second]

/-- `max(a, b)`: the first one if they are equal. -/
def Date.max (a b : Date) : Date := if natsLe b.toList a.toList then a else b

/-- A member of a ZIP archive. -/
structure ZipMember where
  name : Str
  text : Str
  date : Date
  deriving DecidableEq, Repr

/-- A ZIP archive: its members in order, its comment. -/
structure Archive where
  members : List ZipMember
  comment : Str

/-- `ZipFile.getinfo`: the last member with the name. -/
def Archive.getinfo (z : Archive) (name : Str) : Option ZipMember :=
  z.members.reverse.find? (fun m => m.name == name)

/-- Components of a `pathlib.Path`. -/
def zipParts (item : Str) : List Str :=
  (split '/' item).filter (fun w => !(w == []) && !(w == s%"."))

/-- `.name` -/
def lastPart (parts : List Str) : Str := parts.getLast?.getD []

/-- What follows the last dot of a text, if there is a dot. -/
def afterLastDot (name : Str) : Option Str :=
  if name.contains '.' then some (lastComp '.' name) else none

/-- `.suffix` of a path with the given last component: from the last dot, unless that is the first
or the last character. -/
def suffixOf (name : Str) : Str :=
  match afterLastDot name with
  | none => []
  | some e => if e.length + 1 < name.length && !(e == []) then '.' :: e else []

/-- `punx/cache_manager.py:127-138`: `is_extractable`. -/
def isExtractable (item : Str) (endings parents : List Str) : Bool :=
  endings.contains (suffixOf (lastPart (zipParts item))) &&
    parents.contains (lastPart (zipParts item).dropLast)

/-- Where `ZipFile.extract` puts a member, relative to the cache directory (components that are
empty, `.` or `..` are left out). -/
def extractPath (name : Str) : FPath :=
  (split '/' name).filter (fun w => !(w == []) && !(w == s%".") && !(w == s%".."))

/-- `os.makedirs` for a path: make each directory that is missing, from the top.  `pre` is the path
so far. -/
def makeDirs (d : Disk) (pre : FPath) : FPath → List Op
  | [] => []
  | w :: ws =>
    (if d.has (pre ++ [w]) then [] else [.mkdir (pre ++ [w])]) ++ makeDirs d (pre ++ [w]) ws

/-- All of a path and the paths above it are directories, or not there. -/
def dirsPossible (d : Disk) (pre : FPath) : FPath → Bool
  | [] => true
  | w :: ws => (d (pre ++ [w]) == none || d.isDir (pre ++ [w])) && dirsPossible d (pre ++ [w]) ws

/-- `ZipFile.extract(item, cache_path)`: make the directories above it, then make and fill the file
(a name with a slash at the end is a directory). -/
def extractMember (d : Disk) (m : ZipMember) : Deed Unit :=
  let p := extractPath m.name
  if !dirsPossible d [] p.dropLast then ⟨[], .error .osError⟩
  else
    let ds := makeDirs d [] p.dropLast
    if endsWith m.name s%"/" then
      match d p with
      | none => ⟨ds ++ [.mkdir p], .ok ()⟩
      | some .dir => ⟨ds, .ok ()⟩
      | some (.file _) => ⟨ds, .error .osError⟩
    else if d.isDir p then ⟨ds, .error .osError⟩
    else ⟨ds ++ [.create p, .write p (.raw m.text)], .ok ()⟩

/-- `punx/cache_manager.py:205-212`: the loop over the names in the archive; gives the date of the
newest extracted member and their number. -/
def extractAll (z : Archive) (endings parents : List Str) (d : Disk) (dt : Date) (count : Nat) :
    List Str → Deed (Date × Nat)
  | [] => ⟨[], .ok (dt, count)⟩
  | item :: items =>
    if isExtractable item endings parents then
      match z.getinfo item with
      | none => ⟨[], .error .keyError⟩
      | some m =>
        (extractMember d m).andThen d fun _ d' =>
          extractAll z endings parents d' (Date.max m.date dt) (count + 1) items
    else extractAll z endings parents d dt count items

/-- Days of a month. -/
def daysIn (year month : Nat) : Nat :=
  if month = 2 then
    if year % 4 = 0 && (year % 100 ≠ 0 || year % 400 = 0) then 29 else 28
  else if month = 4 ∨ month = 6 ∨ month = 9 ∨ month = 11 then 30 else 31

/-- `datetime.datetime(…)` accepts the date. -/
def Date.valid (d : Date) : Bool :=
  decide (1 ≤ d.year ∧ d.year ≤ 9999 ∧ 1 ≤ d.month ∧ d.month ≤ 12 ∧ 1 ≤ d.day ∧
    d.day ≤ daysIn d.year d.month ∧ d.hour < 24 ∧ d.minute < 60 ∧ d.second < 60)

/-- A number with at least the given number of digits. -/
def padded (width n : Nat) : Str := List.replicate (width - (natStr n).length) '0' ++ natStr n

/-- `.isoformat(sep=" ")` without microseconds. -/
def Date.iso (d : Date) : Str :=
  padded 4 d.year ++ '-' :: padded 2 d.month ++ '-' :: padded 2 d.day ++ ' ' ::
    padded 2 d.hour ++ ':' :: padded 2 d.minute ++ ':' :: padded 2 d.second

/-! ## download -/

/-- What happens when the archive is requested. -/
inductive Answer
  | archive (z : Archive)
  | connectionError
  | otherError (e : PyErr)

/-- `punx/cache_manager.py:152-159`: the loop of `download_NeXus_zip_archive`, with the given number
of attempts left; `net` is what the network does at each request.  Also gives the number of
requests made. -/
def requestLoop (net : Nat → Answer) (attempt : Nat) : Nat → Except PyErr (Option Archive) × Nat
  | 0 => (.ok none, attempt)
  | _ + 1 =>
    match net attempt with
    | .archive z => (.ok (some z), attempt + 1)
    | .connectionError => (.error .osError, attempt + 1)
    | .otherError e => (.error e, attempt + 1)

/-- `punx/cache_manager.py:141-159`: `download_NeXus_zip_archive`; `GITHUB_RETRY_COUNT` is 3
(`:92`). -/
def downloadArchive (net : Nat → Answer) : Except PyErr (Option Archive) × Nat :=
  requestLoop net 0 3

/-- What `shutil.rmtree(…, ignore_errors=True)` does to a directory: the paths below it that are
removed, in their order (`[]` is the directory itself).  The order is that of the operating system;
removals that fail are left out. -/
abbrev Removal := List FPath

/-- `punx/cache_manager.py:235-237`: remove the old directory, move the new one.  `shutil.move` into
a directory that exists puts it inside (an error if there is one already); onto a file is an
error. -/
def replaceOld (removal : Removal) (d : Disk) (top name : Str) : Deed Unit :=
  let rm := if d.isDir [name] then removal.map (fun r => Op.remove (name :: r)) else []
  Deed.andThen d ⟨rm, .ok ()⟩ fun _ d' =>
    match d' [name] with
    | none => if d'.has [top] then ⟨[.rename [top] [name]], .ok ()⟩ else ⟨[], .error .osError⟩
    | some .dir =>
      if d'.has [name, top] || !d'.has [top] then ⟨[], .error .osError⟩
      else ⟨[.rename [top] [name, top]], .ok ()⟩
    | some (.file _) => ⟨[], .error .osError⟩

/-- `punx/cache_manager.py:93-97`, `:191`. -/
def archiveUrl (name : Str) : Str :=
  s%"https://github.com/nexusformat/definitions/archive/" ++ name ++ s%".zip"

/-- `punx/cache_manager.py:199`: the endings. -/
def endings : List Str := [s%".xsd", s%".xml", s%".xsl"]

/-- `punx/cache_manager.py:198`: the categories. -/
def categories : List Str := [s%"base_classes", s%"applications", s%"contributed_definitions"]

/-- `punx/cache_manager.py:206`: date to start with. -/
def preNexus : Date := ⟨1980, 1, 1, 1, 1, 1⟩

/-- `punx/cache_manager.py:221-228`: what is written about a file set; `written` is the current
time.  Simplification: the comment of the archive is a text (an undecodable one is an error in the
code). -/
def infoFields (name sha date written : Str) : Dict Str Str :=
  [(s%"ref", name), (s%"sha", sha), (s%"zip_url", archiveUrl name), (s%"last_modified", date),
   (s%"# description", s%"NXDL files downloaded from GitHub repository"),
   (s%"# written", written)]

/-- `punx/cache_manager.py:198-237`: what happens with the archive.  Simplification: the name of the
first member does not start with `/`, `./` or `../`. -/
def unpack (z : Archive) (removal : Removal) (written : Str) (d : Disk) (name : Str) : Deed Unit :=
  match z.members with
  | [] => ⟨[], .error .indexError⟩
  | m :: _ =>
    let top := firstComp '/' m.name
    (extractAll z endings (categories ++ [top]) d preNexus 0 (z.members.map (·.name))).andThen d
      fun (dt, count) d1 =>
        if count < 2 then ⟨[], .error .valueError⟩
        else if !dt.valid then ⟨[], .error .valueError⟩
        else if !d1.isDir [top] || d1.isDir [top, infoName] then ⟨[], .error .osError⟩
        else
          let info := Content.json (infoFields name z.comment dt.iso written)
          Deed.andThen d1 ⟨[.create [top, infoName], .write [top, infoName] info], .ok ()⟩
            fun _ d2 => replaceOld removal d2 top name

/-- `punx/cache_manager.py:162-238`: `download_file_set`. -/
def downloadFileSet (net : Nat → Answer) (removal : Removal) (written : Str) (d : Disk) (name : Str)
    (replace : Bool) : Deed Unit :=
  if d.has [name] && !replace then ⟨[], .ok ()⟩
  else
    match (downloadArchive net).1 with
    | .error e => ⟨[], .error e⟩
    | .ok none => ⟨[], .ok ()⟩
    | .ok (some z) => unpack z removal written d name

/-! ## singletons -/

/-- `punx/singletons.py:18`: `_Singleton._instances`: the object of each class.  `make` stands for
the constructor: it gets the class, the arguments and the number of objects made so far. -/
structure Registry (κ α : Type) where
  instances : Dict κ α
  made : Nat

/-- `punx/singletons.py:20-23`: `_Singleton.__call__`. -/
def Registry.call {κ α β : Type} [DecidableEq κ] (make : κ → β → Nat → Except PyErr α)
    (r : Registry κ α) (cls : κ) (args : β) : Except PyErr α × Registry κ α :=
  match Dict.get? r.instances cls with
  | some o => (.ok o, r)
  | none =>
    match make cls args r.made with
    | .error e => (.error e, { r with made := r.made + 1 })
    | .ok o => (.ok o, ⟨Dict.set r.instances cls o, r.made + 1⟩)

end Punx

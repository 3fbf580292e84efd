import Verif.Model.Cache

/-!
# `punx/cache_manager.py`: installations that run at the same time

`Model/Cache.lean` says what `download_file_set` does when nothing else uses the disk.  Here the same
function is a process: every time it looks at the disk it sees what is there at that moment, and
every operation can fail because of what is there at that moment.  (`Props/Concurrent.lean` proves
that a process that is alone does exactly what `Model/Cache.lean` says.)
-/

namespace Punx

/-- What is left to do of a running program. -/
inductive Prog
  /-- the end: success or an exception -/
  | done (r : Except PyErr Unit)
  /-- look at the disk, go on depending on what is there -/
  | look (k : Disk → Prog)
  /-- one operation of the operating system, then go on; if the operation is impossible the program
  ends with an `OSError` -/
  | act (o : Op) (k : Prog)

/-- The cache directory itself, or a directory in it. -/
def Disk.dirAt (d : Disk) (p : FPath) : Bool := p.isEmpty || d.isDir p

/-- An operation on the disk as it is: what is on the disk afterwards, or `none` if it is
impossible.  Simplifications: what is written to an opened file that is no longer at its path is
lost (really it is where the file has been moved to); a directory can be removed even if another
process has put something into it; a directory cannot be renamed onto an empty directory. -/
def Op.attempt (d : Disk) : Op → Option Disk
  | .mkdir p => if d.dirAt p.dropLast && !d.has p then some ((Op.mkdir p).apply d) else none
  | .create p => if d.dirAt p.dropLast && !d.isDir p then some ((Op.create p).apply d) else none
  | .write p c =>
    match d p with
    | some (.file _) => some ((Op.write p c).apply d)
    | _ => some d
  | .remove p => some ((Op.remove p).apply d)
  | .rename p q => if d.has p && !d.has q then some ((Op.rename p q).apply d) else none

/-- One step of a process: what is on the disk afterwards, and what is left to do. -/
def Prog.step (d : Disk) : Prog → Option (Disk × Prog)
  | .done _ => none
  | .look k => some (d, k d)
  | .act o k =>
    match o.attempt d with
    | some d' => some (d', k)
    | none => some (d, .done (.error .osError))

/-- `os.makedirs`: make each directory that is missing, from the top. -/
def makeDirsProc (pre : FPath) (k : Prog) : FPath → Prog
  | [] => k
  | w :: ws => .look fun d =>
    if d.has (pre ++ [w]) then makeDirsProc (pre ++ [w]) k ws
    else .act (.mkdir (pre ++ [w])) (makeDirsProc (pre ++ [w]) k ws)

/-- `ZipFile.extract(item, cache_path)`, as `extractMember`. -/
def extractProc (m : ZipMember) (k : Prog) : Prog :=
  let p := extractPath m.name
  .look fun d =>
    if !dirsPossible d [] p.dropLast then .done (.error .osError)
    else
      makeDirsProc [] (.look fun d =>
        if endsWith m.name s%"/" then
          match d p with
          | none => .act (.mkdir p) k
          | some .dir => k
          | some (.file _) => .done (.error .osError)
        else if d.isDir p then .done (.error .osError)
        else .act (.create p) (.act (.write p (.raw m.text)) k)) p.dropLast

/-- `punx/cache_manager.py:205-212`, as `extractAll`. -/
def extractAllProc (z : Archive) (endings parents : List Str) (dt : Date) (count : Nat)
    (k : Date → Nat → Prog) : List Str → Prog
  | [] => k dt count
  | item :: items =>
    if isExtractable item endings parents then
      match z.getinfo item with
      | none => .done (.error .keyError)
      | some m =>
        extractProc m (extractAllProc z endings parents (Date.max m.date dt) (count + 1) k items)
    else extractAllProc z endings parents dt count k items

/-- `shutil.rmtree(…, ignore_errors=True)`: the removals, one after the other. -/
def removeProc (name : Str) (k : Prog) : Removal → Prog
  | [] => k
  | r :: rs => .act (.remove (name :: r)) (removeProc name k rs)

/-- `punx/cache_manager.py:237`: `shutil.move(download_path, NXDL_refs_dir_name)`. -/
def moveProc (top name : Str) : Prog := .look fun d =>
  match d [name] with
  | none => if d.has [top] then .act (.rename [top] [name]) (.done (.ok ())) else .done (.error .osError)
  | some .dir =>
    if d.has [name, top] || !d.has [top] then .done (.error .osError)
    else .act (.rename [top] [name, top]) (.done (.ok ()))
  | some (.file _) => .done (.error .osError)

/-- `punx/cache_manager.py:235-237`, as `replaceOld`. -/
def replaceProc (removal : Removal) (top name : Str) : Prog := .look fun d =>
  if d.isDir [name] then removeProc name (moveProc top name) removal else moveProc top name

/-- `punx/cache_manager.py:198-237`, as `unpack`. -/
def unpackProc (z : Archive) (removal : Removal) (written : Str) (name : Str) : Prog :=
  match z.members with
  | [] => .done (.error .indexError)
  | m :: _ =>
    let top := firstComp '/' m.name
    extractAllProc z endings (categories ++ [top]) preNexus 0 (fun dt count =>
      if count < 2 then .done (.error .valueError)
      else if !dt.valid then .done (.error .valueError)
      else .look fun d =>
        if !d.isDir [top] || d.isDir [top, infoName] then .done (.error .osError)
        else .act (.create [top, infoName])
          (.act (.write [top, infoName] (.json (infoFields name z.comment dt.iso written)))
            (replaceProc removal top name)))
      (z.members.map (·.name))

/-- `punx/cache_manager.py:162-238`: `download_file_set` as a process. -/
def installProc (net : Nat → Answer) (removal : Removal) (written : Str) (name : Str)
    (replace : Bool) : Prog := .look fun d =>
  if d.has [name] && !replace then .done (.ok ())
  else
    match (downloadArchive net).1 with
    | .error e => .done (.error e)
    | .ok none => .done (.ok ())
    | .ok (some z) => unpackProc z removal written name

/-! ## a listing meanwhile -/

/-- What is left to do of a running program that changes nothing. -/
inductive Look (α : Type)
  /-- the end: a result or an exception -/
  | done (r : Except PyErr α)
  /-- look at the disk, go on depending on what is there -/
  | look (k : Disk → Look α)

/-- The result of such a program if nothing else uses the disk. -/
def Look.run {α : Type} (d : Disk) : Look α → Except PyErr α
  | .done r => r
  | .look k => (k d).run d

/-- `punx/cache_manager.py:513-531`: `read_info_file`, as `readInfoFile`: it looks whether the file
is there, and then reads it. -/
def infoLook {α : Type} (path item : Str) (k : FileSet → Look α) : Look α := .look fun d =>
  if d.has [item, infoName] then .look fun d =>
    match readInfoFile path d item with
    | .error e => .done (.error e)
    | .ok s => k s
  else .done (.error .fileNotFound)

/-- `punx/cache_manager.py:411-426`: `Base_Cache.all_file_sets`, as `listSets`, after `os.listdir`
has given the names: each name is looked at twice before the info file is read. -/
def listLook (path : Str) : List Str → Dict Str FileSet → Look (Dict Str FileSet)
  | [], fs => .done (.ok fs)
  | item :: items, fs => .look fun d =>
    if d.isDir [item] then .look fun d =>
      if d.has [item, infoName] then
        infoLook path item fun s => listLook path items (Dict.set fs item s)
      else listLook path items fs
    else listLook path items fs

end Punx

import Verif.Model.Concurrent
import Verif.Model.Process

/-!
# `punx/nxdl_manager.py`: the definitions of a file set are read while sets are installed

`Model/Process.lean` takes the directory of a file set as it is (`SetDir`).  Here the same directory
is looked at step by step, and every look sees what is there at that moment; the result is the
`SetDir` from which `Model/Process.lean` goes on.
-/

namespace Punx

/-- Look once. -/
def Look.see {α : Type} (f : Disk → α) : Look α := .look fun d => .done (.ok (f d))

/-- One program after the other. -/
def Look.bind {α β : Type} : Look α → (α → Look β) → Look β
  | .done (.error e), _ => .done (.error e)
  | .done (.ok a), k => k a
  | .look j, k => .look fun d => (j d).bind k

/-- The text of a file, `none`: it is not there (or it is a directory, or the info file). -/
def Disk.text (d : Disk) (p : FPath) : Option Str :=
  match d p with
  | some (.file (.raw t)) => some t
  | _ => none

/-- `punx/nxdl_manager.py:148`: the names of the directories. -/
def Category.dirName : Category → Str
  | .baseClasses => s%"base_classes"
  | .applications => s%"applications"
  | .contributed => s%"contributed_definitions"

/-- `punx/nxdl_manager.py:150-155`: is there a directory?  If so, what is in it (`os.listdir`, sorted)?
`none`: no directory, at the first or at the second look. -/
def categoryLook (ls : Disk → FPath → List Str) (name : Str) (c : Category) :
    Look (Option (List Str)) := .look fun d =>
  if d.isDir [name, c.dirName] then
    .see fun d =>
      if d.isDir [name, c.dirName] then some (sortBy strLe (ls d [name, c.dirName])) else none
  else .done (.ok none)

/-- `punx/nxdl_manager.py:84-89`, `383-402`: read the files of a category, one after the other.
Simplification: files whose names do not end in `.nxdl.xml` are looked at as well (what is in them
is not used later); a file that is no longer there is like one that is not well formed (both end the
program with an exception). -/
def filesLook (xml : Str → Option Xml) (name : Str) (c : Category) : List Str → Look (List NxdlFile)
  | [] => .done (.ok [])
  | n :: ns =>
    (Look.see fun d => (d.text [name, c.dirName, n]).bind xml).bind fun x =>
      (filesLook xml name c ns).bind fun fs => .done (.ok (⟨n, x⟩ :: fs))

/-- As `filesLook`, if the directory was there. -/
def filesLook? (xml : Str → Option Xml) (name : Str) (c : Category) :
    Option (List Str) → Look (Option (List NxdlFile))
  | none => .done (.ok none)
  | some ns => (filesLook xml name c ns).bind fun fs => .done (.ok (some fs))

/-- `punx/nxdl_manager.py:75-89`, `124-158`: what `NXDL_Manager(file_set)` reads from the directory of
the file set `name`: is it there, `nxdl.xsd`, the names of the files in the three directories, then
`nxdlTypes.xsd` (when the first definition is checked, `punx/schema_manager.py:132-140`), then one
definition after the other.  `ls` is `os.listdir`; `xsd` and `xml` say what lxml makes of a text.
Simplifications: `nxdl.xsd` is read once (really a second time together with `nxdlTypes.xsd`); the
program goes on after something is missing, where the real one ends with an exception. -/
def readSetDir (ls : Disk → FPath → List Str) (xsd : Str → XsNode) (xml : Str → Option Xml)
    (name : Str) : Look SetDir :=
  (Look.see fun d => d.has [name]).bind fun here =>
  (Look.see fun d => (d.text [name, s%"nxdl.xsd"]).map xsd).bind fun x =>
  (categoryLook ls name .baseClasses).bind fun nb =>
  (categoryLook ls name .applications).bind fun na =>
  (categoryLook ls name .contributed).bind fun nc =>
  (Look.see fun d => (d.text [name, s%"nxdlTypes.xsd"]).map xsd).bind fun t =>
  (filesLook? xml name .baseClasses nb).bind fun fb =>
  (filesLook? xml name .applications na).bind fun fa =>
  (filesLook? xml name .contributed nc).bind fun fc =>
  .done (.ok ⟨here, x, t, fun
    | .baseClasses => fb
    | .applications => fa
    | .contributed => fc⟩)

/-- `punx/cache_manager.py:411-426`, `299-325`, then `readSetDir`: the sets of the cache are listed
(`names` is what `os.listdir` has given), one is selected, and it is read.  The result is the name of
the set and what was read.  Simplification: one cache only. -/
def useSet (ls : Disk → FPath → List Str) (xsd : Str → XsNode) (xml : Str → Option Xml)
    (path : Str) (names : List Str) (ref : Option Str) : Look (Str × SetDir) :=
  (listLook path names []).bind fun sets =>
    match chooseSet sets ref with
    | .error e => .done (.error e)
    | .ok k => (readSetDir ls xsd xml k).bind fun sd => .done (.ok (k, sd))

end Punx

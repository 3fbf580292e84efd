import Verif.Model.Process
import Verif.Spec.SchemaManager
import Verif.Spec.NxdlParse
import Verif.Spec.Cache

/-!
# Vocabulary for the objects of a process
-/

namespace Punx.Spec
open Punx

/-- Something that a process does with file sets.  `list`: `CacheManager().all_file_sets` and
`table_of_caches()`; `select`: `CacheManager().select_NXDL_file_set(ref)`; `manager`:
`NXDL_Manager(arg)` or `Data_File_Validator(arg)`; `schema`: `file_set.schema_manager`. -/
inductive Doing
  | list (w : Disks)
  | select (w : Disks) (ref : Option Str)
  | manager (w : Disks) (arg : SetArg)
  | schema (w : Disks) (i : Nat)

/-- The disk at that time. -/
def Doing.disks : Doing → Disks
  | .list w => w
  | .select w _ => w
  | .manager w _ => w
  | .schema w _ => w

/-- Do it. -/
def perform (lib : Lib) : Doing → Mut Proc Unit
  | .list w => do
    cacheManager w
    readSets w
  | .select w r => do
    cacheManager w
    selectSet r
  | .manager w a => do
    let _ ← nxdlManager lib w a
    pure ()
  | .schema w i => do
    let _ ← setSchema lib w i
    pure ()

/-- The process after it has done one thing after the other; exceptions are caught. -/
def afterAll (lib : Lib) : List Doing → Proc → Proc
  | [], p => p
  | x :: xs, p => afterAll lib xs (perform lib x p).2

/-- What is known of each object stays: objects are never lost, keep their descriptions and the
schema they have once read. -/
structure Grows (p p' : Proc) : Prop where
  made : p.made = true → p'.made = true
  objs : ∀ (i : Nat) (o : SetObj), p.objs[i]? = some o → ∃ o', p'.objs[i]? = some o' ∧ o'.info = o.info ∧
    ∀ s, o.schema = some s → o'.schema = some s

/-- The schemas that were read are those in the directories. -/
def UpToDate (dir : Str → SetDir) (p : Proc) : Prop :=
  ∀ (i : Nat) (o : SetObj), p.objs[i]? = some o → ∀ s, o.schema = some s →
    (dir o.info.path).xsd = some s.xsd ∧ (dir o.info.path).types = s.types

/-- The schema in the directory `d` accepts all definitions in it. -/
def AcceptsAll (lib : Lib) (d : SetDir) : Prop :=
  ∀ c fs f x, d.listing c = some fs → f ∈ fs → IsNxdl f → f.content = some x →
    ∃ xsd, d.xsd = some xsd ∧ lib.accepts xsd d.types x = true

/-- The directory has a definition. -/
def HasDefinitions (d : SetDir) : Prop := ∃ c fs f, d.listing c = some fs ∧ f ∈ fs ∧ IsNxdl f

/-- What the own schema of a directory accepts. -/
def acceptedBy (lib : Lib) (d : SetDir) (x : Xml) : Bool :=
  match d.xsd with
  | some xsd => lib.accepts xsd d.types x
  | none => false

/-- The schema manager of a directory, in a process that has made no other one. -/
def OwnManager (lib : Lib) (d : SetDir) (own : OwnSchema) : Prop :=
  ∃ sh, newManager lib.fuel lib.int lib.compiles d.xsd d.types {} = (.ok own, sh)

/-- What is to be read from the directory of a file set: the classes, and the defaults after that.
Nothing else plays a role. -/
def ReadsTo (lib : Lib) (d : SetDir) (classes : Dict Str ClassDef) (defaults : Option Defaults) :
    Prop :=
  d.here = true ∧ (HasDefinitions d → ∃ own, OwnManager lib d own) ∧
    ∃ s, readDefaults lib d = .ok s ∧
      loadClasses (acceptedBy lib d) ⟨true, s, d.listing⟩ = .ok (classes, defaults)

/-- The patterns with a name in a schema, compiled. -/
def patternsOf (pattern : Str → Pat) (own : OwnSchema) (k : Str) : Option (List Pat) :=
  (Dict.get? own.patterns k).map fun q => q.reList.map pattern

/-- What a validation should work with if it is asked for the set in the directory `d`: the classes that
are defined there, and the patterns of the schema there. -/
structure OwnDefinitions (lib : Lib) (pattern : Str → Pat) (d : SetDir) (mgr : Manager) : Prop where
  classes : ∃ ds, ReadsTo lib d mgr.classes (some ds) ∧
    (mgr.fieldMinOccursIsOne = none ↔ ds.fieldMinOccurs = none) ∧
    (mgr.fieldMinOccursIsOne = some true ↔ ∃ v, ds.fieldMinOccurs = some v ∧ IsOne v)
  patterns : ∃ own, OwnManager lib d own ∧ mgr.itemPats = patternsOf pattern own s%"validItemName" ∧
    mgr.classPats = patternsOf pattern own s%"validNXClassName"

/-- `arg` is no object: the set is given by its name, or not at all. -/
def ByName : SetArg → Prop
  | .object _ => False
  | _ => True

/-- No set is asked for by its name, and no set is selected. -/
def Doing.Unnamed : Doing → Prop
  | .select _ _ => False
  | .manager _ (.named _) => False
  | _ => True

end Punx.Spec

import Verif.Props.Process4
import Verif.Props.NxdlParse5
import Verif.Props.SchemaManager2

/-!
# Two file sets in one process: samples and witnesses
-/

namespace Punx
open Spec

/-- A cache with two sets, `v1` and the newer `v2`. -/
def twoDisk : Disk := fun p =>
  if p = [s%"v1"] ∨ p = [s%"v2"] then some .dir
  else if p = [s%"v1", infoName] then
    some (.file (.json [(s%"ref", s%"v1"), (s%"sha", s%"0a1b2c3"),
      (s%"last_modified", s%"2020-01-30 12:00:00")]))
  else if p = [s%"v2", infoName] then
    some (.file (.json [(s%"ref", s%"v2"), (s%"sha", s%"4d5e6f7"),
      (s%"last_modified", s%"2022-01-30 12:00:00")]))
  else none

/-- The two sets with these directories. -/
def twoDirs (v1 v2 : SetDir) : Disks where
  source := ⟨s%"/x/punx/cache", [s%"v1", s%"v2"], twoDisk⟩
  user := ⟨s%"/home/me/.config/punx", [], fun _ => none⟩
  dir p :=
    if p = s%"/x/punx/cache/v1" then v1
    else if p = s%"/x/punx/cache/v2" then v2
    else ⟨false, none, none, fun _ => none⟩

/-- The shipped `nxdl.xsd` and definitions. -/
def shippedDir (defs : List NxdlFile) : SetDir :=
  ⟨true, some (nxdlXsd 705), none, fun c => some (match c with
    | .baseClasses => defs
    | _ => [])⟩

/-- `v1` has the shipped `nxdl.xsd` and one definition, `v2` another schema and no definitions. -/
def twoSets : Disks :=
  twoDirs (shippedDir [⟨s%"NXdata.nxdl.xml", some optionalDoc⟩])
    ⟨true, some groupXsd, some nxTypesXsd, fun _ => some []⟩

/-- Both have the shipped `nxdl.xsd` and no definitions. -/
def bareSets : Disks := twoDirs (shippedDir []) (shippedDir [])

/-- Schemas with at most five declarations accept everything if `b`, the other ones if not `b`. -/
def pickyLib (b : Bool) : Lib :=
  ⟨20, xsdInt, fun _ _ => true, fun x _ _ => decide (x.kids.length ≤ 5) == b⟩

/-- The process has listed the sets. -/
def twoProc (b : Bool) : Proc := afterAll (pickyLib b) [.list twoSets] {}

/-- What is at a place. -/
def Proc.pathAt (p : Proc) (i : Nat) : Option Str := (p.objs[i]?).map fun o => o.info.path

/-- An error, if there is one. -/
def errorOf {α : Type} : Except PyErr α → Option PyErr
  | .error e => some e
  | .ok _ => none

example : (twoProc true).made = true ∧ (twoProc true).default = some 1 ∧
    (twoProc true).pathAt 1 = some s%"/x/punx/cache/v2" ∧
    (twoProc true).sets = [(s%"v1", 2), (s%"v2", 3)] := by decide +kernel

/-- C86 is false: a manager that is made for a set (and not for the name of it) checks the definitions
with the schema of another set, which is the default.  A definition is used that the schema of its
set does not accept, and one is refused that it accepts. -/
theorem foreign_schema :
    (twoProc true).pathAt 0 = some s%"/x/punx/cache/v1" ∧
    (¬ AcceptsAll (pickyLib true) (twoSets.dir s%"/x/punx/cache/v1") ∧
      errorOf (nxdlManager (pickyLib true) twoSets (.object 0) (twoProc true)).1 = none) ∧
    (AcceptsAll (pickyLib false) (twoSets.dir s%"/x/punx/cache/v1") ∧
      errorOf (nxdlManager (pickyLib false) twoSets (.object 0) (twoProc false)).1 =
        some .invalidNxdl) := by
  refine ⟨by decide +kernel, ⟨?_, by decide +kernel⟩, ?_, by decide +kernel⟩
  · intro h
    obtain ⟨x, h1, h2⟩ := h .baseClasses [⟨s%"NXdata.nxdl.xml", some optionalDoc⟩] _ optionalDoc rfl
      (List.mem_singleton.2 rfl) ⟨s%"NXdata", rfl⟩ rfl
    injection h1 with h1
    subst h1
    exact absurd h2 (by decide +kernel)
  · intro c fs f x h1 h2 h3 h4
    have hk : decide ((nxdlXsd 705).kids.length ≤ 5) = false := by decide +kernel
    exact ⟨nxdlXsd 705, rfl, by change (decide ((nxdlXsd 705).kids.length ≤ 5) == false) = true; rw [hk]; rfl⟩

/-- C87 is false: without a name the set that was named last is used, not the most recent one. -/
theorem default_drifts :
    ((nxdlManager (pickyLib true) bareSets .latest (twoProc true)).1.toOption.bind fun m =>
      (twoProc true).pathAt m.fileSet) = some s%"/x/punx/cache/v2" ∧
    ((nxdlManager (pickyLib true) bareSets .latest
        (afterAll (pickyLib true) [.manager bareSets (.named s%"v1")] (twoProc true))).1.toOption.bind
      fun m => (twoProc true).pathAt m.fileSet) = some s%"/x/punx/cache/v1" := by
  decide +kernel

/-- C87 is false: a name that no set has is not refused. -/
theorem unknown_accepted :
    s%"v9" ∉ Dict.keys (twoProc true).infos ∧
    ((nxdlManager (pickyLib true) bareSets (.named s%"v9") (twoProc true)).1.toOption.bind fun m =>
      (twoProc true).pathAt m.fileSet) = some s%"/x/punx/cache/v2" := by
  decide +kernel

end Punx

import Verif.Spec.Attributes
import Verif.Model.Finding

/-!
# Specification vocabulary for the group checks

What is expected to be reported about a group, written as one list of lines (address, test,
verdict), without the code of the model.  `h5contains` is the description of h5py's `in`.
-/

namespace Punx.Spec

/-- Address, test and verdict of a finding. -/
abbrev Line := Option Str × Str × Status

/-- The line of a finding. -/
def lineOf (x : Finding) : Line := (x.addr, x.test, x.status)

open Classical in
/-- OK if `P`, otherwise `no`. -/
noncomputable def okIf (P : Prop) (no : Status) : Status := if P then .ok else no

/-- The class a group is checked against: NXroot at the root, else its NX_class. -/
def GroupClass (env : Env) (cp : Str) (attrs : List (Str × Val)) (c : Str) : Prop :=
  (cp = [] ∧ c = s%"NXroot") ∨ (cp ≠ [] ∧ nxClassOf env attrs = some c)

/-- The value is text naming something that is in the group. -/
def NamesMember (env : Env) (f : H5File) (g : Node) (v : Val) : Prop :=
  ∃ s, TextOf env v s ∧ h5contains f g s = true

/-- The value is one of the enumerated texts. -/
def Enumerated (env : Env) (enums : List Str) (v : Val) : Prop :=
  ∃ s, TextOf env v s ∧ s ∈ enums

/-- Class paths of groups whose `default` attribute is looked up. -/
def DefaultMatters (cp : Str) : Prop :=
  cp = [] ∨ cp = s%"/NXentry" ∨ cp = s%"/NXentry/NXsubentry"

/-- Does the value of attribute `k` of a group with class path `cp` name a member? -/
def PointsInside (cp k : Str) : Prop :=
  k = s%"signal" ∨ (k = s%"default" ∧ DefaultMatters cp)

open Classical in
/-- Lines for one attribute of a group at `a`, whose class is `d`. -/
noncomputable def attrLines (env : Env) (f : H5File) (g : Node) (a cp : Str) (d : ClassDef)
    (ka : Str × Val) : List Line :=
  let ad := some (a ++ '@' :: ka.1)
  (ad, s%"known attribute", .ok) ::
  match Dict.get? d.attrs ka.1 with
  | none => []
  | some spec =>
    (if spec.enums = [] then []
     else [(ad, s%"attribute value enumeration", okIf (Enumerated env spec.enums ka.2) .error)]) ++
    (if ka.1 = s%"axes" then []
     else if PointsInside cp ka.1 then
      [(ad, s%"value of @" ++ ka.1, okIf (NamesMember env f g ka.2) .error)]
     else [(ad, s%"value of @" ++ ka.1, .todo)])

/-- The line for one member of a group, recorded at the address of the member. -/
def memberLine : Node → Line
  | .dataset n _ _ => (some n, s%"field in base class", .ok)
  | .group n _ _ => (some n, s%"group in base class", .ok)
  | .datatype n _ => (some n, s%"unhandled: group_items_in_base_class", .todo)

/-- The objects linked in a group. -/
def members : Node → List Node
  | .group _ _ ks => ks.toList.filterMap (·.2)
  | _ => []

/-- Names in alphabetical order. -/
def sortNames (l : List Str) : List Str := sortBy strLe l

/-- Lines for the names that the class defines: present or optional. -/
noncomputable def definedLines (f : H5File) (g : Node) (a : Str) (test : Str)
    (names : List Str) : List Line :=
  (sortNames names).map (fun n => (some a, test, okIf (h5contains f g n = true) .optional))

/-- All lines for a NeXus group `g` at `a` with class path `cp` and class `c`. -/
noncomputable def groupLines (env : Env) (f : H5File) (classes : Dict Str ClassDef) (g : Node)
    (a cp c : Str) : List Line :=
  match Dict.get? classes c with
  | none => [(some a, s%"known NXDL", .error), (some a, s%"NeXus base class", .error)]
  | some d =>
    [(some a, s%"known NXDL", .ok),
     (some a, s%"NeXus base class", okIf (d.category ≠ .applications) .error)] ++
    (sortByName g.attrs).flatMap (attrLines env f g a cp d) ++
    (members g).map memberLine ++
    definedLines f g a s%"NXDL field in data file" (d.fields.map (·.1)) ++
    definedLines f g a s%"NXDL group in data file" (d.groups.map (·.1)) ++
    [(some a, s%"NeXus base class", .todo)]

end Punx.Spec

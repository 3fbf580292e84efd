import Verif.Spec.Names
import Verif.Spec.Groups
import Verif.Model.Validator

/-!
# Specification vocabulary for the default plot

Written over the items of the catalogue; what the catalogue holds is the subject of C06-C10.
-/

namespace Punx.Spec

/-- The items with class path `k`, in order of the catalogue. -/
def withClasspath (items : List Item) (k : Str) : List Item :=
  items.filter (fun i => i.classpath = k)

/-- The items of the catalogue, class path by class path in order of first appearance. -/
def byClasspath (items : List Item) : List Item :=
  (items.map (·.classpath)).eraseDups.flatMap (withClasspath items)

/-- The object (or attribute) at an address; the last one if there are several. -/
def itemAt (items : List Item) (a : Str) : Option Item :=
  (items.filter (fun i => i.addr = some a)).getLast?

/-! ## signal = 1 -/

/-- The value reads as 1. -/
def ReadsOne (env : Env) : Val → Prop
  | .str s => s = s%"1"
  | .int n => n = 1
  | .num r => r = s%"1"
  | v => env.str v = s%"1"

/-- The attribute `signal` of a dataset. -/
def FieldSignal (it : Item) : Prop :=
  s%"@signal" <:+ it.classpath ∧ ∃ d, it.parent = some d ∧ ∃ n a v, d.obj = .node (.dataset n a v)

/-- The attribute `signal` of a dataset, with value 1. -/
def Mark (env : Env) (it : Item) : Prop := FieldSignal it ∧ ∃ v, it.obj = .val v ∧ ReadsOne env v

/-- Address of the group of the dataset of an attribute. -/
def groupOf (it : Item) : Option Str := (it.parent.bind Item.parent).bind (·.addr)

open Classical in
/-- All marks, in the order of the class path table. -/
noncomputable def marks (env : Env) (items : List Item) : List Item :=
  (byClasspath items).filter (fun i => Mark env i)

/-- Groups with marked datasets, in order of first appearance. -/
noncomputable def markedGroups (env : Env) (items : List Item) : List (Option Str) :=
  ((marks env items).map groupOf).eraseDups

/-- The marks in one group. -/
noncomputable def marksIn (env : Env) (items : List Item) (g : Option Str) : List Item :=
  (marks env items).filter (fun i => groupOf i = g)

/-- `a` is the address of the dataset with the only mark in its group, and this is the last
such group. -/
def SignalPlot (env : Env) (items : List Item) (a : Str) : Prop :=
  ∃ before g after it d, markedGroups env items = before ++ g :: after ∧
    marksIn env items g = [it] ∧ it.parent = some d ∧ d.addr = some a ∧
    ∀ g' ∈ after, (marksIn env items g').length ≠ 1

open Classical in
/-- What is reported about one attribute. -/
noncomputable def signalLines (env : Env) (it : Item) : List Line :=
  if Mark env it then [(it.addr, s%"NeXus default plot v2, @signal=1", .ok)]
  else if FieldSignal it then [(it.addr, s%"NeXus default plot v2, @signal!=1", .warn)]
  else []

/-- What is reported about the marks in one group. -/
noncomputable def groupLine (env : Env) (items : List Item) (g : Option Str) : Line :=
  match marksIn env items g with
  | [it] => (it.addr, s%"NeXus default plot v2", .ok)
  | _ => (g, s%"NeXus default plot v2, multiple @signal=1", .error)

/-! ## default and signal attributes -/

/-- The path `s` seen from the object named `n`. -/
def pathFrom (n s : Str) : Str := if s%"/" <:+ n then n ++ s else n ++ '/' :: s

/-- Attribute `k` of the object names (relative to the object) the path `t`. -/
def Names (env : Env) (i : Item) (k t : Str) : Prop :=
  ∃ n attrs v s, i.obj.name? = some n ∧ i.obj.attrs? = some attrs ∧
    attrs.lookup k = some v ∧ TextOf env v s ∧ t = pathFrom n s

/-- Attribute `k` of the group names the path `t`, and `t` exists. -/
def PointsAt (env : Env) (f : H5File) (i : Item) (k t : Str) : Prop :=
  Names env i k t ∧ ∃ g, i.obj.asGroup = some g ∧ h5contains f g t = true

/-- The attribute `it` belongs to the group `D` in the group `E` in the root `R`. -/
def InGroups (items : List Item) (it D E R : Item) : Prop :=
  ∃ r e d rest, it.addr = some (r ++ '/' :: e ++ '/' :: d ++ rest) ∧
    ('/' ∉ r ∧ '/' ∉ e ∧ '/' ∉ d) ∧ ('@' ∉ r ∧ '@' ∉ e ∧ '@' ∉ d) ∧
    (rest = [] ∨ ∃ x, rest = '@' :: x) ∧
    itemAt items ('/' :: e ++ '/' :: d) = some D ∧
    itemAt items ('/' :: e) = some E ∧ itemAt items s%"/" = some R

/-- The signal of the group does not exist. -/
def SignalMissing (env : Env) (f : H5File) (items : List Item) (it : Item) : Prop :=
  ∃ D E R t, InGroups items it D E R ∧ Names env D s%"signal" t ∧ ¬ PointsAt env f D s%"signal" t

/-- The signal of the group exists and is the dataset at `t`. -/
def PlotField (env : Env) (f : H5File) (items : List Item) (it : Item) (t : Str) : Prop :=
  ∃ D E R T n a v, InGroups items it D E R ∧ PointsAt env f D s%"signal" t ∧
    itemAt items t = some T ∧ T.obj = .node (.dataset n a v)

/-- The `default` attributes lead from the root to the group of the attribute `it`. -/
def DefaultPath (env : Env) (f : H5File) (items : List Item) (it : Item) : Prop :=
  ∃ D E R e d, InGroups items it D E R ∧ E.addr = some e ∧ D.addr = some d ∧
    PointsAt env f R s%"default" e ∧ PointsAt env f E s%"default" d

/-- The `default` attributes lead to the group, and its signal to a dataset. -/
def Niac (env : Env) (f : H5File) (items : List Item) (it : Item) : Prop :=
  DefaultPath env f items it ∧ ∃ t, PlotField env f items it t

/-- The attributes `signal` of NXdata groups in NXentry groups. -/
def dataSignals (items : List Item) : List Item := withClasspath items s%"/NXentry/NXdata@signal"

open Classical in
/-- The complete default paths. -/
noncomputable def niacPaths (env : Env) (f : H5File) (items : List Item) : List Item :=
  (dataSignals items).filter (fun i => Niac env f items i)

/-- `a` is what the attribute method finds: nothing if some signal is missing; the attribute
with the only complete default path; without such, the last plottable field. -/
def AttributePlot (env : Env) (f : H5File) (items : List Item) (a : Str) : Prop :=
  (∀ it ∈ dataSignals items, ¬ SignalMissing env f items it) ∧
  ((∃ it, niacPaths env f items = [it] ∧ it.addr = some a) ∨
   ((niacPaths env f items).length ≠ 1 ∧
    ∃ before it after, dataSignals items = before ++ it :: after ∧ PlotField env f items it a ∧
      ∀ i ∈ after, ¬ ∃ t, PlotField env f items i t))

open Classical in
/-- What is reported about the attributes `signal` of NXdata groups, up to the first one whose
signal is missing. -/
noncomputable def dataLines (env : Env) (f : H5File) (items : List Item) : List Item → List Line
  | [] => []
  | it :: rest =>
    if SignalMissing env f items it then
      [(it.addr, s%"NeXus default plot v3, NXdata@signal", .error)]
    else if ∃ t, PlotField env f items it t then
      (it.addr, s%"NeXus default plot v3, NXdata@signal", .ok) :: dataLines env f items rest
    else dataLines env f items rest

open Classical in
/-- What is reported about the default path, if it is the only complete one. -/
noncomputable def niacLines (env : Env) (f : H5File) (items : List Item) : List Line :=
  if ∃ it ∈ dataSignals items, SignalMissing env f items it then []
  else match niacPaths env f items with
    | [it] => [(it.addr, s%"NeXus default plot v3 NIAC2014", .ok)]
    | _ => []

/-! ## is a default plot required? -/

/-- `minOccurs` of a group in a definition. -/
def MinOccursIs (env : Env) (spec : GroupSpec) (n : Int) : Prop :=
  (Dict.get? spec.attrs s%"minOccurs" = none ∧ n = 0) ∨
  ∃ s, Dict.get? spec.attrs s%"minOccurs" = some (.raw s) ∧ env.int s = some n

/-- One of the groups has this class. -/
def HasClass (env : Env) (groups : List Item) (c : Str) : Prop :=
  ∃ it ∈ groups, ∃ g, it.obj.asGroup = some g ∧ it.classpath ≠ s%"non-NeXus content" ∧
    GroupClass env it.classpath g.attrs c

/-- The definitions require a default plot: if the file has an NXentry group, the definition
of its group `data` says so; otherwise unless an earlier validation (values `mins`) found out
that it is not required. -/
def PlotRequired (env : Env) (classes : Dict Str ClassDef) (mins : Dict (Str × Str) Int)
    (groups : List Item) : Prop :=
  ∃ d spec, Dict.get? classes s%"NXentry" = some d ∧ Dict.get? d.groups s%"data" = some spec ∧
    ((HasClass env groups s%"NXentry" ∧ ∃ n, MinOccursIs env spec n ∧ 0 < n) ∨
     (¬ HasClass env groups s%"NXentry" ∧
      ∀ n, Dict.get? mins (s%"NXentry", s%"data") = some n → 0 < n))

/-- The verdict on the default plot: status and comment. -/
inductive PlotVerdict (env : Env) (classes : Dict Str ClassDef) (mins : Dict (Str × Str) Int)
    (f : H5File) (items groups : List Item) : Status → Str → Prop
  | byAttribute (a : Str) : AttributePlot env f items a →
      PlotVerdict env classes mins f items groups .ok (s%"found by v3: " ++ a)
  | bySignal (a : Str) : (¬ ∃ b, AttributePlot env f items b) → SignalPlot env items a →
      PlotVerdict env classes mins f items groups .ok (s%"found by v2: " ++ a)
  | required : (¬ ∃ b, AttributePlot env f items b) → (¬ ∃ b, SignalPlot env items b) →
      PlotRequired env classes mins groups →
      PlotVerdict env classes mins f items groups .error s%"no default plot described"
  | optional : (¬ ∃ b, AttributePlot env f items b) → (¬ ∃ b, SignalPlot env items b) →
      ¬ PlotRequired env classes mins groups →
      PlotVerdict env classes mins f items groups .note s%"no default plot described"

open Classical in
/-- All lines of the search for a default plot. -/
noncomputable def searchLines (env : Env) (f : H5File) (items : List Item) : List Line :=
  dataLines env f items (dataSignals items) ++ niacLines env f items ++
  if ∃ a, AttributePlot env f items a then []
  else (byClasspath items).flatMap (signalLines env) ++
    (markedGroups env items).map (groupLine env items)

end Punx.Spec

import Verif.Model.AppDef

/-!
# `punx/validations/default_plot.py`
-/

namespace Punx

/-- `validator.addresses[key]` -/
def addressAt (ctx : Ctx) (key : Str) : Except PyErr Item :=
  match Dict.get? ctx.addresses (some key) with
  | some it => .ok it
  | none => .error .keyError

/-- `punx/validations/default_plot.py:63-73`: `build_h5_address`. -/
def buildH5Address (env : Env) (it : Item) (pointer : Val) : Except PyErr Str := do
  let base ← match it.obj with
    | .val (.str _) =>
      match ((it.parent).getD it).obj.name? with
      | some n => .ok n
      | none => .error PyErr.attributeError
    | o => match o.name? with
      | some n => .ok n
      | none => .error PyErr.attributeError
  match ← decodeByteString env pointer with
  | .str p => .ok (withSlash base ++ p)
  | _ => .error .typeError

/-- `punx/validations/default_plot.py:75-83`: `attribute_points_at_target`.
Simplification: the `in` test on an object that is not a group is an error. -/
def attrPointsAt (ctx : Ctx) (it : Item) (attr : Str) (target : Option Str) :
    Except PyErr Bool :=
  match it.obj.attrs? with
  | none => .error .attributeError
  | some attrs =>
    match attrGet attrs attr with
    | none => .ok false
    | some ptr => do
      let addr ← buildH5Address ctx.env it ptr
      let found ← objContains ctx it.obj (.str addr)
      if found then .ok (target = some addr) else .ok false

/-- What one turn of the loop `punx/validations/default_plot.py:91-114` finds out. -/
structure V3Step where
  /-- `signal_h5_addr` -/
  signalAddr : Str
  t1 : Bool
  t2 : Bool
  t3 : Bool
  /-- only evaluated if `t3` -/
  t4 : Bool

/-- `_root, entry, data = v_item.h5_address.split("@")[0].split("/")`,
`punx/validations/default_plot.py:93`. -/
def entryAndData (it : Item) : Except PyErr (Str × Str) :=
  match it.addr with
  | none => .error .attributeError
  | some a =>
    match split '/' (firstComp '@' a) with
    | [_, e, d] => .ok (e, d)
    | _ => .error .valueError

/-- `punx/validations/default_plot.py:92-106`: the tests for one NXdata group. -/
def v3Step (ctx : Ctx) (it : Item) : Except PyErr V3Step := do
  let (entry, data) ← entryAndData it
  let nxdata ← addressAt ctx (s%"/" ++ entry ++ s%"/" ++ data)
  let nxentry ← addressAt ctx (s%"/" ++ entry)
  let nxroot ← addressAt ctx s%"/"
  let attrs ← match nxdata.obj.attrs? with
    | some a => .ok a
    | none => .error PyErr.attributeError
  let sig ← match attrGet attrs s%"signal" with
    | some v => .ok v
    | none => .error PyErr.keyError
  let signalAddr ← buildH5Address ctx.env nxdata sig
  let t1 ← attrPointsAt ctx nxroot s%"default" nxentry.addr
  let t2 ← attrPointsAt ctx nxentry s%"default" nxdata.addr
  let t3 ← attrPointsAt ctx nxdata s%"signal" (some signalAddr)
  if t3 then do
    let tgt ← addressAt ctx signalAddr
    .ok ⟨signalAddr, t1, t2, true, isHdf5Dataset tgt.obj⟩
  else .ok ⟨signalAddr, t1, t2, false, false⟩

/-- Loop `punx/validations/default_plot.py:91-114`: `h5_address` so far, the list
`niac2014_path` so far.  `none`: the function has returned `None`. -/
def v3Loop (ctx : Ctx) (h5 : Option Str) (niac : List Item) :
    List Item → W Eff (Option (Option Str × List Item))
  | [] => pure (some (h5, niac))
  | it :: rest => do
    let s ← W.lift (v3Step ctx it)
    if s.t3 = false then do
      record it s%"NeXus default plot v3, NXdata@signal" .error
        s%"field described by @signal does not exist"
      pure none
    else if s.t4 then do
      record it s%"NeXus default plot v3, NXdata@signal" .ok
        s%"correct default plot setup in /NXentry/NXdata"
      v3Loop ctx (some s.signalAddr) (if s.t1 ∧ s.t2 then niac ++ [it] else niac) rest
    else v3Loop ctx h5 niac rest

/-- `punx/validations/default_plot.py:54-124`: `default_plot_v3`. -/
def defaultPlotV3 (ctx : Ctx) : W Eff (Option Str) := do
  let shortList := (Dict.get? ctx.classpaths s%"/NXentry/NXdata@signal").getD []
  match ← v3Loop ctx none [] shortList with
  | none => pure none
  | some (h5, niac) =>
    match niac with
    | [it] => do
      record it s%"NeXus default plot v3 NIAC2014" .ok
        s%"default plot setup in /NXentry/NXdata"
      pure it.addr
    | _ => pure h5

/-- Entries of `review_dict`: group address and the items with `@signal=1`. -/
abbrev Review := Dict (Option Str) (List Item)

/-- `punx/validations/default_plot.py:137-158` for one item; returns the new
`review_dict`. -/
def v2Item (ctx : Ctx) (rev : Review) (it : Item) : W Eff Review :=
  match it.parent with
  | none => W.fail .attributeError
  | some par =>
    if isHdf5Dataset par.obj then
      match it.obj, it.addr with
      | .val v, some a =>
        let signal := pyStr ctx.env v
        if signal = s%"1" then do
          record it s%"NeXus default plot v2, @signal=1" .ok
            (s%"found field with @signal=1: " ++ a)
          match par.parent with
          | none => W.fail .attributeError
          | some g =>
            pure (Dict.set rev g.addr ((Dict.get? rev g.addr).getD [] ++ [it]))
        else do
          record it s%"NeXus default plot v2, @signal!=1" .warn
            (s%"found field with @signal!=1: " ++ a ++ s%"=" ++ signal)
          pure rev
      | _, _ => W.fail .typeError
    else pure rev

/-- Loop over the items of one class path. -/
def v2Items (ctx : Ctx) (rev : Review) : List Item → W Eff Review
  | [] => pure rev
  | it :: rest => do
    let rev ← v2Item ctx rev it
    v2Items ctx rev rest

/-- Loop `punx/validations/default_plot.py:135-158` over all class paths. -/
def v2Scan (ctx : Ctx) (rev : Review) : Dict Str (List Item) → W Eff Review
  | [] => pure rev
  | (k, items) :: rest =>
    if endsWith k s%"@signal" then do
      let rev ← v2Items ctx rev items
      v2Scan ctx rev rest
    else v2Scan ctx rev rest

/-- Loop `punx/validations/default_plot.py:161-175`; `addr` is the result so far. -/
def v2Pick (addr : Option Str) : Review → W Eff (Option Str)
  | [] => pure addr
  | (grp, items) :: rest =>
    match items with
    | [] => v2Pick addr rest
    | [it] =>
      match it.parent, it.addr with
      | some par, some a => do
        record it s%"NeXus default plot v2" .ok (s%"found plottable data: " ++ a)
        v2Pick par.addr rest
      | _, _ => W.fail .typeError
    | it :: _ :: _ =>
      match it.parent.bind Item.parent, grp with
      | some g, some gname => do
        record g s%"NeXus default plot v2, multiple @signal=1" .error
          (s%"multiple fields found with @signal=1 in: " ++ gname)
        v2Pick addr rest
      | _, _ => W.fail .typeError

/-- `punx/validations/default_plot.py:127-176`: `default_plot_v2`. -/
def defaultPlotV2 (ctx : Ctx) : W Eff (Option Str) := do
  let rev ← v2Scan ctx [] ctx.classpaths
  v2Pick none rev

/-- `punx/validations/default_plot.py:31-36`: the methods in order; `default_plot_v1`
(`:179-185`) always returns `None`. -/
def findDefaultPlot (ctx : Ctx) : W Eff (Option (Str × Str)) := do
  match ← defaultPlotV3 ctx with
  | some a => pure (some (s%"v3", a))
  | none =>
    match ← defaultPlotV2 ctx with
    | some a => pure (some (s%"v2", a))
    | none => pure none

/-- `punx/validations/default_plot.py:37-49`: is a default plot required?  `mins` are
the `minOccurs` values stored in group objects by earlier checks. -/
def defaultPlotRequired (mgr : Manager) (mins : Dict (Str × Str) Int) : Except PyErr Bool :=
  match Dict.get? mgr.classes s%"NXentry" with
  | none => .error .keyError
  | some d =>
    match Dict.get? d.groups s%"data" with
    | none => .error .keyError
    | some _ => .ok (((Dict.get? mins (s%"NXentry", s%"data")).getD 1) > 0)

/-- `punx/validations/default_plot.py:20-51`: `verify`. -/
def defaultPlotVerify (ctx : Ctx) (mins : Dict (Str × Str) Int) : W Eff Unit := do
  let obj ← W.lift (addressAt ctx s%"/")
  match ← findDefaultPlot ctx with
  | some (k, addr) =>
    record obj s%"NeXus default plot" .ok (s%"found by " ++ k ++ s%": " ++ addr)
  | none => do
    let required ← W.lift (defaultPlotRequired ctx.mgr mins)
    record obj s%"NeXus default plot" (if required then .error else .note)
      s%"no default plot described"

end Punx

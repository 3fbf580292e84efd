import Verif.Model.ItemName

/-!
# `punx/validations/attribute.py`
-/

namespace Punx

/-- `TEST_NAME`, `punx/validations/attribute.py:16`. -/
def tAttributeValue : Str := s%"attribute value"

/-- `punx/validations/attribute.py:32-55`: `isBaseClassNXDL`. -/
def isBaseClassNXDL (d : ClassDef) : Bool :=
  match d.category with
  | .baseClasses => true
  | .applications => false
  | .contributed =>
    match Dict.get? d.groups s%"entry" with
    | none => true
    | some e => (Dict.get? e.fields s%"definition").isNone

/-- `punx/validations/attribute.py:201-205`: `generic_handler` (also `units_handler`). -/
def genericHandler (it : Item) : W Eff Unit :=
  record it tAttributeValue .todo s%"implement"

/-- Status of a name from the matching pattern key
(`punx/validations/attribute.py:70-77, 135-142`). -/
def nameVerdict : Option Str → Status × Str
  | none => (.error, s%"not a valid NeXus name")
  | some k => if startsWith k s%"strict" then (.ok, k) else (.note, k)

/-- `parent.h5_object.get(name) is not None`: only groups and files have `get`. -/
def objGet (ctx : Ctx) (obj : H5Obj) (p : Str) : Except PyErr (Option Node) :=
  match obj.asGroup with
  | some g => h5get ctx.file g p
  | none => .error .attributeError

/-- One turn of the loop `punx/validations/attribute.py:66-89`. -/
def axisCheck (ctx : Ctx) (it : Item) (par : H5Obj) (axis : Val) : W Eff Unit := do
  let k ← W.lift (matchKeyVal ctx axis)
  match axis with
  | .str a =>
    let (st, c) := nameVerdict k
    record it (s%"valid name @axes['" ++ a ++ s%"']") st c
    let o ← W.lift (objGet ctx par a)
    if o.isSome then
      record it (s%"axes['" ++ a ++ s%"'] exists") .ok s%"found field for named axis"
    else
      record it (s%"axes['" ++ a ++ s%"'] exists") .error s%"did not find field for named axis"
  | _ => W.fail .typeError          -- not reached: `matchKeyVal` has raised

/-- The axes as a list (`punx/validations/attribute.py:62-64`): elements of an array
of numbers are numbers. -/
def axesList (v : Val) : List Val :=
  match v with
  | .list xs => xs.map .str
  | .arrNum rs => rs.map .num
  | v => [v]

/-- `punx/validations/attribute.py:58-92`: `axes_handler`. -/
def axesHandler (ctx : Ctx) (it : Item) (par : Item) : W Eff Unit :=
  match it.obj with
  | .val v => do
    let d ← W.lift (decodeByteString ctx.env v)
    W.forEach (axesList d) (axisCheck ctx it par.obj)
    record it tAttributeValue .todo s%"implement"
  | _ => W.fail .typeError

/-- `punx/validations/attribute.py:95-109`: `nxclass_handler`.  A value which is not
text is unhashable (list, array) or cannot be concatenated: `TypeError`. -/
def nxclassHandler (ctx : Ctx) (it : Item) : W Eff Unit :=
  match it.obj with
  | .val v => do
    match ← W.lift (decodeByteString ctx.env v) with
    | .str c =>
      match Dict.get? ctx.mgr.classes c with
      | none => record it tAttributeValue .error (s%"not a recognized NXDL class: " ++ c)
      | some d =>
        if isBaseClassNXDL d then
          record it tAttributeValue .ok (s%"recognized NXDL base class: " ++ c)
        else
          record it tAttributeValue .error (s%"incorrect use of @NX_class attribute: " ++ c)
    | _ => W.fail .typeError
  | _ => W.fail .typeError

/-- `int(signal)` for a value whose `str()` consists of digits. -/
def pyInt (env : Env) : Val → Except PyErr Int
  | .int n => .ok n
  | .str s | .num s => match env.int s with
    | some n => .ok n
    | none => .error .valueError
  | _ => .error .typeError

/-- `punx/validations/attribute.py:112-151`: `signal_handler`. -/
def signalHandler (ctx : Ctx) (it : Item) (par : Item) : W Eff Unit :=
  match it.obj with
  | .val v => do
    let signal ← W.lift (decodeByteString ctx.env v)
    if isHdf5Dataset par.obj then
      let one ← W.lift (if ctx.env.isdigit (pyStr ctx.env signal) then do
          let n ← pyInt ctx.env signal
          .ok (n == 1)
        else .ok false)
      if one then record it tAttributeValue .ok s%"found plottable data marker"
      else record it tAttributeValue .note (s%"@signal=" ++ pyStr ctx.env signal)
    else
      match par.obj with
      | .node (.group n a k) =>
        match signal with
        | .str s =>
          let (st, c) := nameVerdict (matchKey ctx s)
          record it (s%"valid name @signal=" ++ s) st c
          if h5contains ctx.file (.group n a k) s then
            record it tAttributeValue .ok (s%"found: @signal=" ++ s)
          else
            record it tAttributeValue .error (s%"not found: @signal=" ++ s)
        | _ => W.fail .typeError
      | _ => genericHandler it
  | _ =>
    -- an object called "signal" below an object whose name contains "@"
    match par.obj with
    | .node (.group ..) => W.fail .typeError
    | _ => genericHandler it

/-- Loop of `punx/validations/attribute.py:163-177`; `addr` is the address so far.
Result: whether the loop ran to its end. -/
def targetLoop (ctx : Ctx) (it : Item) (addr : Str) : List Str → W Eff Bool
  | [] => pure true
  | p :: ps =>
    match matchKey ctx p with
    | none => do
      record it tAttributeValue .error s%"value must match with a NeXus validItemName"
      pure false
    | some _ =>
      let addr' := addr ++ s%"/" ++ p
      if h5contains ctx.file ctx.file.root addr' then targetLoop ctx it addr' ps
      else do
        record it tAttributeValue .error
          (s%"partial HDF5 address not found in file: " ++ addr')
        pure false

/-- `punx/validations/attribute.py:154-183`: `target_handler`; only text has
`startswith`. -/
def targetHandler (ctx : Ctx) (it : Item) : W Eff Unit :=
  match it.obj with
  | .val v => do
    match ← W.lift (decodeByteString ctx.env v) with
    | .str target =>
      if startsWith target s%"/" then do
        let done ← targetLoop ctx it [] (split '/' (target.drop 1))
        if done then
          if h5contains ctx.file ctx.file.root target then
            record it tAttributeValue .ok (s%"found: @target=" ++ target)
          else
            record it tAttributeValue .error (s%"not found: @target=" ++ target)
        else pure ()
      else
        record it tAttributeValue .error
          s%"value be must absolute HDF5 address, start with \"/\""
    | _ => W.fail .attributeError
  | _ => W.fail .attributeError

/-- `punx/validations/attribute.py:19-29, 209-218`: `verify` and `HANDLER_DICT`.
An item whose address contains "@" always has a parent. -/
def attributeVerify (ctx : Ctx) (it : Item) : W Eff Unit :=
  match it.addr with
  | none => pure ()
  | some a =>
    if hasAt a then
      match it.parent with
      | none => W.fail .attributeError
      | some par =>
        if it.name = s%"NX_class" then nxclassHandler ctx it
        else if it.name = s%"target" then targetHandler ctx it
        else if it.name = s%"signal" then signalHandler ctx it par
        else if it.name = s%"axes" then axesHandler ctx it par
        else genericHandler it
    else pure ()

end Punx

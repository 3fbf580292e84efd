import Verif.Model.Groups

/-!
# `punx/validations/application_definition.py`
-/

namespace Punx

/-- `item[0]` if the value is an array or list
(`punx/validations/application_definition.py:23-24, 67-68`).  Elements of arrays of
strings in datasets are `bytes`. -/
def firstOfArray : Val → Except PyErr Val
  | .arrO [] | .arrS [] | .arrNum [] | .list [] => .error .indexError
  | .arrO (x :: _) => .ok (.str x)
  | .list (x :: _) => .ok (.str x)
  | .arrS (x :: _) => .ok (.bytes x)
  | .arrNum (x :: _) => .ok (.num x)
  | v => .ok v

/-- `h5_obj[()]`: only datasets have a value; `None`, groups and named types raise
`TypeError`. -/
def readValue : Option Node → Except PyErr Val
  | some (.dataset _ _ d) => .ok d.value
  | _ => .error .typeError

/-- `punx/validations/application_definition.py:22-25`: name of the application
definition declared by an entry. -/
def appDefName (ctx : Ctx) (it : Item) : Except PyErr Str :=
  match it.obj.asGroup with
  | none => .error .typeError
  | some g =>
    match h5get ctx.file g s%"definition" with
    | .error e => .error e
    | .ok none => .error .keyError            -- `h5_object["definition"]`
    | .ok (some n) => do
      let v ← readValue (some n)
      let v ← firstOfArray v
      let v ← decodeByteString ctx.env v
      .ok (pyStr ctx.env v)

/-- A value of the enumeration of a field: a text or `None`. -/
def enumValue : Option Str → Val
  | some s => .str s
  | none => .none

/-- `" | ".join(spec.enumerations)` (`punx/validations/application_definition.py:84`): `None`
cannot be joined. -/
def joinEnums (l : List (Option Str)) : Except PyErr Str :=
  if none ∈ l then .error .typeError else .ok (join s%" | " (l.filterMap id))

/-- Loop of `punx/validations/application_definition.py:64-71`: the first value of the
enumeration that equals the (decoded, first) value of the dataset. -/
def enumLoop (env : Env) (obj : Option Node) :
    List (Option Str) → Except PyErr (Option (Option Str))
  | [] => .ok none
  | e :: es => do
    let v ← readValue obj
    let v ← firstOfArray v
    let v ← decodeByteString env v
    if v = enumValue e then .ok (some e) else enumLoop env obj es

/-- `spec.xml_attributes["minOccurs"].default_value == 1`
(`punx/validations/application_definition.py:73-75`). -/
def fieldRequired (mgr : Manager) : Except PyErr Bool :=
  match mgr.fieldMinOccursIsOne with
  | some b => .ok b
  | none => .error .keyError

/-- One turn of the loop `punx/validations/application_definition.py:52-85`.  `i`
numbers the fields, to give the new item an identity. -/
def appField (ctx : Ctx) (it : Item) (g : Node) (adName : Str) (i : Nat)
    (fld : Str × FieldSpec) : W Eff Unit := do
  let o ← W.lift (h5get ctx.file g fld.1)
  let obj : H5Obj := match o with
    | some n => .node n
    | none => .none
  let v ← W.lift (mkItem ctx.env (some it) obj none (0 :: i :: it.oid))
  record v s%"NXDL field" (tfResult o.isSome)
    (adName ++ s%":" ++ fld.1 ++ (if o.isSome then s%" found" else s%" not found"))
  if fld.2.enums.length > 0 then do
    let found ← W.lift (enumLoop ctx.env o fld.2.enums)
    let required ← W.lift (fieldRequired ctx.mgr)
    let msg := adName ++ s%":" ++ fld.1 ++
      (if required then s%" (required)" else s%" (optional)")
    match found with
    | some (some e) =>
      record v s%"NXDL field enumerations" .ok (msg ++ s%" has expected value: " ++ e)
    | some none => W.fail .typeError         -- `msg += … + None`
    | none => do
      let values ← W.lift (joinEnums fld.2.enums)
      record v s%"NXDL field enumerations" .error (msg ++ s%" does not have value: " ++ values)
  else pure ()

/-- The loop over the fields. -/
def appFields (ctx : Ctx) (it : Item) (g : Node) (adName : Str) :
    Nat → List (Str × FieldSpec) → W Eff Unit
  | _, [] => pure ()
  | i, fld :: rest => do
    appField ctx it g adName i fld
    appFields ctx it g adName (i + 1) rest

/-- `punx/validations/application_definition.py:18-85`: `verify`. -/
def appDefVerify (ctx : Ctx) (it : Item) : W Eff Unit := do
  let adName ← W.lift (appDefName ctx it)
  match Dict.get? ctx.mgr.classes adName with
  | none =>
    record it s%"known NXDL" .error (adName ++ s%": unrecognized NXDL specification")
  | some ad => do
    record it s%"known NXDL" .ok (adName ++ s%": recognized NXDL specification")
    match ad.category with
    | .applications =>
      record it s%"NeXus application definition" .ok
        (adName ++ s%": known NeXus application definition")
    | .contributed =>
      record it s%"NeXus application definition" .ok
        (adName ++ s%": known NeXus contributed definition used as application definition")
    | .baseClasses =>
      record it s%"NeXus application definition" .error
        (adName ++ s%": unknown application definition")
    record it s%"NeXus application definition" .todo
      (adName ++ s%": more validations needed")
    match Dict.values ad.groups with
    | [] => W.fail .indexError
    | entry :: _ =>
      match it.obj.asGroup with
      | none => W.fail .attributeError
      | some g => appFields ctx it g adName 0 entry.fields

end Punx

import Verif.Model.Attribute

/-!
# Group checks

`punx/validations/nx_class_attribute.py`,
`punx/validations/hdf5_group_items_in_base_class.py`,
`punx/validations/base_class_items_in_hdf5_group.py` and the methods of
`punx/validate.py` that call them.
-/

namespace Punx

/-- `punx/validate.py:360-390`: `usedAsBaseClass`.  `groups.values()[0]` (`:386`)
raises `TypeError` since dictionary views cannot be indexed. -/
def usedAsBaseClass (mgr : Manager) (nxClass : Str) : Except PyErr Bool :=
  match Dict.get? mgr.classes nxClass with
  | none => .ok false
  | some d =>
    match d.category with
    | .applications => .ok false
    | .baseClasses => .ok true
    | .contributed =>
      if d.fields.length = 0 ∧ d.links.length = 0 ∧ d.groups.length = 1 then
        .error .typeError
      else .ok true

/-- `punx/validations/nx_class_attribute.py:15-39`: `validate_NX_class_attribute`. -/
def nxClassAttribute (ctx : Ctx) (it : Item) (nxClass : Str) : W Eff Unit := do
  let known := Dict.get? ctx.mgr.classes nxClass
  record it s%"known NXDL" (tfResult known.isSome)
    (nxClass ++ s%": recognized NXDL specification")
  match known with
  | none => pure ()
  | some d => do
    let asBase ← W.lift (usedAsBaseClass ctx.mgr nxClass)
    let msg := if d.category = .baseClasses then s%": known NeXus base class"
      else s%": known NeXus contributed definition used as base class"
    record it s%"NeXus base class" (tfResult asBase) (nxClass ++ msg)

/-- The address as text; `None` cannot be concatenated. -/
def addrStr (it : Item) : Except PyErr Str :=
  match it.addr with
  | some a => .ok a
  | none => .error .typeError

/-- `text + "/"` unless it already ends with "/". -/
def withSlash (s : Str) : Str := if endsWith s s%"/" then s else s ++ s%"/"

/-- `v in v_item.h5_object` for a value: only text can be looked up. -/
def objContains (ctx : Ctx) (obj : H5Obj) (v : Val) : Except PyErr Bool :=
  match v, obj.asGroup with
  | .str s, some g => .ok (h5contains ctx.file g s)
  | _, _ => .error .typeError

/-- `punx/validations/hdf5_group_items_in_base_class.py:23-36`: `child_exists`. -/
def childExists (ctx : Ctx) (test : Str) (v : Val) (it aIt : Item) : W Eff Unit := do
  let found ← W.lift (objContains ctx it.obj v)
  let a ← W.lift (addrStr it)
  match v with
  | .str s =>
    if found then record aIt test .ok (withSlash (s%"found: " ++ a) ++ s)
    else record aIt test .error (withSlash (s%"not found: " ++ a) ++ s)
  | _ => W.fail .typeError

/-- Class paths for which `@default` must name a child
(`punx/validations/hdf5_group_items_in_base_class.py:84-88`). -/
def defaultClasspaths : List Str := [[], s%"/NXentry", s%"/NXentry/NXsubentry"]

/-- Enumeration check, `punx/validations/hdf5_group_items_in_base_class.py:69-78`. -/
def enumCheck (spec : AttrSpec) (v : Val) (aIt : Item) : W Eff Unit :=
  if spec.enums.length > 0 then
    match v with
    | .str s =>
      if s ∈ spec.enums then
        record aIt s%"attribute value enumeration" .ok (s%"found: " ++ s)
      else
        record aIt s%"attribute value enumeration" .error (s%"not found: " ++ s)
    | _ => W.fail .typeError
  else pure ()

/-- One turn of the loop
`punx/validations/hdf5_group_items_in_base_class.py:51-116`. -/
def groupAttrCheck (ctx : Ctx) (it : Item) (cls : ClassDef) (kv : Str × Val) : W Eff Unit := do
  let k := kv.1
  let v ← W.lift (decodeByteString ctx.env kv.2)
  let spec? := Dict.get? cls.attrs k
  let c := if spec?.isNone ∧ k ≠ s%"NX_class" then s%"unknown" else s%"known"
  let a ← W.lift (addrStr it)
  match Dict.get? ctx.addresses (some (a ++ s%"@" ++ k)) with
  | none => W.fail .keyError
  | some aIt => do
    record aIt s%"known attribute" .ok (c ++ s%": " ++ cls.title ++ s%"@" ++ k)
    match spec? with
    | none => pure ()
    | some spec => do
      enumCheck spec v aIt
      if k = s%"default" ∧ it.classpath ∈ defaultClasspaths then
        childExists ctx s%"value of @default" v it aIt
      else if k = s%"signal" then
        childExists ctx s%"value of @signal" v it aIt
      else if k = s%"target" then
        W.fail .attributeError           -- `v_item.manager`
      else if k = s%"axes" then pure ()
      else
        record aIt (s%"value of @" ++ k) .todo
          (s%"TODO: need to validate: @" ++ k ++ s%" = " ++ pyStr ctx.env v)

/-- `punx/validations/hdf5_group_items_in_base_class.py:39-116`:
`verify_group_attributes`. -/
def groupAttributes (ctx : Ctx) (it : Item) (cls : ClassDef) : W Eff Unit :=
  match it.obj.attrs? with
  | none => W.fail .attributeError
  | some attrs => W.forEach (sortAttrs attrs) (groupAttrCheck ctx it cls)

/-- One turn of the loop
`punx/validations/hdf5_group_items_in_base_class.py:121-148`. -/
def childCheck (ctx : Ctx) (cls : ClassDef) (kid : Str × Option Node) : W Eff Unit :=
  match kid.2 with
  | none => W.fail .keyError
  | some n =>
    match Dict.get? ctx.addresses (some n.name) with
    | none => W.fail .keyError
    | some sub =>
      match n with
      | .dataset .. =>
        record sub s%"field in base class" .ok
          ((if Dict.has cls.fields kid.1 then s%"defined: " else s%"not defined: ") ++
            cls.title ++ s%"/" ++ kid.1)
      | .group .. =>
        record sub s%"group in base class" .ok
          ((if Dict.has cls.groups kid.1 then s%"defined: " else s%"not defined: ") ++
            cls.title ++ s%"/" ++ kid.1)
      | .datatype .. =>
        record sub s%"unhandled: group_items_in_base_class" .todo s%"TODO: "

/-- The members of a group object. -/
def groupKids : H5Obj → List (Str × Option Node)
  | .file f => f.kids.toList
  | .node (.group _ _ k) => k.toList
  | _ => []

/-- `punx/validations/hdf5_group_items_in_base_class.py:119-148`:
`verify_group_children`. -/
def groupChildren (ctx : Ctx) (it : Item) (cls : ClassDef) : W Eff Unit :=
  W.forEach (groupKids it.obj) (childCheck ctx cls)

/-- `sorted(d.keys())` and `sorted(d.items())` (keys are unique). -/
def sortKeys {β : Type} (d : Dict Str β) : Dict Str β := sortBy (fun a b => strLe a.1 b.1) d

/-- One turn of the loop
`punx/validations/base_class_items_in_hdf5_group.py:21-35`. -/
def baseFieldCheck (ctx : Ctx) (it : Item) (fld : Str × FieldSpec) : W Eff Unit := do
  let found ← W.lift (objContains ctx it.obj (.str fld.1))
  let a ← W.lift (addrStr it)
  if found then
    record it s%"NXDL field in data file" .ok (withSlash (s%"found: " ++ a) ++ fld.1)
  else
    record it s%"NXDL field in data file" .optional (withSlash (s%"not found: " ++ a) ++ fld.1)

/-- `int(group_object.attributes.get("minOccurs", 0))`,
`punx/validations/base_class_items_in_hdf5_group.py:51-54`.  A definition has no
attribute `definition`, so the default is always 0. -/
def groupMinOccurs (env : Env) (g : GroupSpec) : Except PyErr Int :=
  match Dict.get? g.attrs s%"minOccurs" with
  | none => .ok 0
  | some (.raw s) => match env.int s with
    | some n => .ok n
    | none => .error .valueError
  | some (.spec _) => .error .typeError

/-- One turn of the loop
`punx/validations/base_class_items_in_hdf5_group.py:37-55`. -/
def baseGroupCheck (ctx : Ctx) (it : Item) (clsName : Str) (grp : Str × GroupSpec) :
    W Eff Unit := do
  let found ← W.lift (objContains ctx it.obj (.str grp.1))
  let a ← W.lift (addrStr it)
  if found then
    record it s%"NXDL group in data file" .ok (s%"found:  in " ++ a ++ s%"/" ++ grp.1)
  else
    record it s%"NXDL group in data file" .optional
      (s%"not found:  in " ++ a ++ s%"/" ++ grp.1)
  let n ← W.lift (groupMinOccurs ctx.env grp.2)
  W.tell (.setMin clsName grp.1 n)

/-- `punx/validations/base_class_items_in_hdf5_group.py:16-60`: `verify`. -/
def baseItems (ctx : Ctx) (it : Item) (clsName : Str) (cls : ClassDef) : W Eff Unit := do
  W.forEach (sortKeys cls.fields) (baseFieldCheck ctx it)
  W.forEach (sortKeys cls.groups) (baseGroupCheck ctx it clsName)

/-- `punx/validate.py:310-345`: `validate_group`. -/
def validateGroup (ctx : Ctx) (it : Item) : W Eff Unit :=
  if it.classpath = nonNeXus then
    record it s%"NeXus_group" .ok s%"not a NeXus group"
  else do
    let nx ← W.lift (
      if startsWith it.classpath s%"/NX" then
        match it.nxClass with
        | some c => .ok c
        | none => .error PyErr.attributeError
      else if it.classpath = [] then .ok s%"NXroot"
      else .error .valueError)
    nxClassAttribute ctx it nx
    match Dict.get? ctx.mgr.classes nx with
    | none => record it s%"NeXus base class" .error (s%"unknown NeXus base class: " ++ nx)
    | some cls => do
      groupAttributes ctx it cls
      groupChildren ctx it cls
      baseItems ctx it nx cls
      record it s%"NeXus base class" .todo (nx ++ s%": more validations needed")

end Punx

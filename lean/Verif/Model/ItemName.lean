import Verif.Model.Validator

/-!
# `punx/validations/item_name.py`
-/

namespace Punx

/-- `TEST_NAME`, `punx/validations/item_name.py:23`. -/
def tValidItemName : Str := s%"validItemName"

/-- Character test `text.find("@") > -1`. -/
def hasAt (s : Str) : Bool := s.contains '@'

/-- `punx/validations/item_name.py:136-149`: `getValidItemNamePatterns`: keys and
patterns in the order in which they are tried.  (A pattern listed twice has one
dictionary entry; trying it again would not change the result.) -/
def itemNamePatterns (mgr : Manager) : List (Str × Pat) :=
  (s%"strict pattern: " ++ strictPat.text, strictPat) ::
    (mgr.itemPats.getD []).map (fun p => (s%"relaxed pattern: " ++ p.text, p))

/-- Loop of `punx/validations/item_name.py:155-164`. -/
def matchKeyLoop (word : Char → Bool) (s : Str) : List (Str × Pat) → Option Str
  | [] => none
  | (k, p) :: rest => if patMatch word p s then some k else matchKeyLoop word s rest

/-- `punx/validations/item_name.py:152-164`: `validItemName_match_key` for text.
The regular expression cache is not modelled: its keys determine the pattern. -/
def matchKey (ctx : Ctx) (s : Str) : Option Str :=
  matchKeyLoop ctx.env.word s (itemNamePatterns ctx.mgr)

/-- `validItemName_match_key` for any value: matching something that is not text is
a `TypeError`. -/
def matchKeyVal (ctx : Ctx) (v : Val) : Except PyErr (Option Str) := do
  match ← decodeByteString ctx.env v with
  | .str s => .ok (matchKey ctx s)
  | _ => .error .typeError

/-- Truth of `target_name != source_name` (`punx/validations/item_name.py:39`). -/
def valNe (target : Val) (source : Option Str) : Except PyErr Bool :=
  match target with
  | .str t => .ok (some t ≠ source)
  | .arrNum xs => if xs.length = 1 then .ok true else .error .valueError
  | .none => .ok source.isSome
  | _ => .ok true

/-- `punx/validations/item_name.py:29-40`: `isNeXusLinkTarget`. -/
def isNeXusLinkTarget (env : Env) (it : Item) : Except PyErr Bool :=
  match it.obj.attrs? with
  | none => .error .attributeError
  | some attrs =>
    match attrGet attrs s%"target" with
    | none => .ok false
    | some v => do
      let t ← decodeByteString env v
      valNe t it.addr

/-- Loop of `punx/validations/item_name.py:111-121` over the class name patterns:
status and last pattern tried (`p` is unbound if there is none). -/
def nxClassLoop (word : Char → Bool) (s : Str) (last : Option Str) :
    List Pat → Status × Option Str
  | [] => (.error, last)
  | p :: rest =>
    if patMatch word p s then (.ok, some p.text) else nxClassLoop word s (some p.text) rest

/-- `punx/validations/item_name.py:102-122`: `handle_NX_class`. -/
def handleNXClass (ctx : Ctx) (it : Item) : W Eff Unit :=
  match ctx.mgr.classPats with
  | none => W.fail .keyError
  | some [] => W.fail .nameError
  | some (p :: ps) =>
    match it.obj with
    | .val v => do
      match ← W.lift (decodeByteString ctx.env v) with
      | .str s =>
        let (status, last) := nxClassLoop ctx.env.word s none (p :: ps)
        record it tValidItemName status (s%"pattern: " ++ last.getD [])
      | _ => W.fail .typeError
    | _ => W.fail .typeError

/-- `punx/validations/item_name.py:125-133`: `handle_any_attribute`. -/
def handleAnyAttribute (ctx : Ctx) (it : Item) : W Eff Unit :=
  match matchKey ctx it.name with
  | some k => record it tValidItemName .ok k
  | none => record it tValidItemName .error s%"no matching pattern found"

/-- `punx/validations/item_name.py:167-184`: `handle_groups_and_fields`.  The name is
already text, so `UnicodeDecodeError` cannot occur. -/
def handleGroupsAndFields (ctx : Ctx) (it : Item) : W Eff Unit :=
  if hasSub s%"NXcollection" it.classpath then
    record it tValidItemName .warn s%"NXcollection contains non-NeXus content"
  else
    match matchKey ctx it.name with
    | none => record it tValidItemName .error s%"valid HDF5 item name, not valid with NeXus"
    | some k =>
      if startsWith k s%"strict" then record it tValidItemName .ok k
      else record it tValidItemName .note k

/-- `punx/validations/item_name.py:43-99`: `verify`.  `seen` are the keys of
`v_item.validations` at the time of the call. -/
def itemNameVerify (ctx : Ctx) (seen : List Str) (it : Item) : W Eff Unit :=
  match it.parent with
  | none => pure ()
  | some par =>
    if it.name ∈ seen then pure ()
    else if (it.addr.map (fun a => endsWith a s%"@NX_class")).getD false then
      handleNXClass ctx it
    else if hasAt it.classpath then do
      let linked ← W.lift (isNeXusLinkTarget ctx.env par)
      if linked then pure () else handleAnyAttribute ctx it
    else if isHdf5Dataset it.obj || isHdf5Group it.obj || isHdf5Link it.obj then
      handleGroupsAndFields ctx it
    else if it.classpath = nonNeXus then pure ()
    else record it tValidItemName .todo s%"not handled yet"

end Punx

import Verif.Py.Basic

/-!
# `punx/finding.py`
-/

namespace Punx

/-- The eight `ValidationResultStatus` objects, `punx/finding.py:51-68`. -/
inductive Status
  | ok | note | warn | error | todo | unused | comment | optional
  deriving DecidableEq, Repr, Inhabited

namespace Status

/-- `punx/finding.py:50-70`: `VALID_STATUS_LIST = tuple(VALID_STATUS_DICT.values())`,
in the order of construction. -/
def all : List Status := [ok, note, warn, error, todo, unused, comment, optional]

/-- `punx/finding.py:50-68`: numerical value of each status. -/
def value : Status → Int
  | ok => 100
  | note => 75
  | warn => 25
  | error => -10000000
  | todo => 0
  | unused => 0
  | comment => 0
  | optional => 99

/-- `punx/finding.py:51-68`: `key`, also `str(status)` (`:46-47`). -/
def key : Status → Str
  | ok => s%"OK"
  | note => s%"NOTE"
  | warn => s%"WARN"
  | error => s%"ERROR"
  | todo => s%"TODO"
  | unused => s%"UNUSED"
  | comment => s%"COMMENT"
  | optional => s%"OPTIONAL"

/-- `punx/finding.py:51-68`: one line description of each status. -/
def description : Status → Str
  | ok => s%"meets NeXus specification"
  | note => s%"does not meet NeXus specification, but acceptable"
  | warn => s%"does not meet NeXus specification, not generally acceptable"
  | error => s%"violates NeXus specification"
  | todo => s%"validation not implemented yet"
  | unused => s%"optional NeXus item not used in data file"
  | comment => s%"comment from the punx source code"
  | optional => s%"allowed by NeXus specification, not identified"

end Status

/-- `punx/finding.py:72`: `TF_RESULT = {True: OK, False: ERROR}` -/
def tfResult : Bool → Status
  | true => .ok
  | false => .error

/-- `punx/finding.py:79-97`: class `Finding`.  `h5_address` may be `None`
(attributes of non-NeXus content, `punx/validate.py:412`). -/
structure Finding where
  addr : Option Str
  test : Str
  status : Status
  comment : Str
  deriving DecidableEq, Repr, Inhabited

/-- A Python object offered as status: one of the module's status objects or any
other object. -/
inductive StatusObj
  | valid (s : Status)
  | other (tag : Nat)
  deriving DecidableEq, Repr

/-- `punx/finding.py:89-97`: `Finding.__init__`; membership in the list is
decided by object identity. -/
def mkFinding (addr : Option Str) (test : Str) (status : StatusObj) (comment : Str) :
    Except PyErr Finding :=
  match status with
  | .valid s =>
    if s ∈ Status.all then .ok ⟨addr, test, s, comment⟩ else .error .valueError
  | .other _ => .error .valueError

/-- `punx/finding.py:111-117`: the text fed to the MD5 digest by `make_md5`
(before UTF-8 encoding, which is injective); `bytes(None, "utf8")` raises
`TypeError`.  The digest itself is not modelled. -/
def md5Preimage (f : Finding) : Except PyErr Str :=
  match f.addr with
  | some a => .ok (a ++ ['\n'] ++ f.test)
  | none => .error .typeError

end Punx

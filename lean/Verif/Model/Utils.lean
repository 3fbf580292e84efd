import Verif.Model.H5

/-!
# `punx/utils.py`
-/

namespace Punx

/-- The parts of the Python run time that the code depends on. -/
structure Env where
  /-- `bytes.decode(sys.stdout.encoding or "utf8")`; `none`: `UnicodeDecodeError` -/
  dec : List UInt8 → Option Str
  /-- `\w` of module `re` -/
  word : Char → Bool
  /-- `str.isdigit()` -/
  isdigit : Str → Bool
  /-- `int(str)`; `none`: `ValueError` -/
  int : Str → Option Int
  /-- `str()` of bytes, lists, arrays, `None` and `h5py.Empty` -/
  str : Val → Str

/-- Decode ASCII bytes as numpy's `astype('U')` does for dtype kind 'S'. -/
def asciiDecode : List UInt8 → Option Str
  | [] => some []
  | b :: bs =>
    if b.toNat < 128 then (asciiDecode bs).map (Char.ofNat b.toNat :: ·) else none

/-- Decode every element, or fail if one of them cannot be decoded. -/
def decodeAll (f : List UInt8 → Option Str) : List (List UInt8) → Option (List Str)
  | [] => some []
  | x :: xs =>
    match f x, decodeAll f xs with
    | some s, some ss => some (s :: ss)
    | _, _ => none

/-- `punx/utils.py:36-53`: `decode_byte_string`. -/
def decodeByteString (env : Env) : Val → Except PyErr Val
  | .arrO xs => if xs.length > 0 then .ok (.list xs) else .ok .none
  | .arrS xs =>
    if xs.length > 0 then
      match decodeAll asciiDecode xs with
      | some ss => .ok (.list ss)
      | none => .error .unicodeDecodeError
    else .ok .none
  | .bytes b =>
    match env.dec b with
    | some s => .ok (.str s)
    | none => .error .unicodeDecodeError
  | v => .ok v

/-- `str(value)` -/
def pyStr (env : Env) : Val → Str
  | .str s => s
  | .int n => intStr n
  | .num r => r
  | v => env.str v

/-- `len(value)`; `none`: `TypeError` -/
def pyLen : Val → Option Nat
  | .str s => some s.length
  | .bytes b => some b.length
  | .arrO xs => some xs.length
  | .arrS xs => some xs.length
  | .arrNum xs => some xs.length
  | .list xs => some xs.length
  | _ => none

/-- `punx/utils.py:68-70`: `isHdf5Group` (a `File` is not one). -/
def isHdf5Group : H5Obj → Bool
  | .node (.group ..) => true
  | _ => false

/-- `punx/utils.py:63-65`: `isHdf5FileObject`. -/
def isHdf5File : H5Obj → Bool
  | .file _ => true
  | _ => false

/-- `punx/utils.py:73-75` and `:139-141`: `isHdf5Dataset`, `isNeXusDataset`. -/
def isHdf5Dataset : H5Obj → Bool
  | .node (.dataset ..) => true
  | _ => false

/-- `punx/utils.py:78-83`: `isHdf5Link`.  h5py objects have a `parent` in which
they are found by their name through a hard or soft link. -/
def isHdf5Link : H5Obj → Bool
  | .node _ => true
  | _ => false

/-- `punx/utils.py:144-147`: truth value of `isNeXusLink(obj)` for an object with
these attributes and this name.  Comparing an array of numbers with text gives
an array, whose truth value is an error unless it has one element (numpy ≥ 1.25). -/
def isNeXusLink (env : Env) (attrs : List (Str × Val)) (name : Str) : Except PyErr Bool := do
  let target ← decodeByteString env ((attrGet attrs s%"target").getD (.str []))
  match pyLen target with
  | none => .error .typeError
  | some 0 => .ok false
  | some (k + 1) =>
    match target with
    | .str s => .ok (s ≠ name)
    | .arrNum _ => if k = 0 then .ok true else .error .valueError
    | _ => .ok true

/-- `punx/utils.py:128-136`: `isNeXusGroup(obj, NXtype)`: `nxclass[0]` of an empty
array raises `IndexError`; comparing an array element that is text. -/
def isNeXusGroup (env : Env) (obj : Node) (nxtype : Str) : Except PyErr Bool :=
  match obj with
  | .group _ attrs _ =>
    match attrGet attrs s%"NX_class" with
    | none => .ok false
    | some v => do
      let v ← match v with
        | .arrO [] | .arrS [] | .arrNum [] => .error .indexError
        | .arrO (x :: _) => .ok (Val.str x)
        | .arrS (x :: _) => .ok (Val.bytes x)
        | .arrNum (x :: _) => .ok (Val.num x)
        | v => .ok v
      let d ← decodeByteString env v
      .ok (d == .str nxtype)
  | _ => .ok false

/-- Loop of `punx/utils.py:119-124`: only `KeyError` is caught. -/
def isNeXusFileLoop (env : Env) : List (Str × Option Node) → Except PyErr Bool
  | [] => .ok false
  | (_, none) :: rest => isNeXusFileLoop env rest        -- `root[item]` raises KeyError
  | (_, some n) :: rest =>
    match isNeXusGroup env n s%"NXentry" with
    | .ok true => .ok true
    | .ok false => isNeXusFileLoop env rest
    | .error .keyError => isNeXusFileLoop env rest
    | .error e => .error e

/-- What a file name denotes. -/
inductive FileState
  | missing
  | notHdf5
  | hdf5 (f : H5File)

/-- `punx/utils.py:112-125`: `isNeXusFile(filename)`; the result is `None` for a
missing file; `h5py.File` raises `OSError` for a file that is not HDF5. -/
def isNeXusFile (env : Env) : FileState → Except PyErr (Option Bool)
  | .missing => .ok none
  | .notHdf5 => .error .osError
  | .hdf5 f => do
    let b ← isNeXusFileLoop env f.kids.toList
    .ok (some b)

/-- UTF-8 encoding of a string, `str.encode("utf8")`. -/
def utf8Encode (s : Str) : List UInt8 := s.flatMap String.utf8EncodeChar

/-- `punx/utils.py:56-60`: `string_list_to_hdf5`. -/
def stringListToHdf5 (xs : List Str) : List (List UInt8) := xs.map utf8Encode

end Punx

import Verif.Spec.Describe

/-!
# The lines of the printed outline (C131)
-/

namespace Punx.Spec
open Punx

/-- `name=value` without underscores before the value, if there is a value. -/
def entry (name : Str) (v : Option Str) : List Str :=
  (v.map fun t => name ++ '=' :: t.dropWhile (· == '_')).toList

/-- The members of an object that are shown, by name. -/
def entries (o : SObj) : List Str :=
  match o.kind with
  | .attribute =>
    entry s%"default_value" o.info.default ++ entry s%"maxLength" (o.info.maxLength.map intStr) ++
      entry s%"name" o.name ++ [if o.info.required then s%"required=True" else s%"required=False"] ++
      entry s%"type" o.key
  | .element =>
    entry s%"maxLength" (o.info.maxLength.map intStr) ++ entry s%"maxOccurs" o.info.maxOccurs ++
      entry s%"minOccurs" o.info.minOccurs ++ entry s%"name" o.name ++ entry s%"type" o.key
  | .group =>
    entry s%"maxLength" (o.info.maxLength.map intStr) ++ entry s%"maxOccurs" o.info.maxOccurs ++
      entry s%"minOccurs" o.info.minOccurs ++ entry s%"name" o.name ++ entry s%"ref" o.key

/-- How the line of an object begins, after the indentation. -/
def heading (o : SObj) : Str :=
  match o.kind, o.name with
  | .attribute, some n => '@' :: n
  | .attribute, none => s%"@(attribute)"
  | .element, none => s%"(element)"
  | .group, none => s%"(group)"
  | _, some n => n

/-- The name of the class of an object. -/
def className (o : SObj) : Str :=
  match o.kind with
  | .attribute => s%"NXDL_schema__attribute"
  | .element => s%"NXDL_schema__element"
  | .group => s%"NXDL_schema__group"

end Punx.Spec

import Verif.Model.H5Tree

/-!
# What the tree should say about the type and the texts of a dataset
-/

namespace Punx.Spec
open Punx

/-- The type of a dataset as `punx tree` names it: `CHAR` for texts, with the sizes for arrays of texts
of fixed length, the name of numpy's type for anything else; in NeXus files in the form of NeXus
types. -/
def typeName (nexus : Bool) (d : DataInfo) : Str :=
  let plain := match d.kind, d.shape with
    | .S, some (_ :: _) => s%"char[" ++ join s%"," (d.itemsizes.map natStr) ++ s%"]"
    | .S, _ => s%"CHAR"
    | .O, _ => s%"CHAR"
    | .other, _ => d.dtype
  if nexus then s%"NX_" ++ plain.map Char.toUpper else plain

/-- A text in quotes. -/
def quotedText (s : Str) : Str := '"' :: (s ++ s%"\"")

/-- Texts in one line: nothing, the text, or a list. -/
def textsShown : List Str → Str
  | [] => []
  | [s] => quotedText s
  | ss => s%"[" ++ join s%", " (ss.map quotedText) ++ s%"]"

end Punx.Spec

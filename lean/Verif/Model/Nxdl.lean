import Verif.Model.Regex

/-!
# NeXus definitions as held by `punx/nxdl_manager.py`
-/

namespace Punx

/-- `punx/nxdl_manager.py:460-498`: `NXDL__attribute`. -/
structure AttrSpec where
  enums : List Str := []
  deriving DecidableEq, Repr, Inhabited

/-- Entry of `NXDL__group.attributes`: an `NXDL__attribute` or the text of an XML
attribute (`punx/nxdl_manager.py:626-629`). -/
inductive GAttr
  | spec (a : AttrSpec)
  | raw (s : Str)
  deriving DecidableEq, Repr, Inhabited

/-- `punx/nxdl_manager.py:501-525`: `NXDL__dim`. -/
structure DimSpec where
  index : Option Str := none
  value : Option Str := none
  ref : Option Str := none
  refindex : Option Str := none
  incr : Option Str := none
  deriving DecidableEq, Repr, Inhabited

/-- `punx/nxdl_manager.py:528-560`: `NXDL__dimensions`. -/
structure DimsSpec where
  rank : Option Str := none
  /-- by index, which may be missing (`None`) -/
  dims : Dict (Option Str) DimSpec := []
  deriving DecidableEq, Repr, Inhabited

/-- `punx/nxdl_manager.py:562-598`: `NXDL__field`.  In the enumeration `none` stands for an
`item` without value. -/
structure FieldSpec where
  attrs : Dict Str AttrSpec := []
  enums : List (Option Str) := []
  dims : Option DimsSpec := none
  deriving DecidableEq, Repr, Inhabited

/-- `punx/nxdl_manager.py:635-660`: `NXDL__link`. -/
structure LinkSpec where
  target : Option Str := none
  deriving DecidableEq, Repr, Inhabited

/-- `punx/nxdl_manager.py:601-632`: `NXDL__group`. -/
inductive GroupSpec
  | mk (attrs : Dict Str GAttr) (groups : List (Str × GroupSpec))
      (fields : Dict Str FieldSpec) (links : Dict Str LinkSpec)

instance : Inhabited GroupSpec := ⟨.mk [] [] [] []⟩

namespace GroupSpec
/-- `group.attributes` -/
def attrs : GroupSpec → Dict Str GAttr | mk a _ _ _ => a
/-- `group.groups` -/
def groups : GroupSpec → Dict Str GroupSpec | mk _ g _ _ => g
/-- `group.fields` -/
def fields : GroupSpec → Dict Str FieldSpec | mk _ _ f _ => f
/-- `group.links` -/
def links : GroupSpec → Dict Str LinkSpec | mk _ _ _ l => l
end GroupSpec

/-- `NXDL__definition.category`: name of the directory
(`punx/nxdl_manager.py:147, 431`). -/
inductive Category
  | baseClasses | applications | contributed
  deriving DecidableEq, Repr, Inhabited

/-- `punx/nxdl_manager.py:365-457`: `NXDL__definition`. -/
structure ClassDef where
  title : Str
  category : Category
  attrs : Dict Str AttrSpec := []
  groups : Dict Str GroupSpec := []
  fields : Dict Str FieldSpec := []
  links : Dict Str LinkSpec := []
  symbols : List Str := []
  deriving Inhabited

/-- What the validator uses of `NXDL_Manager` (`punx/nxdl_manager.py:44-108`). -/
structure Manager where
  /-- `manager.classes` -/
  classes : Dict Str ClassDef
  /-- `schema_manager.nxdl.patterns["validItemName"].re_list`, if defined -/
  itemPats : Option (List Pat)
  /-- `schema_manager.nxdl.patterns["validNXClassName"].re_list`, if defined -/
  classPats : Option (List Pat)
  /-- `spec.xml_attributes["minOccurs"].default_value == 1`: one object shared by
  all fields, see `Verif.Model.NxdlParse`; `none` if there is no such entry -/
  fieldMinOccursIsOne : Option Bool

end Punx

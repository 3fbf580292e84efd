import Verif.Props.Catalog
import Verif.Model.Validate
import Verif.Spec.Names

/-! Definitions and files used in examples. -/

namespace Punx
open Spec

/-- Definitions with the item name patterns of the bundled `nxdl.xsd`
(`punx/cache/*/nxdl.xsd:62-97`): `validNXClassName` restricts `validItemName`, and its pattern
list holds both patterns (`punx/schema_manager.py`, see C52). -/
def Bundled (mgr : Manager) : Prop :=
  mgr.itemPats = some [relaxedPat] ∧ mgr.classPats = some [nxClassPat, relaxedPat]

/-- A base class. -/
def baseClass (title : Str) (attrs : Dict Str AttrSpec) (groups : Dict Str GroupSpec)
    (fields : Dict Str FieldSpec) : Str × ClassDef :=
  (title, ⟨title, .baseClasses, attrs, groups, fields, [], []⟩)

/-- A small set of definitions. -/
def sampleMgr : Manager where
  classes := [
    baseClass s%"NXroot" [(s%"default", ⟨[]⟩), (s%"NX_class", ⟨[s%"NXroot"]⟩)]
      [(s%"entry", default)] [],
    baseClass s%"NXentry" [(s%"default", ⟨[]⟩)] [(s%"data", default)]
      [(s%"title", {}), (s%"definition", {})],
    baseClass s%"NXdata" [(s%"signal", ⟨[]⟩), (s%"axes", ⟨[]⟩)] [] [],
    baseClass s%"NXcollection" [] [] [],
    (s%"NXsas", ⟨s%"NXsas", .applications, [], [(s%"entry", .mk [] []
      [(s%"title", {}), (s%"definition", { enums := [some s%"NXsas"] })] [])], [], [], []⟩)]
  itemPats := some [relaxedPat]
  classPats := some [nxClassPat, relaxedPat]
  fieldMinOccursIsOne := some true

theorem sampleMgr_bundled : Bundled sampleMgr := ⟨rfl, rfl⟩

/-- A file with one NXentry group `/e` with this content. -/
def entryFile (kids : Kids) : H5File where
  attrs := []
  kids := .cons s%"e" .hard
    (.group s%"/e" [(s%"NX_class", .str s%"NXentry")] kids) .nil

/-- A field below `/e`. -/
def fieldIn (l : Str) (attrs : List (Str × Val)) (rest : Kids) : Kids :=
  .cons l .hard (.dataset (s%"/e/" ++ l) attrs (.ofVal (.int 1))) rest

/-- `/e` with a field `x` and an NXcollection with a field `Any name`. -/
def nameFile : H5File :=
  entryFile (fieldIn s%"x" [(s%"units", .str s%"mm")] (fieldIn s%"X1" [] (fieldIn s%"1x" []
    (.cons s%"c" .hard (.group s%"/e/c" [(s%"NX_class", .str s%"NXcollection")]
      (.cons s%"Any name" .hard (.dataset s%"/e/c/Any name" [] (.ofVal (.int 1))) .nil)) .nil))))

theorem nameFile_ok : (validateOpen sampleEnv sampleMgr [] nameFile).res = .ok () := by rfl

end Punx

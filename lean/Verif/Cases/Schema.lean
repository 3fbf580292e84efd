import Verif.Props.NxdlSchema5
import Verif.Props.NxTypes
import Verif.Props.SchemaManager4
import Verif.Props.Process7
import Verif.Props.SchemaManager5

/-!
# Cases for C78–C89
-/

namespace Punx
open Spec

/-- what was read without an error -/
theorem okOf {α : Type} {x : Except PyErr α} (h : x.toBool = true) : ∃ r, x = .ok r := by
  cases x with
  | ok r => exact ⟨r, rfl⟩
  | error e => cases h

theorem pairOf {α β : Type} {x : Except PyErr α × β} (h : x.1.toBool = true) :
    ∃ r p, x = (.ok r, p) := by
  obtain ⟨_ | r, p⟩ := x
  · cases h
  · exact ⟨r, p, rfl⟩

/-! ## the reader of `nxdl.xsd` -/

theorem case_schema : ∃ db, readSchema xsdInt (nxdlXsd 705) = .ok db := okOf (by decide +kernel)

example : ∃ db : SchemaDb, ∀ n ∈ (nxdlXsd 705).everywhere s%"attribute", ∃ m, atLine db.attrs n = parseAttr m := by
  obtain ⟨db, h⟩ := case_schema
  exact ⟨db, fun n hn => by
    obtain ⟨m, _, h⟩ := (found_is_last h).1 n hn
    exact ⟨m, h⟩⟩

example : ∃ (db : SchemaDb) (r : SRef), db.ref (some s%"fieldType") = .ok r ∧ ∀ o, o.kind = .attribute →
    (o ∈ r.kids ↔ ∃ n, OfType (nxdlXsd 705) s%"fieldType" n ∧ parseAttr n = .ok o) := by
  obtain ⟨db, h⟩ := case_schema
  have ht : ((nxdlXsd 705).select s%"complexType").any
      (fun t => Dict.get? t.attrib s%"name" = some s%"fieldType") = true := by decide +kernel
  obtain ⟨t, h1, h2⟩ := List.any_eq_true.1 ht
  have h2 : Dict.get? t.attrib s%"name" = some s%"fieldType" := by simpa using h2
  exact ⟨db, type_attributes_partial nxdlXsd_distinct nxdlXsd_plain h h1 h2⟩

/-- the type of `caseObj` -/
def caseRef : SRef := .other [.mk .attribute (some s%"units") none {} []]

/-- an element with an own attribute -/
def caseObj : SObj :=
  .mk .element (some s%"field") (some s%"fieldType") {} [.mk .attribute (some s%"name") none {} []]

example : ∃ o' : SObj, (o'.kids.filter (·.kind = .attribute)).length = 2 := by
  obtain ⟨o', h⟩ : ∃ o', substitute [(some s%"fieldType", caseRef)] 10 caseObj = .ok o' :=
    okOf (by decide +kernel)
  refine ⟨o', ?_⟩
  rw [substitute_attributes h (by decide) rfl rfl]
  rfl

/-! ## the schema manager -/

/-- reading the parts about groups -/
theorem case_manager (b : List Load) (hb : b = [] ∨ b = [olderLoad]) : ∃ o,
    (newManager 20 xsdInt (fun _ _ => true) groupLoad.xsd groupLoad.types
      (afterLoads 20 xsdInt (fun _ _ => true) b {})).1 = .ok o := by
  rcases hb with rfl | rfl
  · exact okOf (by decide +kernel)
  · exact okOf (by decide +kernel)

example : ∃ o o' : OwnSchema, o = o' := by
  obtain ⟨o, h⟩ := case_manager [] (.inl rfl)
  obtain ⟨o', h'⟩ := case_manager [olderLoad] (.inr rfl)
  exact ⟨o, o', own_members_partial (l := groupLoad) h h'⟩

example := manager_adds 20 xsdInt (fun _ _ => true) groupLoad true
  (afterLoads 20 xsdInt (fun _ _ => true) [olderLoad] {}).parts
example := (shared_entries 20 xsdInt (fun _ _ => true) [olderLoad, groupLoad] (some s%"svnid")).1
example := groups_once 20 xsdInt (fun _ _ => true) [groupLoad] olderLoad (by decide +kernel)

example : ∃ p s', readTypeOf (nxdlXsd 705) 20 (some s%"nx:groupType") true = (.ok p, s') ∧
    Holds (AttrOf (nxdlXsd 705) s%"groupType") p.attrs := by
  have h : (readTypeOf (nxdlXsd 705) 20 (some s%"nx:groupType") true).1.toBool = true := by
    decide +kernel
  obtain ⟨p, h⟩ := okOf h
  refine ⟨p, (readTypeOf (nxdlXsd 705) 20 (some s%"nx:groupType") true).2, Prod.ext h rfl, ?_⟩
  exact (manager_type_attributes nxdlXsd_refs (Prod.ext h rfl)).1

example : ∃ p s', readTypeOf (nxdlXsd 705) 20 (some s%"nx:fieldType") true = (.ok p, s') ∧
    HoldsElems (ElemOf (nxdlXsd 705) s%"fieldType") p.children := by
  have h : (readTypeOf (nxdlXsd 705) 20 (some s%"nx:fieldType") true).1.toBool = true := by
    decide +kernel
  obtain ⟨p, h⟩ := okOf h
  obtain ⟨h1, h2⟩ := flatCheck_sound (root := nxdlXsd 705) (ex := s%"definitionType")
    (by decide +kernel)
  exact ⟨p, _, Prod.ext h rfl, (manager_type_elements_partial nxdlXsd_refs
    (h1 _ (by decide)) (Prod.ext h rfl)).1⟩

/-- `<xs:attribute name="units" use="required"/>` -/
def caseAttr : XsNode := .elem true s%"attribute" 1 [(s%"name", s%"units"), (s%"use", s%"required")] []

example : ∃ x, readAttr caseAttr = .ok x ∧ MeansAttr caseAttr x := by
  obtain ⟨x, h⟩ := (attribute_read_iff caseAttr).2 (by simp [caseAttr, XsNode.attrib, Dict.get?])
  exact ⟨x, h, attribute_describes h⟩

example : ∃ o s', newManager 20 xsdInt (fun _ _ => true) (some smallXsd) (some nxTypesXsd) {} =
    (.ok o, s') ∧ ∃ n t, smallXsd.select s%"element" = [n] ∧
      Dict.get? n.attrib s%"type" = some t := by
  have h : (newManager 20 xsdInt (fun _ _ => true) (some smallXsd) (some nxTypesXsd) {}).1.toBool =
      true := by decide +kernel
  obtain ⟨o, h⟩ := okOf h
  obtain ⟨n, t, h1, h2, _⟩ := definition_elements_partial (s' := (newManager 20 xsdInt (fun _ _ => true) (some smallXsd) (some nxTypesXsd) {}).2) (refsCheck_sound (by decide +kernel))
    (Prod.ext h rfl)
  exact ⟨o, _, Prod.ext h rfl, n, t, h1, h2⟩

/-! ## `nxdlTypes.xsd` -/

theorem case_types : ∃ db, parseNxTypes (some newTypesXsd) = .ok (db, [s%"NX_ANGLE", s%"NX_ANY"]) :=
  ⟨_, rfl⟩

example := (types_read_iff newTypesXsd).1 (case_types.elim fun _ h => ⟨_, h⟩)
example : ∃ db : Dict Str NxType, ∃ o, Dict.get? db s%"NX_BOOLEAN" = some o := by
  obtain ⟨db, h⟩ := case_types
  refine ⟨db, ((types_known h s%"NX_BOOLEAN").1).2 ⟨⟨_,
    ⟨List.mem_of_getElem? (i := 3) rfl, nofun, by decide⟩, rfl⟩, by decide, by decide⟩⟩

example : ∃ v, v = s%"NX_ANY" ∧ v ∈ [s%"NX_ANGLE", s%"NX_ANY"] := by
  obtain ⟨db, h⟩ := case_types
  refine ⟨_, rfl, (units_listed_partial h (n := newTypesXsd.kids[1]) (c := newTypesXsd.kids[1].kids[1])
    ⟨List.mem_of_getElem? (i := 1) rfl, nofun, by decide⟩ rfl ?_ rfl (by decide) _).2
    ⟨_, List.mem_of_getElem? (i := 1) rfl, rfl⟩⟩
  rintro m ⟨hm, _, _⟩ hk
  simp only [newTypesXsd, XsNode.kids, List.mem_cons, List.not_mem_nil, or_false] at hm
  rcases hm with rfl | rfl | rfl | rfl
  · cases hk
  · rfl
  · exact absurd (show some s%"primitiveType" = some s%"anyUnitsAttr" from hk) (by decide)
  · exact absurd (show some s%"NX_BOOLEAN" = some s%"anyUnitsAttr" from hk) (by decide)

/-! ## one process -/

/-- the process of the cases -/
abbrev caseProc : Proc := afterAll easyLib [.list smallSets] {}

theorem case_named : ∃ m p', nxdlManager easyLib smallSets (.named s%"v1") caseProc = (.ok m, p') := by
  have h : (nxdlManager easyLib smallSets (.named s%"v1") caseProc).1.toBool = true := by
    decide +kernel
  obtain ⟨m, h⟩ := okOf h
  exact ⟨m, _, Prod.ext h rfl⟩

example : ∃ m p', nxdlManager easyLib smallSets (.named s%"v1") caseProc = (.ok m, p') ∧
    p'.default = some m.fileSet ∧ (∃ o, p'.objs[m.fileSet]? = some o ∧
      AcceptsAll easyLib (smallSets.dir o.info.path)) ∧
    ∃ o d, p'.objs[m.fileSet]? = some o ∧
      readDefaults easyLib (smallSets.dir o.info.path) = .ok d := by
  obtain ⟨m, p', h⟩ := case_named
  obtain ⟨o, d, _, h1, h2, _⟩ := manager_definitions h
  exact ⟨m, p', h, manager_is_default (arg := .named s%"v1") trivial h,
    own_schema_partial (xs := [.list smallSets]) (arg := .named s%"v1") (by simp [Doing.disks]) trivial h, o, d, h1, h2⟩

example : ∃ m p' f o, nxdlManager easyLib smallSets (.named s%"v1") caseProc = (.ok m, p') ∧
    Dict.get? caseProc.infos s%"v1" = some f ∧ p'.objs[m.fileSet]? = some o ∧ o.info = f := by
  obtain ⟨m, p', h⟩ := case_named
  have hf : (Dict.get? caseProc.infos s%"v1").isSome = true := by decide +kernel
  obtain ⟨f, hf⟩ := Option.isSome_iff_exists.1 hf
  obtain ⟨o, h1, h2⟩ := named_manager (xs := [.list smallSets]) rfl (by decide +kernel) hf h
  exact ⟨m, p', f, o, h, hf, h1, h2⟩

theorem case_cache : ∃ p, cacheManager smallSets {} = (.ok (), p) := by
  have h : (cacheManager smallSets {}).1.toBool = true := by decide +kernel
  obtain ⟨m, h⟩ := okOf h
  exact ⟨_, Prod.ext h rfl⟩

example : ∃ sets k f, allFileSets smallSets.source smallSets.user = .ok sets ∧ Latest sets k f := by
  obtain ⟨p, h⟩ := case_cache
  have h2 : (nxdlManager easyLib smallSets .latest
      (afterAll easyLib [.manager smallSets .latest] (cacheManager smallSets {}).2)).1.toBool = true := by
    decide +kernel
  rw [h] at h2
  obtain ⟨m, h2⟩ := okOf h2
  obtain ⟨sets, k, f, o, h3, h4, _⟩ := unnamed_latest_partial (xs := [.manager smallSets .latest])
    h (by simp [Doing.Unnamed]) (Prod.ext h2 rfl)
  exact ⟨sets, k, f, h3, h4⟩

example := default_kept (lib := easyLib) (xs := [.manager smallSets .latest, .list smallSets])
  (p := caseProc) (by decide +kernel) (by simp [Doing.Unnamed])

example : ∃ p : Proc, allFileSets smallSets.source smallSets.user = .ok p.infos := by
  have h : (readSets smallSets {}).1.toBool = true := by decide +kernel
  obtain ⟨_, p, h⟩ := pairOf h
  exact ⟨p, (readSets_infos h).2.1⟩

/-! ## one command -/

theorem small_has {f : FileSet} (h : smallSets.dir f.path = smallDir [dataNxdl]) :
    HasDefinitions (smallSets.dir f.path) := by
  rw [h]
  exact ⟨.baseClasses, _, dataNxdl, rfl, List.mem_singleton_self _, ⟨s%"NXdata", rfl⟩⟩

example : ∃ m p', ∃ z : SchemaObj, commandLoad easyLib smallSets s%"v1" {} = (.ok m, p') ∧
    OwnManager easyLib (smallDir [dataNxdl]) z.own := by
  obtain ⟨sets, f, h1, h2, h3, h4⟩ := small_listed
  have h5 : (commandLoad easyLib smallSets s%"v1" {}).1.toBool = true := by decide +kernel
  obtain ⟨m, p, h5⟩ := pairOf h5
  obtain ⟨f', so, h6, _, h7⟩ := command_schema h1 h2 h5
  rw [h3] at h6
  injection h6 with h6
  subst h6
  obtain ⟨z, _, h7⟩ := h7 (small_has h4)
  rw [h4] at h7
  exact ⟨m, p, z, h5, h7⟩

example : ∃ mgr, OwnDefinitions easyLib (fun _ => nxClassPat) (smallDir [dataNxdl]) mgr := by
  obtain ⟨sets, f, h1, h2, h3, h4⟩ := small_listed
  have h5 : (commandLoad easyLib smallSets s%"v1" {}).1.toBool = true := by decide +kernel
  obtain ⟨m, p, h5⟩ := pairOf h5
  have := (command_manager (lib := easyLib) (pattern := fun _ => nxClassPat)
    (mgr := m.view _ p) h1 h2 h3 (small_has h4)).1 (by rw [h5])
  rw [h4] at this
  exact ⟨_, this⟩

/-- `punx validate --file_set_name v1 --report error n.h5` -/
abbrev caseCall : ValidateArgs := ⟨s%"n.h5", some s%"v1", s%"error"⟩

example (h : (funcValidate (commandWorld easyLib (fun _ => nxClassPat) smallSets sampleEnv
      sampleWorld.files (fun c => [c]) id) caseCall).res = .ok ()) :
    ∃ f mgr, OwnDefinitions easyLib (fun _ => nxClassPat) (smallSets.dir f) mgr ∧
      (validateOpen sampleEnv mgr [] nameFile).res = .ok () := by
  obtain ⟨sets, f, h1, h2, h3, h4⟩ := small_listed
  obtain ⟨_, _, ref, f', mgr, file, _, _, h5, h6, h7⟩ := (command_validates_iff h1 h2
    (by
      intro ref f' e1 e2
      injection e1 with e1
      subst e1
      rw [h3] at e2
      injection e2 with e2
      subst e2
      exact small_has h4)
    (by unfold PlainAscii; decide)).1 h
  rw [show sampleWorld.files caseCall.infile = .hdf5 nameFile from rfl] at h6
  injection h6 with h6
  subst h6
  exact ⟨_, mgr, h5, h7⟩

/-! ## name patterns -/

theorem small_names : DeclaresNames smallXsd s%"validItemName" s%"token" [s%"[A-Za-z_][\\w_]*"] none :=
  ⟨[], _, [], _, s%"xs:token", rfl, rfl, nofun, rfl, rfl, by unfold WithoutPrefix; exact ⟨by decide, .inr ⟨s%"xs", rfl⟩⟩,
    rfl, rfl⟩

theorem small_token : ¬ NameType smallXsd s%"token" := fun h => absurd h.1 (by decide)

/-- `smallXsd`, and class names begin with `NX` -/
def twoNames : XsNode :=
  .elem true s%"schema" 1 [] (.elem true s%"simpleType" 50 [(s%"name", s%"validNXClassName")] [
    .elem true s%"restriction" 51 [(s%"base", s%"nx:validItemName")] [
      .elem true s%"pattern" 52 [(s%"value", s%"NX.+")] [],
      .elem true s%"maxLength" 53 [(s%"value", s%"63")] []]] :: smallXsd.kids)

example : ∃ own, (∃ s', newManager 20 xsdInt (fun _ _ => true) (some twoNames) (some nxTypesXsd) {} = (.ok own, s')) ∧
    Dict.get? own.patterns s%"validNXClassName" =
      some ⟨s%"token", [s%"NX.+", s%"[A-Za-z_][\\w_]*"], -1⟩ := by
  obtain ⟨own, s', h⟩ := pairOf
    (x := newManager 20 xsdInt (fun _ _ => true) (some twoNames) (some nxTypesXsd) {}) (by decide +kernel)
  refine ⟨own, ⟨s', h⟩, ((manager_patterns h).2 (base := s%"validItemName") (by decide)
    ⟨[], _, _, _, s%"nx:validItemName", rfl, rfl, ?_, rfl, rfl,
      by unfold WithoutPrefix; exact ⟨by decide, .inr ⟨s%"nx", rfl⟩⟩, rfl, rfl⟩).2
    (base₂ := s%"token") (ps₂ := [s%"[A-Za-z_][\\w_]*"]) (n₂ := none) (by decide)
    ⟨[_], _, [], _, s%"xs:token", rfl, rfl, nofun, rfl, rfl,
      by unfold WithoutPrefix; exact ⟨by decide, .inr ⟨s%"xs", rfl⟩⟩, rfl, rfl⟩
    fun h => absurd h.1 (by decide)⟩
  decide

example : ∃ mgr, OwnDefinitions easyLib (fun _ => nxClassPat) (smallDir [dataNxdl]) mgr ∧
    mgr.itemPats = some [nxClassPat] ∧ mgr.classPats = none := by
  obtain ⟨sets, f, h1, h2, h3, h4⟩ := small_listed
  have h5 : (commandLoad easyLib smallSets s%"v1" {}).1.toBool = true := by decide +kernel
  obtain ⟨m, p, h5⟩ := pairOf h5
  have h6 := (command_manager (lib := easyLib) (pattern := fun _ => nxClassPat)
    (mgr := m.view _ p) h1 h2 h3 (small_has h4)).1 (by rw [h5])
  rw [h4] at h6
  obtain ⟨_, g2, g3⟩ := command_patterns h6 (root := smallXsd) rfl
  refine ⟨_, h6, (g3 small_names small_token).1, g2.2 ?_⟩
  rintro ⟨_, t, ht, h⟩
  revert t
  decide

end Punx

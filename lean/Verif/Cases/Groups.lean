import Verif.Cases.Names
import Verif.Props.Group4
import Verif.Props.AppDef

/-!
# Cases for C21–C26, C62
-/

namespace Punx
open Spec

/-! ## groups: `/e` of `groupFile`, an NXentry with the attribute `default` -/

/-- the item of `/e` -/
abbrev entryItem : Item := itemAt groupFile 3 (by decide +kernel)

/-- its group -/
def entryGroup : Node := entryItem.obj.asGroup.getD default

theorem entryItem_group : entryItem.obj.asGroup = some entryGroup := by rfl

theorem entryItem_nexus : entryItem.classpath ≠ s%"non-NeXus content" := fun h =>
  absurd (congrArg List.length h) (by decide)

theorem entryItem_class : GroupClass sampleEnv entryItem.classpath entryGroup.attrs s%"NXentry" :=
  .inr ⟨fun h => absurd (congrArg List.length h) (by decide), by rfl⟩

theorem entry_default : (s%"default", Val.str s%"zz") ∈ entryGroup.attrs := by
  show _ ∈ [_, _, _]
  simp

/-- the definition of NXentry -/
def entryDef : ClassDef := (Dict.get? sampleMgr.classes s%"NXentry").getD default

theorem entryDef_known : Dict.get? sampleMgr.classes s%"NXentry" = some entryDef := by rfl

example := usedAsBaseClass_spec sampleMgr s%"NXentry"
example := class_verdict groupFile_ok groupFile_named itemAt_mem entryItem_nexus entryItem_group
  entryItem_class
example := group_findings_run groupFile_ok
example := addressed_groups (validateOpen_ok_iff.1 groupFile_ok).1 groupFile_named
example := attribute_known_ok groupFile_ok groupFile_named itemAt_mem entryItem_nexus
  entryItem_group entryItem_class entryDef_known entry_default
example := members_reported groupFile_ok groupFile_named itemAt_mem entryItem_nexus
  entryItem_group entryItem_class entryDef_known
example := attribute_enumeration groupFile_ok groupFile_named itemAt_mem entryItem_nexus
  entryItem_group entryItem_class entryDef_known entry_default
example := defined_content groupFile_ok groupFile_named itemAt_mem entryItem_nexus
  entryItem_group entryItem_class entryDef_known
example := attribute_value groupFile_ok groupFile_named itemAt_mem entryItem_nexus
  entryItem_group entryItem_class entryDef_known entry_default

/-- a finding on the undefined field `mine` -/
theorem mine_found : ∃ x ∈ findings (validateOpen sampleEnv sampleMgr [] groupFile).log,
    x.test = s%"field in base class" ∧ x.addr = some s%"/e/mine" := by decide +kernel

example : ∃ x ∈ findings (validateOpen sampleEnv sampleMgr [] groupFile).log, x.status = .ok := by
  obtain ⟨x, hx, ht, _⟩ := mine_found
  have := member_comment groupFile_ok hx (.inl ht)
  exact ⟨x, hx, undefined_never_error groupFile_ok hx (.inr (.inl ht))⟩

/-! ## application definitions: `/e` of `sasFile` declares NXsas -/

example := app_findings_run sasFile_ok

theorem sasFile_declares : ∃ it ∈ definers sampleEnv sasFile, ∃ p g, it.parent = some p ∧
    p.obj.asGroup = some g ∧ Declares sampleEnv sasFile g s%"NXsas" :=
  ⟨(catalog sampleEnv sasFile).log[3], mem_definers.2 ⟨List.getElem_mem _, .inl rfl⟩, _, _, rfl,
    rfl, ⟨_, _, _, rfl, .inl (.inl (.inl rfl))⟩⟩

example : ∃ a, (a, s%"known NXDL", Status.ok) ∈
    report (validateOpen sampleEnv sampleMgr [] sasFile).log := by
  obtain ⟨it, hit, p, g, hp, hg, hd⟩ := sasFile_declares
  exact ⟨_, ((declared_definition_verdict sasFile_ok hit hp hg hd).2 _ rfl).1⟩

example : ∃ g, (some (g ++ s%"@None"), s%"NXDL field", Status.error) ∈
    report (validateOpen sampleEnv sampleMgr [] sasFile).log := by
  obtain ⟨g, fld, hr, _, hn⟩ := sasFile_requires
  rcases required_field_verdict sasFile_ok hr with ⟨n, h, _⟩ | ⟨_, _, h⟩
  · rw [hn] at h
    cases h
  · exact ⟨_, h⟩

/-- NXsas requires a field `mode` of two values. -/
theorem sasFile_requires_mode : ∃ g fld, Requires sampleEnv modeMgr sasFile g fld ∧
    fld.2.enums ≠ [] ∧ h5get sasFile g fld.1 = .ok none := by
  refine ⟨_, (s%"mode", { enums := [some s%"a", some s%"b"] }), ⟨(catalog sampleEnv sasFile).log[3], ?_, _, rfl,
    rfl, s%"NXsas", _, _, _, _, ⟨_, _, _, rfl, .inl (.inl (.inl rfl))⟩, rfl, rfl, ?_⟩, by simp, rfl⟩
  · exact mem_definers.2 ⟨List.getElem_mem _, .inl rfl⟩
  · exact List.mem_cons_self

example : (validateOpen sampleEnv modeMgr [] sasFile).res ≠ .ok () := by
  obtain ⟨g, fld, hr, he, hn⟩ := sasFile_requires_mode
  exact enumerated_field_absent_stops hr he hn

end Punx

import Verif.Props.Process6
import Verif.Props.Cli

/-!
# A set that `punx validate` can read
-/

namespace Punx
open Spec

/-- A small `nxdl.xsd`, with the parts that both readers of schemas need. -/
def smallXsd : XsNode :=
 .elem true s%"schema" 1 [] [
  .elem true s%"element" 2 [(s%"name", s%"definition"), (s%"type", s%"nx:definitionType")] [],
  .elem true s%"simpleType" 3 [(s%"name", s%"validItemName")] [
   .elem true s%"restriction" 4 [(s%"base", s%"xs:token")] [
    .elem true s%"pattern" 5 [(s%"value", s%"[A-Za-z_][\\w_]*")] []]],
  .elem true s%"complexType" 6 [(s%"name", s%"definitionType")] [
   .elem true s%"sequence" 7 [] [
    .elem true s%"element" 8 [(s%"name", s%"symbols"), (s%"type", s%"nx:docType")] [],
    .elem true s%"group" 9 [(s%"ref", s%"nx:groupGroup")] []]],
  .elem true s%"complexType" 10 [(s%"name", s%"groupType")] [
   .elem true s%"group" 11 [(s%"ref", s%"nx:groupGroup")] [],
   .elem true s%"attribute" 12 [(s%"name", s%"minOccurs"), (s%"default", s%"0")] []],
  .elem true s%"group" 13 [(s%"name", s%"groupGroup")] [
   .elem true s%"sequence" 14 [] [
    .elem true s%"element" 15 [(s%"name", s%"doc"), (s%"type", s%"nx:docType")] [],
    .elem true s%"element" 16 [(s%"name", s%"attribute"), (s%"type", s%"nx:attributeType")] [],
    .elem true s%"element" 17 [(s%"name", s%"group"), (s%"type", s%"nx:groupType")] [],
    .elem true s%"element" 18 [(s%"name", s%"field"), (s%"type", s%"nx:fieldType")] [],
    .elem true s%"element" 19 [(s%"name", s%"link"), (s%"type", s%"nx:linkType")] []]],
  .elem true s%"complexType" 20 [(s%"name", s%"fieldType")] [
   .elem true s%"sequence" 26 [] [
    .elem true s%"element" 27 [(s%"name", s%"dimensions"), (s%"type", s%"nx:dimensionsType")] []],
   .elem true s%"attribute" 21 [(s%"name", s%"minOccurs"), (s%"default", s%"0")] []],
  .elem true s%"complexType" 28 [(s%"name", s%"dimensionsType")] [
   .elem true s%"sequence" 29 [] [
    .elem true s%"element" 30 [(s%"name", s%"dim"), (s%"type", s%"nx:docType")] []]],
  .elem true s%"complexType" 22 [(s%"name", s%"attributeType")] [
   .elem true s%"attribute" 23 [(s%"name", s%"optional"), (s%"default", s%"true")] []],
  .elem true s%"complexType" 24 [(s%"name", s%"linkType")] [],
  .elem true s%"complexType" 25 [(s%"name", s%"docType")] []]

/-- With `nxdlTypes.xsd` and definitions. -/
def smallDir (defs : List NxdlFile) : SetDir :=
  ⟨true, some smallXsd, some nxTypesXsd, fun c => some (match c with
    | .baseClasses => defs
    | _ => [])⟩

/-- One definition. -/
def dataNxdl : NxdlFile := ⟨s%"NXdata.nxdl.xml", some optionalDoc⟩

/-- Both sets have this schema; `v1` has a definition. -/
def smallSets : Disks := twoDirs (smallDir [dataNxdl]) (smallDir [])

/-- Everything is accepted. -/
def easyLib : Lib := ⟨20, xsdInt, fun _ _ => true, fun _ _ _ => true⟩

theorem small_listed : ∃ sets f, allFileSets smallSets.source smallSets.user = .ok sets ∧
    (∀ kv ∈ sets, WellDescribed kv.2) ∧ Dict.get? sets s%"v1" = some f ∧
    smallSets.dir f.path = smallDir [dataNxdl] := by
  refine ⟨_, _, rfl, ?_, rfl, rfl⟩
  have h : ((allFileSets smallSets.source smallSets.user).toOption.getD []).all
      (fun kv => kv.2.lastModified.isSome && kv.2.sha.isSome) = true := by decide +kernel
  intro kv hkv
  have := List.all_eq_true.1 h kv hkv
  simp only [Bool.and_eq_true, Option.isSome_iff_ne_none] at this
  exact this

theorem small_loads : errorOf (commandLoad easyLib smallSets s%"v1" {}).1 = none := by
  decide +kernel

/-- The hypotheses of the theorems can be met: the set can be read. -/
example : ∃ sets f cl ds, allFileSets smallSets.source smallSets.user = .ok sets ∧
    Dict.get? sets s%"v1" = some f ∧ HasDefinitions (smallSets.dir f.path) ∧
    ReadsTo easyLib (smallSets.dir f.path) cl ds := by
  obtain ⟨sets, f, h1, h2, h3, h4⟩ := small_listed
  have h5 := small_loads
  cases h6 : commandLoad easyLib smallSets s%"v1" {} with
  | mk r p =>
    cases r with
    | error e => rw [h6] at h5; cases h5
    | ok m =>
      obtain ⟨f', h7, h8⟩ := (command_load_iff h1 h2).1 ⟨m, p, h6, rfl, rfl⟩
      rw [h3] at h7
      injection h7 with h7
      subst h7
      refine ⟨sets, f, _, _, h1, h3, ?_, h8⟩
      rw [h4]
      exact ⟨.baseClasses, [dataNxdl], dataNxdl, rfl, by simp, s%"NXdata", rfl⟩

/-- **C89.** When a set can be read: all definitions in it are accepted by its schema, and make sense. -/
theorem set_readable_iff {lib : Lib} {d : SetDir} {s : Defaults}
    (hs : readDefaults lib d = .ok (some s)) (hd : Declared s) :
    (∃ cl ds, ReadsTo lib d cl ds) ↔
      d.here = true ∧ (∀ c, (d.listing c).isSome) ∧
      (HasDefinitions d → ∃ own, OwnManager lib d own) ∧
      ∀ c fs f, d.listing c = some fs → f ∈ fs → IsNxdl f →
        ∃ xsd x, d.xsd = some xsd ∧ f.content = some x ∧ lib.accepts xsd d.types x = true ∧
          GoodDocument x := by
  obtain ⟨xsd, hx⟩ : ∃ xsd, d.xsd = some xsd := by
    unfold readDefaults at hs
    cases hx : d.xsd with
    | none => rw [hx] at hs; cases hs
    | some x => exact ⟨x, rfl⟩
  have hacc : ∀ x, acceptedBy lib d x = lib.accepts xsd d.types x := by
    intro x
    unfold acceptedBy
    rw [hx]
  have hload := load_succeeds_iff (valid := acceptedBy lib d) (dir := ⟨true, some s, d.listing⟩) rfl hd
  constructor
  · rintro ⟨cl, ds, h1, h2, s', h3, h4⟩
    rw [hs] at h3
    injection h3 with h3
    subst h3
    obtain ⟨_, h5, h6⟩ := hload.1 ⟨_, h4⟩
    refine ⟨h1, h5, h2, fun c fs f a1 a2 a3 => ?_⟩
    obtain ⟨x, b1, b2, b3⟩ := h6 c fs f a1 a2 a3
    exact ⟨xsd, x, hx, b1, hacc x ▸ b2, b3⟩
  · rintro ⟨h1, h2, h3, h4⟩
    obtain ⟨⟨cl, ds⟩, h5⟩ := hload.2 ⟨rfl, h2, fun c fs f a1 a2 a3 => by
      obtain ⟨xsd', x, b1, b2, b3, b4⟩ := h4 c fs f a1 a2 a3
      rw [hx] at b1
      injection b1 with b1
      subst b1
      exact ⟨x, b2, (hacc x).trans b3, b4⟩⟩
    exact ⟨cl, ds, h1, h3, some s, hs, h5⟩

example : ∃ s, readDefaults easyLib (smallDir [dataNxdl]) = .ok (some s) ∧ Declared s := by
  have h : ((readDefaults easyLib (smallDir [dataNxdl])).toOption.bind id).any (fun s =>
      s.attrOptional.isSome && s.fieldMinOccurs.isSome && s.groupMinOccurs.isSome &&
      (s.dimensions && s.dim)) = true := by
    decide +kernel
  cases hr : readDefaults easyLib (smallDir [dataNxdl]) with
  | error e => rw [hr] at h; cases h
  | ok o =>
    rw [hr] at h
    cases o with
    | none => cases h
    | some s =>
      simp only [Except.toOption, Option.bind_some, id, Option.any_some, Bool.and_eq_true] at h
      exact ⟨s, rfl, h.1.1.1, h.1.1.2, h.1.2, h.2⟩

/-! ## managers in one process -/

/-- Managers by name and without a name can be made for this set, after the sets were listed. -/
example : errorOf (nxdlManager easyLib smallSets (.named s%"v1")
      (afterAll easyLib [.list smallSets] {})).1 = none ∧
    errorOf (nxdlManager easyLib smallSets .latest
      (afterAll easyLib [.list smallSets, .manager smallSets (.named s%"v1")] {})).1 = none := by
  decide +kernel

/-- The schema of the set has been read by then. -/
example : (((afterAll easyLib [.list smallSets, .manager smallSets (.named s%"v1")] {}).objs[2]?).bind
    fun o => o.schema.map fun _ => o.info.path) = some s%"/x/punx/cache/v1" := by
  decide +kernel

/-- C88 is false for sets: the schema of a set is read again after the sets have been listed, which
makes new objects for them. -/
theorem listing_rereads :
    ((afterAll easyLib [.list smallSets, .manager smallSets (.named s%"v1"), .list smallSets,
        .manager smallSets (.named s%"v1")] {}).objs.filterMap fun o =>
      o.schema.map fun _ => o.info.path) = [s%"/x/punx/cache/v1", s%"/x/punx/cache/v1"] := by
  decide +kernel

/-! ## the command -/

/-- What `punx validate` works with. -/
theorem command_manager {lib : Lib} {pattern : Str → Pat} {w : Disks} {sets : Dict Str FileSet}
    (hs : allFileSets w.source w.user = .ok sets) (hw : ∀ kv ∈ sets, WellDescribed kv.2)
    {ref : Str} {f : FileSet} (hf : Dict.get? sets ref = some f)
    (hd : HasDefinitions (w.dir f.path)) {mgr : Manager} :
    (match commandLoad lib w ref {} with
      | (.ok m, p) => Except.ok (m.view pattern p)
      | (.error e, _) => .error e) = .ok mgr ↔ OwnDefinitions lib pattern (w.dir f.path) mgr := by
  have hview : ∀ {m : ManagerObj} {p : Proc} {ds : Defaults} {z : SchemaObj},
      m.defaults = some ds → p.objs[m.fileSet]? = some ⟨f, some z⟩ →
      (m.view pattern p).itemPats = patternsOf pattern z.own s%"validItemName" ∧
      (m.view pattern p).classPats = patternsOf pattern z.own s%"validNXClassName" ∧
      ((m.view pattern p).fieldMinOccursIsOne = none ↔ ds.fieldMinOccurs = none) ∧
      ((m.view pattern p).fieldMinOccursIsOne = some true ↔
        ∃ v, ds.fieldMinOccurs = some v ∧ IsOne v) := by
    intro m p ds z h1 h2
    unfold ManagerObj.view patternsOf
    dsimp only
    rw [h1, h2]
    refine ⟨?_, ?_, ?_, ?_⟩
    · change (Dict.get? z.own.patterns s%"validItemName" >>= fun q => pure (q.reList.map pattern)) = _
      cases Dict.get? z.own.patterns s%"validItemName" <;> rfl
    · change (Dict.get? z.own.patterns s%"validNXClassName" >>= fun q => pure (q.reList.map pattern)) = _
      cases Dict.get? z.own.patterns s%"validNXClassName" <;> rfl
    · change ds.fieldMinOccurs.map DefVal.isOne = none ↔ _
      cases ds.fieldMinOccurs <;> simp
    · change ds.fieldMinOccurs.map DefVal.isOne = some true ↔ _
      cases ds.fieldMinOccurs with
      | none => simp
      | some v => simp [isOne_iff]
  have hsome : ∀ {cl : Dict Str ClassDef} {o : Option Defaults}, ReadsTo lib (w.dir f.path) cl o →
      ∃ ds, o = some ds := by
    rintro cl o ⟨_, _, s, h1, h2⟩
    cases s with
    | some d =>
      obtain ⟨_, d', _, _, h⟩ := loadClasses_ok (dir := ⟨true, some d, _⟩) rfl h2
      exact ⟨d', h⟩
    | none =>
      exfalso
      unfold loadClasses at h2
      rw [if_pos rfl] at h2
      cases hl : nxdlFileList ⟨true, none, (w.dir f.path).listing⟩ with
      | error e => rw [hl] at h2; cases h2
      | ok l =>
        have hne : l ≠ [] := fun h => ((fileList_nil_iff hl).1 h) hd
        obtain ⟨q, l, rfl⟩ := List.exists_cons_of_ne_nil hne
        rw [hl] at h2
        cases h2
  constructor
  · intro h
    cases hc : commandLoad lib w ref {} with
    | mk r p =>
      rw [hc] at h
      cases r with
      | error e => cases h
      | ok m =>
        injection h with h
        subst h
        obtain ⟨f', h1, h2⟩ := (command_load hs hw).1 m p hc rfl rfl
        obtain ⟨f'', so, h3, h4, h5⟩ := command_schema hs hw hc
        rw [hf] at h1 h3
        injection h1 with h1
        injection h3 with h3
        subst h1 h3
        obtain ⟨z, rfl, hown⟩ := h5 hd
        obtain ⟨ds, hds⟩ := hsome h2
        obtain ⟨v1, v2, v0, v3⟩ := hview hds h4
        exact ⟨⟨ds, hds ▸ h2, v0, v3⟩, ⟨z.own, hown, v1, v2⟩⟩
  · rintro ⟨⟨ds, h1, h0, h2⟩, own, h3, h4, h5⟩
    obtain ⟨m, p, g1, g2, g3, so, g4, g5⟩ := (command_load hs hw).2 f hf h1
    obtain ⟨z, rfl, hown⟩ := g5 hd
    rw [g1]
    dsimp only
    obtain ⟨v1, v2, v0, v3⟩ := hview g3 g4
    have e : z.own = own := by
      obtain ⟨_, h3⟩ := h3
      obtain ⟨_, hown⟩ := hown
      rw [h3] at hown
      injection hown with hown _
      injection hown with hown
      exact hown.symm
    rw [e] at v1 v2
    congr 1
    have e1 := v1.trans h4.symm
    have e2 := v2.trans h5.symm
    have e3 : (m.view pattern p).fieldMinOccursIsOne = mgr.fieldMinOccursIsOne := by
      have k0 := v0.trans h0.symm
      have k1 := v3.trans h2.symm
      cases q : (m.view pattern p).fieldMinOccursIsOne with
      | none => exact (k0.1 q).symm
      | some b =>
        cases q' : mgr.fieldMinOccursIsOne with
        | none => rw [k0.2 q'] at q; cases q
        | some b' =>
          rw [q, q'] at k1
          cases b <;> cases b' <;> simp_all
    have e4 : (m.view pattern p).classes = mgr.classes := g2
    cases hv : m.view pattern p with
    | mk a b c d =>
      rw [hv] at e1 e2 e3 e4
      cases mgr
      dsimp only at e1 e2 e3 e4
      rw [e1, e2, e3, e4]

/-- **C89.** `punx validate` ends normally exactly if the options are known, the set that was asked for
is there and can be read with its own schema, and the data file is an HDF5 file whose validation against
these definitions runs to its end. -/
theorem command_validates_iff {lib : Lib} {pattern : Str → Pat} {w : Disks} {env : Env}
    {files : Str → FileState} {upper : Char → Str} {abspath : Str → Str} {sets : Dict Str FileSet}
    (hs : allFileSets w.source w.user = .ok sets) (hw : ∀ kv ∈ sets, WellDescribed kv.2)
    {a : ValidateArgs} (hd : ∀ ref f, a.fileSet = some ref → Dict.get? sets ref = some f →
      HasDefinitions (w.dir f.path))
    (ha : PlainAscii a.report) :
    (funcValidate (commandWorld lib pattern w env files upper abspath) a).res = .ok () ↔
      AllKnown a.report ∧ ¬ s%".nxdl.xml" <:+ a.infile ∧
      ∃ ref f mgr file, a.fileSet = some ref ∧ Dict.get? sets ref = some f ∧
        OwnDefinitions lib pattern (w.dir f.path) mgr ∧ files a.infile = .hdf5 file ∧
        (validateOpen env mgr [] file).res = .ok () := by
  rw [validate_succeeds_iff ha]
  constructor
  · rintro ⟨h1, ref, mgr, file, ⟨r1, r2, sets', r3, s, r4⟩, h3, h4, h5⟩
    rw [show (commandWorld lib pattern w env files upper abspath).sets =
      allFileSets w.source w.user from rfl, hs] at r3
    injection r3 with r3
    subst r3
    obtain ⟨f, hf⟩ : ∃ f, Dict.get? sets ref = some f := by
      have : ref ∈ Dict.keys sets := List.mem_map.2 ⟨_, r4, rfl⟩
      rw [← Dict.has_iff] at this
      cases hf : Dict.get? sets ref with
      | none => simp [Dict.has, hf] at this
      | some f => exact ⟨f, rfl⟩
    exact ⟨h1, r1, ref, f, mgr, file, r2, hf,
      (command_manager hs hw hf (hd _ _ r2 hf)).1 h3, h4, h5⟩
  · rintro ⟨h1, r1, ref, f, mgr, file, r2, hf, h3, h4, h5⟩
    exact ⟨h1, ref, mgr, file, ⟨r1, r2, sets, hs, f, Dict.mem_of_get? hf⟩,
      (command_manager hs hw hf (hd _ _ r2 hf)).2 h3, h4, h5⟩

end Punx

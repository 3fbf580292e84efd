import Verif.Props.NxdlParse4

/-!
# C49–C51, C75, C76: concrete cases and the violation of C51
-/

namespace Punx
open Spec

/-- `<field name="n" .../>` -/
def fieldX (n : Str) (opts : Dict Str Str := []) : Xml :=
  .elem true s%"field" ((s%"name", n) :: opts) []

/-- `<group type="t">...</group>` -/
def groupX (t : Str) (kids : List Xml) : Xml := .elem true s%"group" [(s%"type", t)] kids

/-- `<link name="n" target="t"/>` -/
def linkX (n t : Str) : Xml := .elem true s%"link" [(s%"name", n), (s%"target", t)] []

/-- A definition with clashing names: a group `data`, three fields, a link. -/
def clashingDoc : Xml :=
  .elem true s%"definition" []
    [.comment, groupX s%"NXdata" [fieldX s%"x", fieldX s%"x"],
     fieldX s%"data", fieldX s%"data2", fieldX s%"data", linkX s%"data" s%"/entry"]

/-- defaults declared by the schemas shipped with punx -/
def shippedDefaults : Defaults :=
  { attrOptional := some (.text s%"true"), fieldMinOccurs := some (.text s%"0"),
    groupMinOccurs := some (.text s%"0"), dimensions := true, dim := true }

example : ((readDefinition s%"NXx" .baseClasses clashingDoc).run shippedDefaults).toOption.map
    (fun r => (Dict.keys r.1.groups, Dict.keys r.1.fields, Dict.keys r.1.links,
      (Dict.values r.1.groups).map (fun g => Dict.keys g.fields))) =
    some ([s%"data"], [s%"data1", s%"data2", s%"data3"], [s%"data4"], [[s%"x", s%"x1"]]) := by
  decide +kernel

/-- The third `data` skips `data2`, which is taken. -/
example : Named [s%"data", s%"data1", s%"data2"] [s%"data"] [s%"data3"] :=
  named_unique [s%"data", s%"data1", s%"data2"] s%"data"

theorem clashing_lawful : Lawful clashingDoc := by
  refine .elem (by simp [Dict.keys]) ?_
  intro x hx
  simp only [List.mem_cons, List.not_mem_nil, or_false] at hx
  rcases hx with rfl | rfl | rfl | rfl | rfl | rfl
  · exact .comment
  · refine .elem (by simp [Dict.keys]) ?_
    intro y hy
    simp only [List.mem_cons, List.not_mem_nil, or_false] at hy
    rcases hy with rfl | rfl <;>
      exact .elem (by simp [Dict.keys]) (by simp)
  · exact .elem (by simp [Dict.keys]) (by simp)
  · exact .elem (by simp [Dict.keys]) (by simp)
  · exact .elem (by simp [Dict.keys]) (by simp)
  · exact .elem (by simp [Dict.keys]) (by simp)

theorem clashing_good : GoodDocument clashingDoc := by
  have := document_readable_iff (title := s%"NXx") (c := .baseClasses) (root := clashingDoc)
    (d := shippedDefaults) ⟨rfl, rfl, rfl, rfl, rfl⟩
  refine this.1 ?_
  generalize hr : readDefinition s%"NXx" .baseClasses clashingDoc shippedDefaults = r
  cases r with
  | ok p => exact ⟨p.1, p.2, rfl⟩
  | error e =>
    have : (readDefinition s%"NXx" .baseClasses clashingDoc shippedDefaults).isOk = true := by
      decide +kernel
    rw [hr] at this
    cases this

/-- All hypotheses of the theorems on C49 hold for the document above. -/
example : ∃ cd d', readDefinition s%"NXx" .applications clashingDoc shippedDefaults = .ok (cd, d') ∧
    DescribesClass s%"NXx" .applications clashingDoc cd := by
  obtain ⟨cd, d', h⟩ := (document_readable_iff (title := s%"NXx") (c := .applications)
    (root := clashingDoc) (d := shippedDefaults) ⟨rfl, rfl, rfl, rfl, rfl⟩).2 clashing_good
  exact ⟨cd, d', h, definition_contents clashing_lawful h⟩

/-- A group without type cannot be read, even if it has a name. -/
example : ¬ GoodDocument (.elem true s%"definition" []
    [.elem true s%"group" [(s%"name", s%"entry")] []]) := by
  intro h
  have := h.groups (.elem true s%"group" [(s%"name", s%"entry")] [])
    (by simp [elements, Xml.kids])
  cases this with
  | mk ht => exact absurd ht (by decide)

/-! ## field options -/

/-- An application definition whose only field is optional. -/
def optionalDoc : Xml :=
  .elem true s%"definition" [] [groupX s%"NXentry" [fieldX s%"title" [(s%"minOccurs", s%"0")]]]

/-- The same with a required field. -/
def requiredDoc : Xml :=
  .elem true s%"definition" [] [groupX s%"NXentry" [fieldX s%"title"]]

theorem optional_same_required : SameButFieldOptions optionalDoc requiredDoc := by
  refine .elem rfl ?_
  intro i x y hx hy
  cases i with
  | succ i => simp at hx
  | zero =>
    simp at hx hy
    subst hx hy
    refine .elem rfl ?_
    intro i x y hx hy
    cases i with
    | succ i => simp at hx
    | zero =>
      simp at hx hy
      subst hx hy
      exact .field rfl

/-- **C75 (violation).** The optional field is read as the required one. -/
theorem optional_field_becomes_required :
    readDefinition s%"NXapp" .applications optionalDoc =
      readDefinition s%"NXapp" .applications requiredDoc :=
  field_options_ignored _ _ optional_same_required

/-! ## directories -/

/-- A directory with one base class and the given application definitions. -/
def sampleDefDir (apps : List NxdlFile) : DefDir :=
  { here := true, schema := some shippedDefaults,
    listing := fun c => match c with
      | .baseClasses => some [{ name := s%"nxdlformat.xsl", content := none },
          { name := s%"NXdata.nxdl.xml",
            content := some (.elem true s%"definition" [] [fieldX s%"x"]) }]
      | .applications => some apps
      | .contributed => some [] }

/-- an application definition file -/
def appFile : NxdlFile := { name := s%"NXapp.nxdl.xml", content := some requiredDoc }

/-- a second definition of the class `NXdata` -/
def dataAgain : NxdlFile :=
  { name := s%"NXdata.nxdl.xml", content := some (.elem true s%"definition" [] []) }

/-- **C51 (violation).** Two file sets have the same base classes, but in the second, which
has an application definition in addition, the fields of base classes are required. -/
theorem applications_leak :
    ∃ dir dir' m m', dir.listing .baseClasses = dir'.listing .baseClasses ∧
      dir.schema = dir'.schema ∧
      loadManager (fun _ => true) dir none none = .ok m ∧
      loadManager (fun _ => true) dir' none none = .ok m' ∧
      m.fieldMinOccursIsOne = some false ∧ m'.fieldMinOccursIsOne = some true := by
  have aux : ∀ dir : DefDir, (match loadManager (fun _ => true) dir none none with
      | .ok m => some m.fieldMinOccursIsOne | .error _ => none) = some (some true) →
      ∃ m, loadManager (fun _ => true) dir none none = .ok m ∧ m.fieldMinOccursIsOne = some true := by
    intro dir h
    cases hm : loadManager (fun _ => true) dir none none with
    | error e => rw [hm] at h; cases h
    | ok m => rw [hm] at h; injection h with h; exact ⟨m, rfl, h⟩
  have aux' : ∀ dir : DefDir, (match loadManager (fun _ => true) dir none none with
      | .ok m => some m.fieldMinOccursIsOne | .error _ => none) = some (some false) →
      ∃ m, loadManager (fun _ => true) dir none none = .ok m ∧ m.fieldMinOccursIsOne = some false := by
    intro dir h
    cases hm : loadManager (fun _ => true) dir none none with
    | error e => rw [hm] at h; cases h
    | ok m => rw [hm] at h; injection h with h; exact ⟨m, rfl, h⟩
  obtain ⟨m, h1, h2⟩ := aux' (sampleDefDir []) (by decide +kernel)
  obtain ⟨m', h3, h4⟩ := aux (sampleDefDir [appFile]) (by decide +kernel)
  exact ⟨sampleDefDir [], sampleDefDir [appFile], m, m', rfl, rfl, h1, h3, h2, h4⟩

/-- The application `NXdata` replaces the base class `NXdata`, which keeps its place. -/
example : ((loadClasses (fun _ => true) (sampleDefDir [dataAgain, appFile])).toOption.map
    fun r => r.1.map fun kv => (kv.1, kv.2.category)) =
    some [(s%"NXdata", .applications), (s%"NXapp", .applications)] := by
  decide +kernel

theorem sample_wins : Wins (sampleDefDir [dataAgain, appFile]) s%"NXdata" .applications dataAgain := by
  refine ⟨⟨[dataAgain, appFile], rfl, by simp⟩, ⟨s%"NXdata", rfl⟩,
    ⟨by decide, .inr ⟨s%"nxdl.xml", rfl⟩⟩, ?_⟩
  intro c' fs' f' h1 h2 h3 h4
  rw [titled_iff] at h4
  cases c' with
  | baseClasses => left; decide
  | contributed =>
    injection h1 with h1
    subst h1
    simp at h2
  | applications =>
    injection h1 with h1
    subst h1
    right
    refine ⟨rfl, ?_⟩
    simp only [List.mem_cons, List.not_mem_nil, or_false] at h2
    rcases h2 with rfl | rfl
    · exact strLe_refl _
    · exact absurd h4 (by decide)

theorem sample_distinct : DistinctNames (sampleDefDir [dataAgain, appFile]) := by
  intro c fs f g h1 h2 h3 h4
  cases c with
  | baseClasses =>
    injection h1 with h1
    subst h1
    simp only [List.mem_cons, List.not_mem_nil, or_false] at h2 h3
    rcases h2 with rfl | rfl <;> rcases h3 with rfl | rfl
    · rfl
    · exact absurd h4 (by decide)
    · exact absurd h4 (by decide)
    · rfl
  | applications =>
    injection h1 with h1
    subst h1
    simp only [List.mem_cons, List.not_mem_nil, or_false] at h2 h3
    rcases h2 with rfl | rfl <;> rcases h3 with rfl | rfl
    · rfl
    · exact absurd h4 (by decide)
    · exact absurd h4 (by decide)
    · rfl
  | contributed =>
    injection h1 with h1
    subst h1
    simp at h2

/-- One unreadable file makes the whole file set unusable. -/
example : ¬ ∃ r, loadClasses (fun _ => true)
    (sampleDefDir [appFile, { name := s%"NXbad.nxdl.xml", content := none }]) = .ok r := by
  rw [load_succeeds_iff (s := shippedDefaults) rfl ⟨rfl, rfl, rfl, rfl, rfl⟩]
  rintro ⟨_, _, h⟩
  obtain ⟨x, hx, _⟩ := h .applications _ { name := s%"NXbad.nxdl.xml", content := none } rfl
    (by simp) ⟨s%"NXbad", rfl⟩
  cases hx

end Punx

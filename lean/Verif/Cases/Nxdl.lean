import Verif.Props.NxdlParse5
import Verif.Props.NxdlDims
import Verif.Props.Schema

/-!
# Cases for C49–C52, C75, C90
-/

namespace Punx
open Spec

/-! ## documents -/

example : ∃ cd : ClassDef, (Dict.keys cd.groups ++ Dict.keys cd.fields ++ Dict.keys cd.links).Nodup := by
  obtain ⟨cd, d', h⟩ := (document_readable_iff (title := s%"NXx") (c := .applications)
    (root := clashingDoc) (d := shippedDefaults) ⟨rfl, rfl, rfl, rfl, rfl⟩).2 clashing_good
  exact ⟨cd, (definition_names_distinct clashing_lawful h).1⟩

/-- two members `x` -/
theorem caseNamed : Named [s%"data"] [s%"x", s%"x"] [s%"x", s%"x1"] := by
  have h : s%"x1" = s%"x" ++ natStr 1 := by decide
  rw [h]
  exact .fresh (by decide) (.again (k := 1) (by decide) (by decide) (by decide)
    (by intro j h1 h2; omega) .nil)

example := named_nodup caseNamed
example := named_functional caseNamed caseNamed
example := field_options_ignored s%"NXapp" .applications optional_same_required

/-! ## directories -/

/-- the directory of the cases -/
abbrev caseDir : DefDir := sampleDefDir [dataAgain, appFile]

theorem caseDir_loads : ∃ r, loadClasses (fun _ => true) caseDir = .ok r := by
  cases h : loadClasses (fun _ => true) caseDir with
  | ok r => exact ⟨r, rfl⟩
  | error e =>
    have : (loadClasses (fun _ => true) caseDir).isOk = true := by decide +kernel
    rw [h] at this
    cases this

theorem caseDir_lawful : ∀ c fs f x, caseDir.listing c = some fs → f ∈ fs → f.content = some x →
    Lawful x := by
  intro c fs f x h1 h2 h3
  have hf : Lawful (fieldX s%"x") := .elem (by simp [Dict.keys]) (by simp)
  cases c with
  | baseClasses =>
    injection h1 with h1
    subst h1
    simp only [List.mem_cons, List.not_mem_nil, or_false] at h2
    rcases h2 with rfl | rfl
    · cases h3
    · injection h3 with h3
      subst h3
      refine .elem (by simp [Dict.keys]) ?_
      intro y hy
      simp only [List.mem_cons, List.not_mem_nil, or_false] at hy
      subst hy
      exact hf
  | applications =>
    injection h1 with h1
    subst h1
    simp only [List.mem_cons, List.not_mem_nil, or_false] at h2
    rcases h2 with rfl | rfl
    · injection h3 with h3
      subst h3
      exact .elem (by simp [Dict.keys]) (by simp)
    · injection h3 with h3
      subst h3
      refine .elem (by simp [Dict.keys]) ?_
      intro y hy
      simp only [List.mem_cons, List.not_mem_nil, or_false] at hy
      subst hy
      refine .elem (by simp [Dict.keys]) ?_
      intro z hz
      simp only [List.mem_cons, List.not_mem_nil, or_false] at hz
      subst hz
      exact .elem (by simp [Dict.keys]) (by simp)
  | contributed =>
    injection h1 with h1
    subst h1
    simp at h2

example : ∃ cl : Dict Str ClassDef, (Dict.get? cl s%"NXapp").isSome = true := by
  obtain ⟨⟨cl, o⟩, h⟩ := caseDir_loads
  exact ⟨cl, (class_defined_iff (s := shippedDefaults) rfl h s%"NXapp").2
    ⟨.applications, _, appFile, rfl, by simp, ⟨s%"NXapp", rfl⟩, (titled_iff ..).2 (by decide)⟩⟩

example : ∃ cl cd, Dict.get? cl s%"NXdata" = some cd ∧
    DescribesClass s%"NXdata" .applications (.elem true s%"definition" [] []) cd := by
  obtain ⟨⟨cl, o⟩, h⟩ := caseDir_loads
  obtain ⟨cd, x, h1, h2, _, h3⟩ := class_from_winner (s := shippedDefaults) rfl sample_distinct
    caseDir_lawful h sample_wins
  injection h2 with h2
  subst h2
  exact ⟨cl, cd, h1, h3⟩

example := wins_unique sample_distinct sample_wins sample_wins

example : ∃ m, loadManager (fun _ => true) (sampleDefDir [appFile]) none none = .ok m ∧
    (m.fieldMinOccursIsOne = some true ↔
      ∃ fs f x, (sampleDefDir [appFile]).listing .applications = some fs ∧ f ∈ fs ∧ IsNxdl f ∧
        f.content = some x ∧ HasField x) := by
  cases h : loadManager (fun _ => true) (sampleDefDir [appFile]) none none with
  | ok m => exact ⟨m, rfl, fields_required_iff_partial (s := shippedDefaults) rfl
    (by rintro v h (rfl | rfl) <;> cases h) h⟩
  | error e =>
    have : (loadManager (fun _ => true) (sampleDefDir [appFile]) none none).isOk = true := by
      decide +kernel
    rw [h] at this
    cases this

/-! ## name patterns -/

section
open SchemaExample

/-- the patterns of two types, the second restricting the first -/
theorem casePatterns : parsePatterns int [nxclass, item] = .ok
    [(s%"validNXClassName", ⟨s%"token", [s%"NX.+", s%"[A-Za-z_]"], 63⟩),
     (s%"validItemName", ⟨s%"token", [s%"[A-Za-z_]"], 63⟩)] := by decide +kernel

theorem item_declared (n : Str) (hn : n = s%"63") :
    DeclaresType [nxclass, item] s%"validItemName" s%"token" [s%"[A-Za-z_]"] (some n) := by
  subst hn
  exact ⟨[nxclass], item, [], ⟨some s%"xs:token",
    [.pattern (some s%"[A-Za-z_]"), .maxLength (some s%"63"), .other]⟩, s%"xs:token", rfl, rfl,
    by decide, rfl, rfl, ⟨by decide, .inr ⟨s%"xs", rfl⟩⟩, rfl, rfl⟩

theorem nxclass_declared :
    DeclaresType [nxclass, item] s%"validNXClassName" s%"validItemName" [s%"NX.+"] none :=
  ⟨[], nxclass, [item], ⟨some s%"nx:validItemName", [.comment, .pattern (some s%"NX.+")]⟩,
    s%"nx:validItemName", rfl, rfl, by decide, rfl, rfl, ⟨by decide, .inr ⟨s%"nx", rfl⟩⟩,
    rfl, rfl⟩

theorem token_ground : ∀ t ∈ [nxclass, item], ¬ IsNameType t s%"token" := by
  intro t ht h
  exact absurd h.2 (by decide)

example := patterns_keys casePatterns s%"validItemName"
example := patterns_ground casePatterns (by decide) (item_declared _ rfl) token_ground
example := patterns_inherited casePatterns (by decide) nxclass_declared (by decide)
  (item_declared _ rfl) token_ground

/-- a type without own length that restricts one without length -/
example := patterns_length_lost (int := int)
  (ts := [⟨some s%"validA", [⟨some s%"validB", [.maxLength (some s%"63")]⟩]⟩,
    ⟨some s%"validB", [⟨some s%"xs:token", []⟩]⟩])
  (db := [(s%"validA", ⟨s%"token", [], -1⟩), (s%"validB", ⟨s%"token", [], -1⟩)]) (by decide +kernel)
  (k := s%"validA") (base := s%"validB") (base₂ := s%"token") (own := []) (own₂ := [])
  (n := some s%"63") (by decide)
  ⟨[], _, [_], _, s%"validB", rfl, rfl, by decide, rfl, rfl, ⟨by decide, .inl rfl⟩, rfl, rfl⟩
  (by decide)
  ⟨[_], _, [], _, s%"xs:token", rfl, rfl, by decide, rfl, rfl, ⟨by decide, .inr ⟨s%"xs", rfl⟩⟩,
    rfl, rfl⟩
  (by intro t _ h; exact absurd h.2 (by decide))

/-- types as read from the file, before inheritance -/
def caseDb : Dict Str SchemaPattern :=
  [(s%"validItemName", ⟨s%"token", [s%"a"], 63⟩), (s%"validNXClassName", ⟨s%"validItemName", [s%"b"], -1⟩),
   (s%"validTargetName", ⟨s%"validNXClassName", [s%"c"], -1⟩)]

example := inherit_general (db := caseDb) (by decide) (k := s%"validTargetName") rfl
example := inherit_chain (db := caseDb) (by decide)
  (by
    rintro k b ⟨v, h1, rfl, h2, h3⟩
    have hm := Dict.mem_of_get? h1
    simp only [caseDb, List.mem_cons, Prod.mk.injEq, List.not_mem_nil, or_false] at hm
    rcases hm with ⟨rfl, rfl⟩ | ⟨rfl, rfl⟩ | ⟨rfl, rfl⟩
    · exact absurd rfl h2
    · exact ⟨[], [], [_], rfl⟩
    · exact ⟨[_], [], [], rfl⟩)
  (k := s%"validTargetName") (l := [s%"c", s%"b", s%"a"]) (b := s%"token") (m := 63)
  (.step (v := ⟨s%"validNXClassName", [s%"c"], -1⟩) rfl (by decide)
    (.step (v := ⟨s%"validItemName", [s%"b"], -1⟩) rfl (by decide)
      (.ground (v := ⟨s%"token", [s%"a"], 63⟩) rfl (.inl rfl))))

end

/-! ## dimensions -/

example := dimensions_undeclared (c := .baseClasses) (x := fieldWithDims s%"1" []) (d := { shippedDefaults with dimensions := false })
  rfl rfl s%"n"

example := readDims_ok (xs := [.elem true s%"dim" [(s%"index", s%"1"), (s%"value", s%"nP")] []])
  (acc := []) (d := shippedDefaults)
  (r := [(some s%"1", ⟨some s%"1", some s%"nP", none, none, none⟩)]) (d' := shippedDefaults) rfl

end Punx

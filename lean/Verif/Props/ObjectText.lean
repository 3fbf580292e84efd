import Verif.Spec.ObjectText
import Verif.Props.Describe2

/-!
# C131: the lines of the printed outline
-/

namespace Punx
open Spec

theorem members_entries (o : SObj) : (sortKeys o.members).filterMap memberText = entries o := by
  rcases o with ⟨k, name, key, info, kids⟩
  have hs : sortKeys (SObj.mk k name key info kids).members = (match k with
    | .attribute =>
      [(s%"attributes", .collection), (s%"components", .collection),
       (s%"default_value", .ofOption info.default), (s%"enum", .collection),
       (s%"groups", .collection), (s%"maxLength", .ofOption (info.maxLength.map intStr)),
       (s%"name", .ofOption name), (s%"nxdl_attributes", .collection), (s%"patterns", .collection),
       (s%"required", .text (if info.required then s%"True" else s%"False")),
       (s%"type", .ofOption key)]
    | .element =>
      [(s%"attributes", .collection), (s%"children", .collection), (s%"components", .collection),
       (s%"groups", .collection), (s%"maxLength", .ofOption (info.maxLength.map intStr)),
       (s%"maxOccurs", .ofOption info.maxOccurs), (s%"minOccurs", .ofOption info.minOccurs),
       (s%"name", .ofOption name), (s%"type", .ofOption key)]
    | .group =>
      [(s%"attributes", .collection), (s%"children", .collection), (s%"components", .collection),
       (s%"groups", .collection), (s%"maxLength", .ofOption (info.maxLength.map intStr)),
       (s%"maxOccurs", .ofOption info.maxOccurs), (s%"minOccurs", .ofOption info.minOccurs),
       (s%"name", .ofOption name), (s%"ref", .ofOption key)]) := by
    cases k <;> rfl
  rw [hs]
  have ht : ∀ n t, (n : Str).head? ≠ some '_' →
      memberText (n, .text t) = some (n ++ '=' :: t.dropWhile (· == '_')) := by
    intro n t hn
    cases n with
    | nil => rfl
    | cons a n =>
      have : startsWith (a :: n) s%"_" = false := by
        have hn' : a ≠ '_' := fun h => hn (by rw [h]; rfl)
        simp [startsWith, List.isPrefixOf, Ne.symm hn']
      simp [memberText, this, stripMarks]
  have ho : ∀ n (v : Option Str) l, (n : Str).head? ≠ some '_' →
      List.filterMap memberText ((n, .ofOption v) :: l) =
        entry n v ++ List.filterMap memberText l := by
    intro n v l hn
    cases v with
    | none => rfl
    | some t => simp [ObjMember.ofOption, ht n t hn, entry]
  have hc : ∀ n l, List.filterMap memberText ((n, .collection) :: l) =
      List.filterMap memberText l := fun _ _ => rfl
  cases k
  · simp only [hc, ho _ _ _ (show (s%"default_value" : Str).head? ≠ some '_' by decide),
      ho _ _ _ (show (s%"maxLength" : Str).head? ≠ some '_' by decide),
      ho _ _ _ (show (s%"name" : Str).head? ≠ some '_' by decide),
      ho _ _ _ (show (s%"type" : Str).head? ≠ some '_' by decide),
      List.filterMap_cons_some (ht s%"required" _ (by decide)), entries, SObj.kind, SObj.info,
      SObj.name, SObj.key, List.filterMap_nil, List.append_nil, List.append_assoc]
    rcases info with ⟨r, _, _, _, _, _⟩
    cases r <;> rfl
  · simp only [hc, ho _ _ _ (show (s%"maxOccurs" : Str).head? ≠ some '_' by decide),
      ho _ _ _ (show (s%"maxLength" : Str).head? ≠ some '_' by decide),
      ho _ _ _ (show (s%"minOccurs" : Str).head? ≠ some '_' by decide),
      ho _ _ _ (show (s%"name" : Str).head? ≠ some '_' by decide),
      ho _ _ _ (show (s%"type" : Str).head? ≠ some '_' by decide), entries, SObj.kind, SObj.info,
      SObj.name, SObj.key, List.filterMap_nil, List.append_nil, List.append_assoc]
  · simp only [hc, ho _ _ _ (show (s%"maxOccurs" : Str).head? ≠ some '_' by decide),
      ho _ _ _ (show (s%"maxLength" : Str).head? ≠ some '_' by decide),
      ho _ _ _ (show (s%"minOccurs" : Str).head? ≠ some '_' by decide),
      ho _ _ _ (show (s%"name" : Str).head? ≠ some '_' by decide),
      ho _ _ _ (show (s%"ref" : Str).head? ≠ some '_' by decide), entries, SObj.kind, SObj.info,
      SObj.name, SObj.key, List.filterMap_nil, List.append_nil, List.append_assoc]

/-- **C131.** The line of an object. -/
theorem object_line (level : Nat) (o : SObj) :
    o.line level = List.replicate (4 * level) ' ' ++ heading o ++ s%" : " ++ className o ++ s%"(" ++
      join s%", " (entries o) ++ s%")" := by
  have ht : o.text = className o ++ s%"(" ++ join s%", " (entries o) ++ s%")" := by
    unfold SObj.text renderClassStr
    rw [members_entries]
    unfold className SKind.text
    cases o.kind <;> rfl
  unfold SObj.line
  rw [ht]
  rcases o with ⟨k, name, key, info, kids⟩
  cases k <;> cases name <;> simp [heading, SObj.kind, SObj.name, SKind.text]

/-- **C131.** What replacing the attributes of a group means: the attributes are the given ones, and
all else is as before. -/
theorem replaced_attributes (g gg : SObj) :
    (g.withAttributes gg.attributes).attributes = gg.attributes ∧
    (g.withAttributes gg.attributes).groups = g.groups ∧
    (g.withAttributes gg.attributes).components = g.components ∧
    (g.withAttributes gg.attributes).kind = g.kind ∧ (g.withAttributes gg.attributes).name = g.name ∧
    (g.withAttributes gg.attributes).key = g.key ∧ (g.withAttributes gg.attributes).info = g.info := by
  obtain ⟨h1, h2, h3⟩ := table_withAttributes g gg
  exact ⟨h1, h2, h3, rfl, rfl, rfl, rfl⟩

/-- The line of a required attribute with a type and a length. -/
example : (SObj.mk .attribute (some s%"name") (some s%"nx:_validName")
      { required := true, maxLength := some 63 } []).line 1 =
    s%"    @name : NXDL_schema__attribute(maxLength=63, name=name, required=True, type=nx:_validName)" := by
  rw [object_line]; decide +kernel

end Punx

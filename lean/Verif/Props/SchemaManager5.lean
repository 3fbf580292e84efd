import Verif.Props.Schema
import Verif.Props.Process7

/-!
# C52, C89: the name patterns that a schema declares
-/

namespace Punx
open Spec

theorem name_type_iff {root : XsNode} {k : Str} :
    (∃ t ∈ simpleTypesOf root, IsNameType t k) ↔ NameType root k := by
  simp only [simpleTypesOf, List.mem_map, IsNameType, NameType, nameAttr]
  constructor
  · rintro ⟨_, ⟨t, ht, rfl⟩, h1, h2⟩
    exact ⟨h2, t, ht, h1⟩
  · rintro ⟨h2, t, ht, h1⟩
    exact ⟨_, ⟨t, ht, rfl⟩, h1, h2⟩

theorem declares_names {root : XsNode} {k base : Str} {own : List Str} {n : Option Str}
    (h : DeclaresNames root k base own n) : DeclaresType (simpleTypesOf root) k base own n := by
  obtain ⟨pre, t, post, r, b, h1, h2, h3, h4, h5, h6, h7, h8⟩ := h
  unfold DeclaresType simpleTypesOf
  rw [h1, List.map_append, List.map_cons]
  refine ⟨_, _, _, _, b, rfl, h2, ?_, by rw [h4]; rfl, h5, h6, ?_, ?_⟩
  · intro u hu
    obtain ⟨t', ht, rfl⟩ := List.mem_map.1 hu
    exact h3 t' ht
  · rw [h7, ownPatterns, writtenFacets, List.filterMap_map, XsNode.select, List.filterMap_filter]
    refine List.filterMap_congr fun i _ => ?_
    cases i with
    | comment => rfl
    | elem xs t l a ks =>
      by_cases h : (XsNode.elem xs t l a ks).isXs s%"pattern" = true
      · simp [h]
      · by_cases h' : (XsNode.elem xs t l a ks).isXs s%"maxLength" = true <;> simp [h, h']
  · rw [h8, writtenFacets, List.filterMap_map, XsNode.select, List.filterMap_filter]
    refine congrArg _ (List.filterMap_congr fun i _ => ?_)
    cases i with
    | comment => rfl
    | elem xs t l a ks =>
      by_cases h : (XsNode.elem xs t l a ks).isXs s%"pattern" = true
      · have : (XsNode.elem xs t l a ks).isXs s%"maxLength" = false := by
          simp only [XsNode.isXs, Bool.and_eq_true, decide_eq_true_eq] at h
          simp [XsNode.isXs, h.2]
        simp [h, this]
      · by_cases h' : (XsNode.elem xs t l a ks).isXs s%"maxLength" = true <;> simp [h, h']

/-- C52: a schema manager has name patterns for exactly the name types of its schema. A type
that restricts no name type has the patterns and the length that the schema writes there; one
that restricts such a type has its own patterns, then those of that type. -/
theorem manager_patterns {fuel : Nat} {int : Str → Option Int}
    {valid : XsNode → Option XsNode → Bool} {root : XsNode} {types : Option XsNode}
    {s s' : Shared} {own : OwnSchema}
    (h : newManager fuel int valid (some root) types s = (.ok own, s')) :
    (∀ k, k ∈ Dict.keys own.patterns ↔ NameType root k) ∧
    ∀ {k base ps n}, s%"valid" <+: k → DeclaresNames root k base ps n →
      (¬ NameType root base →
        Dict.get? own.patterns k = some ⟨base, ps, (n.bind int).getD (-1)⟩) ∧
      ∀ {base₂ ps₂ n₂}, s%"valid" <+: base → DeclaresNames root base base₂ ps₂ n₂ →
        ¬ NameType root base₂ →
        Dict.get? own.patterns k = some ⟨base₂, ps ++ ps₂, (n₂.bind int).getD (-1)⟩ := by
  have key : parsePatterns int (simpleTypesOf root) = .ok own.patterns := by
    simp only [newManager] at h
    by_cases hv : valid root types = true
    · rw [if_pos hv] at h
      match hs : root.select s%"element", h with
      | [n], h =>
        obtain ⟨_, _, _, h⟩ := Mut.bind_ok h
        obtain ⟨t, _, _, h⟩ := Mut.bind_ok h
        obtain ⟨p, _, h3, h⟩ := Mut.bind_ok h
        rw [(Mut.lift_ok h3).1, ← (Mut.pure_ok h).1]
      | [], h => exact (Mut.fail_ok h).elim
      | _ :: _ :: _, h => exact (Mut.fail_ok h).elim
    · rw [if_neg hv] at h
      exact (Mut.fail_ok h).elim
  have none_of : ∀ {b}, ¬ NameType root b → ∀ t ∈ simpleTypesOf root, ¬ IsNameType t b :=
    fun hb t ht hk => hb (name_type_iff.1 ⟨t, ht, hk⟩)
  refine ⟨fun k => (patterns_keys key k).trans name_type_iff, fun hk hd => ⟨fun hb => ?_, ?_⟩⟩
  · exact patterns_ground key hk (declares_names hd) (none_of hb)
  · exact fun hb hd₂ hb₂ =>
      patterns_inherited key hk (declares_names hd) hb (declares_names hd₂) (none_of hb₂)

/-- C89: the name patterns that `punx validate` works with are those that are written in the schema
of the file set. -/
theorem command_patterns {lib : Lib} {pattern : Str → Pat} {d : SetDir} {mgr : Manager}
    {root : XsNode} (h : OwnDefinitions lib pattern d mgr) (hx : d.xsd = some root) :
    (mgr.itemPats = none ↔ ¬ NameType root s%"validItemName") ∧
    (mgr.classPats = none ↔ ¬ NameType root s%"validNXClassName") ∧
    ∀ {base ps n}, DeclaresNames root s%"validItemName" base ps n → ¬ NameType root base →
      mgr.itemPats = some (ps.map pattern) ∧
      (∀ {ps₂ n₂}, DeclaresNames root s%"validNXClassName" s%"validItemName" ps₂ n₂ →
        mgr.classPats = some ((ps₂ ++ ps).map pattern)) ∧
      ∀ {base₂ ps₂ n₂}, DeclaresNames root s%"validNXClassName" base₂ ps₂ n₂ →
        ¬ NameType root base₂ → mgr.classPats = some (ps₂.map pattern) := by
  obtain ⟨own, ⟨sh, ho⟩, h1, h2⟩ := h.patterns
  rw [hx] at ho
  obtain ⟨h3, h4⟩ := manager_patterns ho
  have hn : ∀ k, patternsOf pattern own k = none ↔ ¬ NameType root k := fun k => by
    rw [patternsOf, Option.map_eq_none_iff, Dict.get?_eq_none, h3]
  refine ⟨by rw [h1, hn], by rw [h2, hn], fun {base ps n} hd hb => ⟨?_, ?_, ?_⟩⟩
  · rw [h1, patternsOf, (h4 (by decide) hd).1 hb]
    rfl
  · intro ps₂ n₂ hd₂
    rw [h2, patternsOf, (h4 (by decide) hd₂).2 (by decide) hd hb]
    rfl
  · intro base₂ ps₂ n₂ hd₂ hb₂
    rw [h2, patternsOf, (h4 (by decide) hd₂).1 hb₂]
    rfl

end Punx

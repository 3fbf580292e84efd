import Verif.Props.NxdlSchema4

/-!
# C81: the attributes of elements, and what gets lost
-/

namespace Punx
open Spec

theorem table_fold (l : List SObj) : ∀ (d : Dict Str SObj) (a : Str) (x : SObj),
    (Dict.get? (l.foldl (fun d c => Dict.set d c.label c) d) a = some x →
      (x ∈ l ∧ x.label = a) ∨ Dict.get? d a = some x) ∧
    (Dict.get? (l.foldl (fun d c => Dict.set d c.label c) d) a = none ↔
      Dict.get? d a = none ∧ ∀ c ∈ l, c.label ≠ a) := by
  induction l with
  | nil => simp
  | cons c l ih =>
    intro d a x
    rw [List.foldl_cons]
    obtain ⟨h1, h2⟩ := ih (Dict.set d c.label c) a x
    constructor
    · intro h
      rcases h1 h with ⟨h3, h4⟩ | h3
      · exact .inl ⟨List.mem_cons_of_mem _ h3, h4⟩
      · rw [Dict.get?_set] at h3
        split at h3
        · rename_i e
          injection h3 with h3
          subst h3
          exact .inl ⟨List.mem_cons_self, e⟩
        · exact .inr h3
    · rw [h2, Dict.get?_set]
      constructor
      · rintro ⟨h3, h4⟩
        split at h3
        · cases h3
        · rename_i e
          refine ⟨h3, fun b hb => ?_⟩
          rcases List.mem_cons.1 hb with rfl | hb
          · exact e
          · exact h4 b hb
      · rintro ⟨h3, h4⟩
        rw [if_neg (h4 c List.mem_cons_self)]
        exact ⟨h3, fun b hb => h4 b (List.mem_cons_of_mem _ hb)⟩

theorem table_get {k : SKind} {o x : SObj} {a : Str} (h : Dict.get? (o.table k) a = some x) :
    x ∈ o.kids.filter (·.kind = k) ∧ x.label = a := by
  rcases (table_fold (o.kids.filter (·.kind = k)) [] a x).1 h with h | h
  · exact h
  · cases h

theorem table_none {k : SKind} {o : SObj} {a : Str} :
    Dict.get? (o.table k) a = none ↔ ∀ c ∈ o.kids.filter (·.kind = k), c.label ≠ a := by
  rw [SObj.table, (table_fold (o.kids.filter (·.kind = k)) [] a o).2]
  exact ⟨fun h => h.2, fun h => ⟨rfl, h⟩⟩

/-- What is kept of an attribute declaration. -/
theorem parseAttr_keeps {n : XsNode} {o : SObj} (h : parseAttr n = .ok o) :
    o.name = Dict.get? n.attrib s%"name" ∧ o.info.default = Dict.get? n.attrib s%"default" ∧
      (o.info.required = true ↔ Dict.get? n.attrib s%"use" = some s%"required") := by
  rw [parseAttr] at h
  simp only [] at h
  split at h
  · split at h
    · cases h
    · injection h with h; subst h; exact ⟨rfl, rfl, by simp [SObj.info]⟩
  · injection h with h; subst h; exact ⟨rfl, rfl, by simp [SObj.info]⟩

theorem resolved_keeps (schema : Dict (Option Str) SRef) (c : SObj) :
    (resolved schema c).name = c.name ∧ (resolved schema c).label = c.label ∧
      (resolved schema c).info.default = c.info.default ∧
      (resolved schema c).info.required = c.info.required := by
  obtain ⟨kind, name, key, info, kids⟩ := c
  cases key with
  | none => exact ⟨rfl, rfl, rfl, rfl⟩
  | some k =>
    rw [resolved]
    simp only [SObj.key]
    cases Dict.get? schema (some k) with
    | none => exact ⟨rfl, rfl, rfl, rfl⟩
    | some r => cases r <;> exact ⟨rfl, rfl, rfl, rfl⟩

theorem ofGroup_everywhere {root n : XsNode} {k : Str} (h : OfGroup root k n) :
    n ∈ root.everywhere s%"attribute" := by
  induction h with
  | own h1 _ h3 => exact everywhere_kid (nodes_select (mem_nodes_self root) h1) h3
  | nested _ _ _ _ _ ih => exact ih

theorem ofType_everywhere {root n : XsNode} {k : Str} (h : OfType root k n) :
    n ∈ root.everywhere s%"attribute" := by
  induction h with
  | own h1 _ h3 => exact everywhere_kid (nodes_select (mem_nodes_self root) h1) h3
  | group _ _ _ _ h5 => exact ofGroup_everywhere h5
  | extension h1 _ h3 h4 =>
    obtain ⟨c, h5, h6⟩ := h3
    exact everywhere_kid
      (nodes_select (nodes_select (nodes_select (mem_nodes_self root) h1) h5) h6) h4
  | extensionGroup _ _ _ _ _ h6 => exact ofGroup_everywhere h6
  | base _ _ _ _ _ ih => exact ih

/-- C81, as far as it holds, for an element of a type of the schema: after types were put in their
places it has an attribute of some name exactly if XML Schema gives one of this name to the type,
and its default value and whether it is required are the declared ones. -/
theorem element_attributes_partial {int : Str → Option Int} {root : XsNode} {db : SchemaDb}
    (hd : DistinctLines root) (hp : PlainSchema root) (h : readSchema int root = .ok db)
    {t : XsNode} {k : Str} (ht : t ∈ root.select s%"complexType") (hk : HasName t k)
    {fuel : Nat} {o o' : SObj} (ho : o.kind = .element) (hok : o.key = some k)
    (hown : ∀ c ∈ o.kids, c.kind ≠ .attribute)
    (hs : substitute (db.schema.getD []) fuel o = .ok o')
    {a : Str} (ha : a ≠ []) (ha' : a ≠ s%"(attribute)") :
    (∀ x, Dict.get? o'.attributes a = some x →
      ∃ n, OfType root k n ∧ HasName n a ∧ x.info.default = Dict.get? n.attrib s%"default" ∧
        (x.info.required = true ↔ Dict.get? n.attrib s%"use" = some s%"required")) ∧
    (Dict.get? o'.attributes a = none ↔ ∀ n, OfType root k n → ¬ HasName n a) := by
  obtain ⟨r, h1, h2⟩ := type_attributes_partial hd hp h ht hk
  have hget : Dict.get? (db.schema.getD []) (some k) = some r := by
    rw [ref_eq, refOf] at h1
    cases hsc : db.schema with
    | none => rw [hsc] at h1; cases h1
    | some d =>
      rw [hsc] at h1
      simp only [Option.bind_some] at h1
      cases hg : Dict.get? d (some k) with
      | none => rw [hg] at h1; cases h1
      | some r' =>
        rw [hg] at h1
        injection h1 with h1
        rw [← h1, Option.getD_some, hg]
  have hkids := substitute_attributes hs (by rw [ho]; simp) hok hget
  have hmem : ∀ x, x ∈ o'.kids.filter (·.kind = .attribute) ↔
      ∃ n c, OfType root k n ∧ parseAttr n = .ok c ∧ x = resolved (db.schema.getD []) c := by
    intro x
    rw [hkids, List.mem_map]
    constructor
    · rintro ⟨c, hc, rfl⟩
      obtain ⟨hc, hck⟩ := List.mem_filter.1 hc
      have hck : c.kind = .attribute := by simpa using hck
      rcases List.mem_append.1 hc with hc | hc
      · exact (hown c hc hck).elim
      · obtain ⟨n, h3, h4⟩ := (h2 c hck).1 hc
        exact ⟨n, c, h3, h4, rfl⟩
    · rintro ⟨n, c, h3, h4, rfl⟩
      have hck := parseAttr_kind h4
      exact ⟨c, List.mem_filter.2 ⟨List.mem_append_right _ ((h2 c hck).2 ⟨n, h3, h4⟩),
        by simpa using hck⟩, rfl⟩
  have hlabel : ∀ n c, parseAttr n = .ok c → (c.label = a ↔ HasName n a) := by
    intro n c hc
    have h3 := (parseAttr_keeps hc).1
    rw [HasName, ← h3, SObj.label]
    cases hn : c.name with
    | none =>
      simp only [parseAttr_kind hc, SKind.text]
      constructor
      · intro e; exact (ha' e.symm).elim
      · intro e; cases e
    | some m =>
      cases m with
      | nil =>
        simp only [parseAttr_kind hc, SKind.text]
        constructor
        · intro e; exact (ha' e.symm).elim
        · intro e; injection e with e; exact (ha e.symm).elim
      | cons y ys => simp
  constructor
  · intro x hx
    obtain ⟨h3, h4⟩ := table_get hx
    obtain ⟨n, c, h5, h6, rfl⟩ := (hmem x).1 h3
    obtain ⟨_, h7, h8, h9⟩ := resolved_keeps (db.schema.getD []) c
    obtain ⟨_, h10, h11⟩ := parseAttr_keeps h6
    rw [h7] at h4
    exact ⟨n, h5, (hlabel n c h6).1 h4, by rw [h8, h10], by rw [h9]; exact h11⟩
  · rw [SObj.attributes, table_none]
    constructor
    · intro h3 n h4 h5
      obtain ⟨c, hc⟩ := (parseAttr_ok_iff n).2
        (((schema_read_iff int root).1 ⟨db, h⟩).pattern n (ofType_everywhere h4))
      refine h3 _ ((hmem _).2 ⟨n, c, h4, hc, rfl⟩) ?_
      rw [(resolved_keeps _ c).2.1]
      exact (hlabel n c hc).2 h5
    · intro h3 x hx h4
      obtain ⟨n, c, h5, h6, rfl⟩ := (hmem x).1 hx
      rw [(resolved_keeps _ c).2.1] at h4
      exact h3 n h5 ((hlabel n c h6).1 h4)

/-! ## the shipped schema is of this kind -/

/-- `PlainSchema`, to be computed -/
def plainCheck (root : XsNode) : Bool :=
  let named (a : XsNode) (k : Str) : Bool := Dict.get? a.attrib s%"name" = some k
  let ags := root.select s%"attributeGroup"
  let cts := root.select s%"complexType"
  let exts (t : XsNode) := (t.select s%"complexContent").flatMap (·.select s%"extension")
  decide (((namedNodes root).filterMap fun n => Dict.get? n.attrib s%"name").Nodup) &&
  (cts.all fun t => (t.select s%"attributeGroup").all fun g =>
    (Dict.get? g.attrib s%"ref").all fun r => ags.any (named · (stripNs r))) &&
  (cts.all fun t => (exts t).all fun e =>
    (Dict.get? e.attrib s%"base").all fun b => ags.all (!named · (stripNs b))) &&
  (cts.all fun t => (t.select s%"complexContent").all fun c =>
    (c.select s%"extension").length = 1) &&
  (ags.all fun g => (g.select s%"attributeGroup").isEmpty) &&
  (cts.all fun t => (exts t).all fun e => (e.select s%"attributeGroup").isEmpty)

theorem plainCheck_sound {root : XsNode} (h : plainCheck root = true) : PlainSchema root := by
  simp only [plainCheck, Bool.and_eq_true, List.all_eq_true, Option.all_eq_true, List.any_eq_true,
    decide_eq_true_eq, List.mem_flatMap, Bool.not_eq_true', decide_eq_false_iff_not,
    List.isEmpty_iff] at h
  obtain ⟨⟨⟨⟨⟨h1, h2⟩, h3⟩, h4⟩, h5⟩, h6⟩ := h
  exact
    { names := h1
      refs := fun t ht g hg r hr => h2 t ht g hg r hr
      bases := fun t ht e he b hb a ha => h3 t ht e he b hb a ha
      single := fun t ht c hc => List.length_eq_one_iff.1 (h4 t ht c hc)
      flat := h5
      flatExtension := h6 }

theorem nxdlXsd_plain : PlainSchema (nxdlXsd 705) := plainCheck_sound (by decide +kernel)

/-- The hypotheses are met by the shipped schema and an element of the type of fields; that type has
the attribute `minOccurs`. -/
example : ∃ db t o' n, readSchema xsdInt (nxdlXsd 705) = .ok db ∧
    t ∈ (nxdlXsd 705).select s%"complexType" ∧ HasName t s%"fieldType" ∧
    substitute (db.schema.getD []) 10 (.mk .element (some s%"field") (some s%"fieldType") {} []) =
      .ok o' ∧
    OfType (nxdlXsd 705) s%"fieldType" n ∧ HasName n s%"minOccurs" := by
  have ht : ((nxdlXsd 705).select s%"complexType").any
      (fun t => Dict.get? t.attrib s%"name" = some s%"fieldType") = true := by decide +kernel
  obtain ⟨t, h1, h2⟩ := List.any_eq_true.1 ht
  have h2 : Dict.get? t.attrib s%"name" = some s%"fieldType" := by simpa using h2
  have h : (match readSchema xsdInt (nxdlXsd 705) with
    | .ok db => match substitute (db.schema.getD []) 10
        (.mk .element (some s%"field") (some s%"fieldType") {} []) with
      | .ok o' => (Dict.get? o'.attributes s%"minOccurs").isSome
      | .error _ => false
    | .error _ => false) = true := by decide +kernel
  cases hr : readSchema xsdInt (nxdlXsd 705) with
  | error e => rw [hr] at h; cases h
  | ok db =>
    rw [hr] at h
    simp only [] at h
    cases hs : substitute (db.schema.getD []) 10
        (.mk .element (some s%"field") (some s%"fieldType") {} []) with
    | error e => rw [hs] at h; cases h
    | ok o' =>
      rw [hs] at h
      simp only [] at h
      obtain ⟨x, hx⟩ := Option.isSome_iff_exists.1 h
      obtain ⟨n, h3, h4, _⟩ := (element_attributes_partial nxdlXsd_distinct nxdlXsd_plain hr h1 h2
        rfl rfl (by simp [SObj.kids]) hs (a := s%"minOccurs") (by simp) (by decide)).1 x hx
      exact ⟨db, t, o', n, rfl, h1, h2, hs, h3, h4⟩

/-! ## what gets lost -/

/-- A type that extends another one and refers to an attribute group there. -/
def extensionXsd : XsNode :=
  .elem true s%"schema" 1 [] [
    .elem true s%"attributeGroup" 2 [(s%"name", s%"common")] [
      .elem true s%"attribute" 3 [(s%"name", s%"units")] []],
    .elem true s%"complexType" 5 [(s%"name", s%"plainType")] [],
    .elem true s%"complexType" 6 [(s%"name", s%"fieldType")] [
      .elem true s%"complexContent" 7 [] [
        .elem true s%"extension" 8 [(s%"base", s%"nx:plainType")] [
          .elem true s%"attributeGroup" 9 [(s%"ref", s%"nx:common")] []]]]]

/-- C81 is false: an attribute group in an extension is not looked at. -/
theorem extension_group_lost :
    DistinctLines extensionXsd ∧
    (∃ n, OfType extensionXsd s%"fieldType" n ∧ HasName n s%"units") ∧
    ∃ db, readSchema xsdInt extensionXsd = .ok db ∧ db.ref (some s%"fieldType") = .ok (.other []) := by
  refine ⟨by unfold DistinctLines; decide +kernel,
    ⟨.elem true s%"attribute" 3 [(s%"name", s%"units")] [], ?_, rfl⟩, ⟨_, rfl, rfl⟩⟩
  · exact .extensionGroup (t := .elem true s%"complexType" 6 [(s%"name", s%"fieldType")] [
      .elem true s%"complexContent" 7 [] [
        .elem true s%"extension" 8 [(s%"base", s%"nx:plainType")] [
          .elem true s%"attributeGroup" 9 [(s%"ref", s%"nx:common")] []]]])
      (e := .elem true s%"extension" 8 [(s%"base", s%"nx:plainType")] [
          .elem true s%"attributeGroup" 9 [(s%"ref", s%"nx:common")] []])
      (g := .elem true s%"attributeGroup" 9 [(s%"ref", s%"nx:common")] [])
      (r := s%"nx:common")
      (by simp [extensionXsd, XsNode.select, XsNode.kids, XsNode.isXs]) rfl
      ⟨_, by simp [XsNode.select, XsNode.kids, XsNode.isXs]; rfl,
        by simp [XsNode.select, XsNode.kids, XsNode.isXs]⟩
      (by simp [XsNode.select, XsNode.kids, XsNode.isXs]) rfl
      (.own (g := .elem true s%"attributeGroup" 2 [(s%"name", s%"common")] [
        .elem true s%"attribute" 3 [(s%"name", s%"units")] []])
        (n := .elem true s%"attribute" 3 [(s%"name", s%"units")] [])
        (by simp [extensionXsd, XsNode.select, XsNode.kids, XsNode.isXs]) rfl
        (by simp [XsNode.select, XsNode.kids, XsNode.isXs]))

/-- An attribute group that refers to another one, and a type that uses it. -/
def nestedXsd : XsNode :=
  .elem true s%"schema" 1 [] [
    .elem true s%"attributeGroup" 2 [(s%"name", s%"common")] [
      .elem true s%"attribute" 3 [(s%"name", s%"units")] []],
    .elem true s%"attributeGroup" 5 [(s%"name", s%"more")] [
      .elem true s%"attributeGroup" 6 [(s%"ref", s%"nx:common")] []],
    .elem true s%"complexType" 8 [(s%"name", s%"fieldType")] [
      .elem true s%"attributeGroup" 9 [(s%"ref", s%"nx:more")] []]]

/-- C81 is false: an attribute group in an attribute group is not looked at. -/
theorem nested_group_lost :
    DistinctLines nestedXsd ∧
    (∃ n, OfType nestedXsd s%"fieldType" n ∧ HasName n s%"units") ∧
    ∃ db, readSchema xsdInt nestedXsd = .ok db ∧ db.ref (some s%"fieldType") = .ok (.other []) := by
  refine ⟨by unfold DistinctLines; decide +kernel,
    ⟨.elem true s%"attribute" 3 [(s%"name", s%"units")] [], ?_, rfl⟩, ⟨_, rfl, rfl⟩⟩
  · exact .group (t := .elem true s%"complexType" 8 [(s%"name", s%"fieldType")] [
      .elem true s%"attributeGroup" 9 [(s%"ref", s%"nx:more")] []])
      (g := .elem true s%"attributeGroup" 9 [(s%"ref", s%"nx:more")] [])
      (r := s%"nx:more")
      (by simp [nestedXsd, XsNode.select, XsNode.kids, XsNode.isXs]) rfl
      (by simp [XsNode.select, XsNode.kids, XsNode.isXs]) rfl
      (.nested (g := .elem true s%"attributeGroup" 5 [(s%"name", s%"more")] [
          .elem true s%"attributeGroup" 6 [(s%"ref", s%"nx:common")] []])
        (r := .elem true s%"attributeGroup" 6 [(s%"ref", s%"nx:common")] [])
        (s := s%"nx:common")
        (by simp [nestedXsd, XsNode.select, XsNode.kids, XsNode.isXs]) rfl
        (by simp [XsNode.select, XsNode.kids, XsNode.isXs]) rfl
        (.own (g := .elem true s%"attributeGroup" 2 [(s%"name", s%"common")] [
          .elem true s%"attribute" 3 [(s%"name", s%"units")] []])
          (n := .elem true s%"attribute" 3 [(s%"name", s%"units")] [])
          (by simp [nestedXsd, XsNode.select, XsNode.kids, XsNode.isXs]) rfl
          (by simp [XsNode.select, XsNode.kids, XsNode.isXs])))

/-- A type and an attribute group of the same name, which XML Schema allows. -/
def sameNameXsd : XsNode :=
  .elem true s%"schema" 1 [] [
    .elem true s%"attributeGroup" 2 [(s%"name", s%"basic")] [
      .elem true s%"attribute" 3 [(s%"name", s%"units")] []],
    .elem true s%"complexType" 5 [(s%"name", s%"basic")] [
      .elem true s%"attribute" 6 [(s%"name", s%"rank")] []],
    .elem true s%"complexType" 8 [(s%"name", s%"fieldType")] [
      .elem true s%"attributeGroup" 9 [(s%"ref", s%"nx:basic")] []]]

/-- C81 is false: types and attribute groups share one table of names.  The type gets the
attributes of the wrong declaration. -/
theorem same_name_confused :
    DistinctLines sameNameXsd ∧
    (∃ n, OfType sameNameXsd s%"fieldType" n ∧ HasName n s%"units") ∧
    ∃ db rank, readSchema xsdInt sameNameXsd = .ok db ∧ rank.name = some s%"rank" ∧
      db.ref (some s%"fieldType") = .ok (.other [rank]) := by
  refine ⟨by unfold DistinctLines; decide +kernel,
    ⟨.elem true s%"attribute" 3 [(s%"name", s%"units")] [], ?_, rfl⟩, ⟨_, _, rfl, ?_, rfl⟩⟩
  · exact .group (t := .elem true s%"complexType" 8 [(s%"name", s%"fieldType")] [
      .elem true s%"attributeGroup" 9 [(s%"ref", s%"nx:basic")] []])
      (g := .elem true s%"attributeGroup" 9 [(s%"ref", s%"nx:basic")] [])
      (r := s%"nx:basic")
      (by simp [sameNameXsd, XsNode.select, XsNode.kids, XsNode.isXs]) rfl
      (by simp [XsNode.select, XsNode.kids, XsNode.isXs]) rfl
      (.own (g := .elem true s%"attributeGroup" 2 [(s%"name", s%"basic")] [
        .elem true s%"attribute" 3 [(s%"name", s%"units")] []])
        (n := .elem true s%"attribute" 3 [(s%"name", s%"units")] [])
        (by simp [sameNameXsd, XsNode.select, XsNode.kids, XsNode.isXs]) rfl
        (by simp [XsNode.select, XsNode.kids, XsNode.isXs]))
  · rfl

end Punx

import Verif.Props.NxdlParse2

/-!
# C49: items of a definition are never lost
-/

namespace Punx
open Spec

/-- **C49.** A definition that was read holds every attribute, group, field and link of
its document, in order, under the names prescribed by `Named`, at every depth. -/
theorem definition_contents {title : Str} {c : Category} {root : Xml} {cd : ClassDef}
    {d d' : Defaults} (hroot : Lawful root)
    (h : readDefinition title c root d = .ok (cd, d')) : DescribesClass title c root cd := by
  unfold readDefinition at h
  obtain ⟨attrs, d2, h2, h⟩ := Reader.bind_ok.1 h
  obtain ⟨groups, d3, h3, h⟩ := Reader.bind_ok.1 h
  obtain ⟨fields, d4, h4, h⟩ := Reader.bind_ok.1 h
  obtain ⟨links, d5, h5, h⟩ := Reader.bind_ok.1 h
  rw [Reader.pure_ok] at h
  obtain ⟨rfl, rfl⟩ := h
  have hkids : ∀ x ∈ root.kids, Lawful x := by
    cases hroot with
    | comment => intro x hx; simp [Xml.kids] at hx
    | elem _ hk => exact hk
  obtain ⟨ng, wg, hgr, hgw, hgn, hgd⟩ := readGroups_ok (acc := []) hkids h3
  obtain ⟨nf, wf, hfr, hfw, hfn, hfd⟩ := readFields_ok h4
  obtain ⟨nl, wl, hlr, _, hlw, hln, hld⟩ := readLinks_ok h5
  simp only [List.nil_append] at hgr hfr hlr
  subst hgr hfr hlr
  exact {
    title := rfl
    category := rfl
    attrs := readAttributes_nil h2
    contents := contents_of hgw (by simpa [Dict.keys] using hgn) hfw
      (by simpa [Dict.keys] using hfn) hlw (by simpa [Dict.keys] using hln)
    groups := fun i x kv hx hkv => Forall₂.getElem hgd hx hkv
    fields := fun i x kv hx hkv => Forall₂.getElem hfd hx hkv
    links := fun i x kv hx hkv => Forall₂.getElem hld hx hkv
    symbols := by
      show readSymbols root = symbolNames root
      unfold readSymbols symbolNames elements
      congr 1
      funext t
      congr 1
      funext n
      cases n <;> rfl }

theorem contents_nodup {kids : List Xml} {g f l : List Str} (h : Contents kids g f l) :
    (g ++ f ++ l).Nodup := by
  obtain ⟨wg, wf, wl, _, _, _, hn⟩ := h.names
  exact (named_nodup hn).1

theorem contents_count {kids : List Xml} {g f l : List Str} (h : Contents kids g f l) :
    l.length = (elements s%"link" kids).length := by
  obtain ⟨wg, wf, wl, h1, h2, h3, hn⟩ := h.names
  have hlen := named_length hn
  have c1 := h.countGroups
  have c2 := h.countFields
  simp only [List.length_append] at hlen
  rw [← h1.length_eq, ← h2.length_eq, ← h3.length_eq] at hlen
  omega

theorem describes_unique {x : Xml} {g : GroupSpec} (h : Describes x g) : UniqueNames g := by
  induction h with
  | @mk nx tag a kids attrs groups fields links _ hc _ _ _ ih =>
    refine .mk (contents_nodup hc) ?_
    intro kv hkv
    obtain ⟨i, hi, hget⟩ := List.mem_iff_getElem.1 hkv
    have hlen := hc.countGroups
    simp only [Dict.keys, List.length_map] at hlen
    have hx : (elements s%"group" kids)[i]? = some (elements s%"group" kids)[i] :=
      List.getElem?_eq_getElem (by omega)
    exact ih i _ kv hx (by rw [List.getElem?_eq_getElem hi, hget])

/-- **C49.** No item is lost and no name is given twice, at any depth. -/
theorem definition_names_distinct {title : Str} {c : Category} {root : Xml} {cd : ClassDef}
    {d d' : Defaults} (hroot : Lawful root)
    (h : readDefinition title c root d = .ok (cd, d')) :
    (Dict.keys cd.groups ++ Dict.keys cd.fields ++ Dict.keys cd.links).Nodup ∧
    cd.groups.length = (elements s%"group" root.kids).length ∧
    cd.fields.length = (elements s%"field" root.kids).length ∧
    cd.links.length = (elements s%"link" root.kids).length ∧
    ∀ kv ∈ cd.groups, UniqueNames kv.2 := by
  have hd := definition_contents hroot h
  have c1 := hd.contents.countGroups
  have c2 := hd.contents.countFields
  have c3 := contents_count hd.contents
  simp only [Dict.keys, List.length_map] at c1 c2 c3
  refine ⟨contents_nodup hd.contents, c1, c2, c3, ?_⟩
  intro kv hkv
  obtain ⟨i, hi, hget⟩ := List.mem_iff_getElem.1 hkv
  have hx : (elements s%"group" root.kids)[i]? = some (elements s%"group" root.kids)[i] :=
    List.getElem?_eq_getElem (by omega)
  exact describes_unique (hd.groups i _ kv hx (by rw [List.getElem?_eq_getElem hi, hget]))

/-! ## which documents can be read -/

/-- **C49.** With a schema that declares the overwritten defaults, a document can be read
exactly if its groups have types, its fields, links and attributes have names, and no
attribute is declared twice on one element. -/
theorem document_readable_iff {title : Str} {c : Category} {root : Xml} {d : Defaults}
    (hd : Declared d) :
    (∃ cd d', readDefinition title c root d = .ok (cd, d')) ↔ GoodDocument root := by
  show Succeeds (readDefinition title c root) d ↔ _
  unfold readDefinition
  constructor
  · intro h
    obtain ⟨attrs, d2, h2, h⟩ := succeeds_bind.1 h
    obtain ⟨groups, d3, h3, h⟩ := succeeds_bind.1 h
    obtain ⟨fields, d4, h4, h⟩ := succeeds_bind.1 h
    obtain ⟨links, d5, h5, h⟩ := succeeds_bind.1 h
    have hd2 := (readAttributes_state h2).2.2 hd
    have hd3 := (readGroups_state h3).2.2 hd2
    exact ⟨(readAttributes_nil_succeeds hd).1 ⟨_, _, h2⟩,
      (readGroups_succeeds hd2).1 ⟨_, _, h3⟩, (readFields_succeeds hd3).1 ⟨_, _, h4⟩,
      readLinks_succeeds.1 ⟨_, _, h5⟩⟩
  · rintro ⟨g2, g3, g4, g5⟩
    obtain ⟨attrs, d2, h2⟩ := (readAttributes_nil_succeeds (c := c) hd).2 g2
    have hd2 := (readAttributes_state h2).2.2 hd
    obtain ⟨groups, d3, h3⟩ := (readGroups_succeeds (c := c) (acc := []) hd2).2 g3
    have hd3 := (readGroups_state h3).2.2 hd2
    obtain ⟨fields, d4, h4⟩ :=
      (readFields_succeeds (c := c) (used := Dict.keys groups) (acc := []) hd3).2 g4
    obtain ⟨links, d5, h5⟩ := (readLinks_succeeds
      (used := Dict.keys groups ++ Dict.keys fields) (acc := []) (d := d4)).2 g5
    exact succeeds_bind.2 ⟨_, _, h2, succeeds_bind.2 ⟨_, _, h3,
      succeeds_bind.2 ⟨_, _, h4, succeeds_bind.2 ⟨_, _, h5, succeeds_pure _ _⟩⟩⟩⟩

/-! ## the document as data: field options -/

theorem same_isNx {x y : Xml} (h : SameButFieldOptions x y) (tag : Str) :
    x.isNx tag = y.isNx tag := by
  cases h <;> rfl

theorem same_attrib {x y : Xml} (h : SameButFieldOptions x y) {tag : Str}
    (hx : x.isNx tag = true) (ht : tag ≠ s%"field") : x.attrib = y.attrib := by
  cases h with
  | comment => rfl
  | elem => rfl
  | @field nx a a' k hn =>
    simp only [Xml.isNx, Bool.and_eq_true, decide_eq_true_eq] at hx
    exact absurd hx.2.symm ht

theorem same_name {x y : Xml} (h : SameButFieldOptions x y) :
    Dict.get? x.attrib s%"name" = Dict.get? y.attrib s%"name" := by
  cases h with
  | comment => rfl
  | elem => rfl
  | field hn => exact hn

/-- the same list of children, one by one -/
def SameKids (k k' : List Xml) : Prop := List.Forall₂ SameButFieldOptions k k'

theorem forall₂_of_getElem {α : Type} {R : α → α → Prop} : ∀ {k k' : List α},
    k.length = k'.length →
    (∀ (i : Nat) (x y : α), k[i]? = some x → k'[i]? = some y → R x y) → List.Forall₂ R k k'
  | [], [], _, _ => .nil
  | [], _ :: _, h, _ => by simp at h
  | _ :: _, [], h, _ => by simp at h
  | x :: k, y :: k', h, hR => .cons (hR 0 x y rfl rfl)
      (forall₂_of_getElem (by simpa using h) fun i a b ha hb =>
        hR (i + 1) a b (by simpa using ha) (by simpa using hb))

theorem same_kids {x y : Xml} (h : SameButFieldOptions x y) : SameKids x.kids y.kids := by
  cases h with
  | comment => exact .nil
  | elem hl hk => exact forall₂_of_getElem hl hk
  | @field nx a a' k _ =>
    show List.Forall₂ _ k k
    exact List.forall₂_same.2 fun x _ => same_refl x
where
  same_refl : ∀ x : Xml, SameButFieldOptions x x := by
    intro x
    induction x using Xml.rec (motive_2 := fun k => ∀ x ∈ k, SameButFieldOptions x x) with
    | comment => exact .comment
    | elem nx tag a k ih =>
      refine .elem rfl fun i x y hx hy => ?_
      rw [hx] at hy
      injection hy with hy
      subst hy
      exact ih x (List.mem_of_getElem? hx)
    | nil => rename_i hx; simp at hx
    | cons x k h1 h2 =>
      rename_i y hy
      rcases List.mem_cons.1 hy with rfl | hy
      · exact h1
      · exact h2 y hy

theorem same_elements {k k' : List Xml} (h : SameKids k k') (tag : Str) :
    List.Forall₂ (fun x y => SameButFieldOptions x y ∧ x.isNx tag = true)
      (elements tag k) (elements tag k') := by
  induction h with
  | nil => exact .nil
  | @cons x y k k' hxy _ ih =>
    by_cases hx : x.isNx tag = true
    · rw [elements_cons_pos hx, elements_cons_pos (same_isNx hxy tag ▸ hx)]
      exact .cons ⟨hxy, hx⟩ ih
    · rw [elements_cons_neg hx, elements_cons_neg (same_isNx hxy tag ▸ hx)]
      exact ih

theorem same_enumItems {x y : Xml} (h : SameButFieldOptions x y) :
    x.enumItems = y.enumItems := by
  rw [enumItems_listed, enumItems_listed]
  unfold listed
  have h1 := same_elements (same_kids h) s%"enumeration"
  revert h1
  generalize elements s%"enumeration" x.kids = l
  generalize elements s%"enumeration" y.kids = m
  intro h1
  induction h1 with
  | nil => rfl
  | cons hab _ ih =>
    simp only [List.flatMap_cons]
    rw [ih]
    congr 1
    have h2 := same_elements (same_kids hab.1) s%"item"
    revert h2
    generalize elements s%"item" _ = p
    generalize elements s%"item" _ = q
    intro h2
    induction h2 with
    | nil => rfl
    | cons hcd _ ih2 =>
      simp only [List.filterMap_cons]
      rw [ih2, same_attrib hcd.1 hcd.2 (by decide)]

theorem same_fieldItems {x y : Xml} (h : SameButFieldOptions x y) :
    x.fieldItems = y.fieldItems := by
  rw [fieldItems_listed, fieldItems_listed]
  unfold listedItems
  have h1 := same_elements (same_kids h) s%"enumeration"
  revert h1
  generalize elements s%"enumeration" x.kids = l
  generalize elements s%"enumeration" y.kids = m
  intro h1
  induction h1 with
  | nil => rfl
  | cons hab _ ih =>
    simp only [List.flatMap_cons]
    rw [ih]
    congr 1
    have h2 := same_elements (same_kids hab.1) s%"item"
    revert h2
    generalize elements s%"item" _ = p
    generalize elements s%"item" _ = q
    intro h2
    induction h2 with
    | nil => rfl
    | cons hcd _ ih2 =>
      simp only [List.map_cons]
      rw [ih2, same_attrib hcd.1 hcd.2 (by decide)]

theorem same_need {x y : Xml} (h : SameButFieldOptions x y) :
    x.need s%"name" = y.need s%"name" := by
  unfold Xml.need
  rw [same_name h]

theorem same_readAttributes (c : Category) {k k' : List Xml} (h : SameKids k k')
    (acc : Dict Str AttrSpec) : readAttributes c k acc = readAttributes c k' acc := by
  induction h generalizing acc with
  | nil => rfl
  | @cons x y k k' hxy _ ih =>
    rw [readAttributes, readAttributes, same_isNx hxy, same_need hxy, same_enumItems hxy, ih]
    simp only [ih]

theorem same_dimSpec {x y : Xml} (h : SameButFieldOptions x y) (hx : x.isNx s%"dim" = true) :
    x.dimSpec = y.dimSpec := by
  unfold Xml.dimSpec
  rw [same_attrib h hx (by decide)]

theorem same_readDims {k k' : List Xml} (h : SameKids k k') (acc : Dict (Option Str) DimSpec) :
    readDims k acc = readDims k' acc := by
  induction h generalizing acc with
  | nil => rfl
  | @cons x y k k' hxy _ ih =>
    rw [readDims, readDims, ← same_isNx hxy]
    split
    · rename_i hx
      rw [same_dimSpec hxy hx, ih]
    · exact ih acc

theorem same_readDimensions {x y : Xml} (h : SameButFieldOptions x y) :
    readDimensions x = readDimensions y := by
  unfold readDimensions
  have h1 := same_elements (same_kids h) s%"dimensions"
  rw [elements_eq, elements_eq] at h1
  revert h1
  generalize x.kids.filter (Xml.isNx s%"dimensions") = l
  generalize y.kids.filter (Xml.isNx s%"dimensions") = m
  intro h1
  cases h1 with
  | nil => rfl
  | cons hab hl =>
    cases hl with
    | nil =>
      dsimp only
      rw [same_attrib hab.1 hab.2 (by decide), same_readDims (same_kids hab.1)]
    | cons _ _ => rfl

theorem same_readField (c : Category) {x y : Xml} (h : SameButFieldOptions x y) :
    readField c x = readField c y := by
  unfold readField
  rw [same_need h, same_readAttributes c (same_kids h), same_fieldItems h, same_readDimensions h]

theorem same_readFields (c : Category) {k k' : List Xml} (h : SameKids k k') (used : List Str)
    (acc : Dict Str FieldSpec) : readFields c used k acc = readFields c used k' acc := by
  induction h generalizing acc with
  | nil => rfl
  | @cons x y k k' hxy _ ih =>
    rw [readFields, readFields, same_isNx hxy, same_readField c hxy, ih]
    simp only [ih]

theorem same_readLinks {k k' : List Xml} (h : SameKids k k') (used : List Str)
    (acc : Dict Str LinkSpec) : readLinks used k acc = readLinks used k' acc := by
  induction h generalizing acc with
  | nil => rfl
  | @cons x y k k' hxy _ ih =>
    rw [readLinks, readLinks, same_need hxy, ← same_isNx hxy]
    split
    · rename_i hx
      rw [same_attrib hxy hx (by decide)]
      simp only [ih]
    · rw [ih]

mutual
theorem same_readGroup (c : Category) : ∀ {x y : Xml}, SameButFieldOptions x y →
    x.isNx s%"group" = true → readGroup c x = readGroup c y
  | .comment, _, _, hx => by simp [Xml.isNx] at hx
  | .elem nx tag a kids, y, h, hx => by
    have ha := same_attrib h hx (by decide)
    have hk := same_kids h
    cases y with
    | comment => cases h
    | elem nx' tag' a' kids' =>
      simp only [Xml.attrib] at ha
      simp only [Xml.kids] at hk
      subst ha
      rw [readGroup, readGroup, same_readAttributes c hk]
      simp only [same_readGroups c hk, same_readFields c hk, same_readLinks hk]
theorem same_readGroups (c : Category) : ∀ {k k' : List Xml}, SameKids k k' →
    ∀ acc, readGroups c k acc = readGroups c k' acc
  | [], k', h, acc => by cases h; rfl
  | x :: k, k', h, acc => by
    cases h with
    | @cons _ y _ k' hxy hk =>
      rw [readGroups, readGroups, ← same_isNx hxy]
      split
      · rename_i hx
        rw [same_readGroup c hxy hx]
        simp only [same_readGroups c hk]
      · rw [same_readGroups c hk]
end

/-- **C75.** The options of fields (`minOccurs`, `optional`, `type`, ...) have no influence:
two documents that differ only in them are read alike.  So a field that an
application definition declares with `minOccurs="0"` is treated like a required one. -/
theorem field_options_ignored (title : Str) (c : Category) {x y : Xml}
    (h : SameButFieldOptions x y) : readDefinition title c x = readDefinition title c y := by
  have hk := same_kids h
  have hs : readSymbols x = readSymbols y := by
    have h1 := same_elements hk s%"symbols"
    unfold readSymbols
    show (elements s%"symbols" x.kids).flatMap _ = (elements s%"symbols" y.kids).flatMap _
    revert h1
    generalize elements s%"symbols" x.kids = l
    generalize elements s%"symbols" y.kids = m
    intro h1
    induction h1 with
    | nil => rfl
    | cons hab _ ih =>
      simp only [List.flatMap_cons]
      rw [ih]
      congr 1
      have h2 := same_kids hab.1
      revert h2
      unfold SameKids
      generalize Xml.kids _ = p
      generalize Xml.kids _ = q
      intro h2
      induction h2 with
      | nil => rfl
      | cons hcd _ ih2 =>
        simp only [List.filterMap_cons]
        rw [ih2]
        cases hcd with
        | comment => rfl
        | elem => rfl
        | field => rfl
  unfold readDefinition
  rw [same_readAttributes c hk, same_readGroups c hk]
  simp only [same_readFields c hk, same_readLinks hk, hs]

end Punx

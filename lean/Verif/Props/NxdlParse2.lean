import Verif.Props.NxdlParse

/-!
# C49, C51: which documents can be read, and what reading them changes
-/

namespace Punx
open Spec

/-! ## effect on the shared defaults -/

/-- The default of `minOccurs` of fields becomes 1 if `P`, and stays otherwise. -/
def Cell (P : Prop) (d d' : Defaults) : Prop :=
  (P → d'.fieldMinOccurs = some (.int 1)) ∧ (¬ P → d'.fieldMinOccurs = d.fieldMinOccurs)

theorem Cell.of_eq {P : Prop} {d d' : Defaults} (hP : ¬ P)
    (h : d'.fieldMinOccurs = d.fieldMinOccurs) : Cell P d d' :=
  ⟨fun p => absurd p hP, fun _ => h⟩

theorem Cell.trans {P Q R : Prop} {d d1 d2 : Defaults} (h1 : Cell P d d1) (h2 : Cell Q d1 d2)
    (hR : R ↔ P ∨ Q) : Cell R d d2 := by
  classical
  constructor
  · intro r
    by_cases q : Q
    · exact h2.1 q
    · rw [h2.2 q]
      exact h1.1 ((hR.1 r).resolve_right q)
  · intro r
    have hp : ¬ P := fun p => r (hR.2 (.inl p))
    have hq : ¬ Q := fun q => r (hR.2 (.inr q))
    rw [h2.2 hq, h1.2 hp]

theorem noteAttribute_ok {c : Category} {u : Unit} {d d' : Defaults}
    (h : noteAttribute c d = .ok (u, d')) :
    (c ≠ .applications → d' = d) ∧ d'.fieldMinOccurs = d.fieldMinOccurs ∧
      (Declared d → Declared d') := by
  unfold noteAttribute at h
  cases c with
  | applications =>
    cases ho : d.attrOptional with
    | none => simp [ho] at h
    | some v =>
      simp only [ho] at h
      injection h with h
      injection h with _ h
      subst h
      exact ⟨fun hc => absurd rfl hc, rfl, fun hd => ⟨rfl, hd.2⟩⟩
  | baseClasses =>
    injection h with h; injection h with _ h; subst h
    exact ⟨fun _ => rfl, rfl, id⟩
  | contributed =>
    injection h with h; injection h with _ h; subst h
    exact ⟨fun _ => rfl, rfl, id⟩

theorem noteGroup_ok {c : Category} {u : Unit} {d d' : Defaults}
    (h : noteGroup c d = .ok (u, d')) :
    (c ≠ .applications → d' = d) ∧ d'.fieldMinOccurs = d.fieldMinOccurs ∧
      (Declared d → Declared d') := by
  unfold noteGroup at h
  cases c with
  | applications =>
    cases ho : d.groupMinOccurs with
    | none => simp [ho] at h
    | some v =>
      simp only [ho] at h
      injection h with h
      injection h with _ h
      subst h
      exact ⟨fun hc => absurd rfl hc, rfl, fun hd => ⟨hd.1, hd.2.1, rfl, hd.2.2.2⟩⟩
  | baseClasses =>
    injection h with h; injection h with _ h; subst h
    exact ⟨fun _ => rfl, rfl, id⟩
  | contributed =>
    injection h with h; injection h with _ h; subst h
    exact ⟨fun _ => rfl, rfl, id⟩

theorem noteField_ok {c : Category} {u : Unit} {d d' : Defaults}
    (h : noteField c d = .ok (u, d')) :
    (c ≠ .applications → d' = d) ∧ (c = .applications → d'.fieldMinOccurs = some (.int 1)) ∧
      (Declared d → Declared d') := by
  unfold noteField at h
  cases c with
  | applications =>
    cases ho : d.fieldMinOccurs with
    | none => simp [ho] at h
    | some v =>
      simp only [ho] at h
      injection h with h
      injection h with _ h
      subst h
      exact ⟨fun hc => absurd rfl hc, fun _ => rfl, fun hd => ⟨hd.1, rfl, hd.2.2⟩⟩
  | baseClasses =>
    injection h with h; injection h with _ h; subst h
    exact ⟨fun _ => rfl, (by intro hc; cases hc), id⟩
  | contributed =>
    injection h with h; injection h with _ h; subst h
    exact ⟨fun _ => rfl, (by intro hc; cases hc), id⟩

theorem readAttributes_state {c : Category} {xs : List Xml} {acc r : Dict Str AttrSpec}
    {d d' : Defaults} (h : readAttributes c xs acc d = .ok (r, d')) :
    (c ≠ .applications → d' = d) ∧ d'.fieldMinOccurs = d.fieldMinOccurs ∧
      (Declared d → Declared d') := by
  induction xs generalizing acc d with
  | nil =>
    rw [readAttributes, Reader.pure_ok] at h
    obtain ⟨_, rfl⟩ := h
    exact ⟨fun _ => rfl, rfl, id⟩
  | cons x xs ih =>
    rw [readAttributes] at h
    split at h
    · obtain ⟨name, d1, h1, h⟩ := Reader.bind_ok.1 h
      obtain ⟨_, rfl⟩ := need_ok.1 h1
      obtain ⟨_, d2, h2, h⟩ := Reader.bind_ok.1 h
      split at h
      · exact absurd h (by simp [Reader.raise])
      · obtain ⟨a1, a2, a3⟩ := noteAttribute_ok h2
        obtain ⟨b1, b2, b3⟩ := ih h
        exact ⟨fun hc => (b1 hc).trans (a1 hc), b2.trans a2, b3 ∘ a3⟩
    · exact ih h

theorem readField_state {c : Category} {x : Xml} {f : Str × FieldSpec} {d d' : Defaults}
    (h : readField c x d = .ok (f, d')) :
    (c ≠ .applications → d' = d) ∧ d'.fieldMinOccurs = d.fieldMinOccurs ∧
      (Declared d → Declared d') := by
  unfold readField at h
  obtain ⟨name, d1, h1, h⟩ := Reader.bind_ok.1 h
  obtain ⟨_, rfl⟩ := need_ok.1 h1
  obtain ⟨attrs, d2, h2, h⟩ := Reader.bind_ok.1 h
  obtain ⟨dims, d3, h3, h4⟩ := Reader.bind_ok.1 h
  obtain ⟨rfl, _⟩ := readDimensions_ok h3
  rw [Reader.pure_ok] at h4
  obtain ⟨_, rfl⟩ := h4
  exact readAttributes_state h2

theorem readFields_state {c : Category} {used : List Str} {xs : List Xml}
    {acc r : Dict Str FieldSpec} {d d' : Defaults}
    (h : readFields c used xs acc d = .ok (r, d')) :
    (c ≠ .applications → d' = d) ∧
      (c = .applications → Cell (∃ f, f ∈ elements s%"field" xs) d d') ∧
      (Declared d → Declared d') := by
  induction xs generalizing acc d with
  | nil =>
    rw [readFields, Reader.pure_ok] at h
    obtain ⟨_, rfl⟩ := h
    exact ⟨fun _ => rfl, fun _ => .of_eq (by simp [elements]) rfl, id⟩
  | cons x xs ih =>
    rw [readFields] at h
    split at h
    · rename_i hx
      obtain ⟨f, d1, h1, h⟩ := Reader.bind_ok.1 h
      obtain ⟨_, d2, h2, h⟩ := Reader.bind_ok.1 h
      obtain ⟨a1, a2, a3⟩ := readField_state h1
      obtain ⟨b1, b2, b3⟩ := noteField_ok h2
      obtain ⟨e1, e2, e3⟩ := ih h
      refine ⟨fun hc => ((e1 hc).trans (b1 hc)).trans (a1 hc), fun hc => ?_, e3 ∘ b3 ∘ a3⟩
      have hcell : Cell True d d2 := ⟨fun _ => b2 hc, fun hn => absurd trivial hn⟩
      refine hcell.trans (e2 hc) ?_
      rw [elements_cons_pos hx]
      exact ⟨fun _ => .inl trivial, fun _ => ⟨x, by simp⟩⟩
    · rename_i hx
      rw [elements_cons_neg hx]
      exact ih h

theorem hasField_iff {x : Xml} : HasField x ↔
    (∃ g ∈ elements s%"group" x.kids, HasField g) ∨ ∃ f, f ∈ elements s%"field" x.kids := by
  constructor
  · intro h
    cases h with
    | here hf => exact .inr ⟨_, hf⟩
    | deeper hg h => exact .inl ⟨_, hg, h⟩
  · rintro (⟨g, hg, h⟩ | ⟨f, hf⟩)
    · exact .deeper hg h
    · exact .here hf

mutual
theorem readGroup_state {c : Category} : ∀ {x : Xml} {g : Str × GroupSpec} {d d' : Defaults},
    readGroup c x d = .ok (g, d') →
    (c ≠ .applications → d' = d) ∧ (c = .applications → Cell (HasField x) d d') ∧
      (Declared d → Declared d')
  | .comment, g, d, d', h => by
    rw [readGroup] at h; exact absurd h (by simp [Reader.raise])
  | .elem nx tag a kids, g, d, d', h => by
    rw [readGroup] at h
    obtain ⟨name, d1, h1, h⟩ := Reader.bind_ok.1 h
    obtain ⟨attrs, d2, h2, h⟩ := Reader.bind_ok.1 h
    obtain ⟨groups, d3, h3, h⟩ := Reader.bind_ok.1 h
    obtain ⟨fields, d4, h4, h⟩ := Reader.bind_ok.1 h
    obtain ⟨links, d5, h5, h⟩ := Reader.bind_ok.1 h
    rw [Reader.pure_ok] at h
    obtain ⟨_, rfl⟩ := h
    obtain ⟨rfl, _⟩ := groupName_ok h1 nx tag kids
    obtain ⟨a1, a2, a3⟩ := readAttributes_state h2
    obtain ⟨b1, b2, b3⟩ := readGroups_state h3
    obtain ⟨e1, e2, e3⟩ := readFields_state h4
    obtain ⟨_, _, _, rfl, _⟩ := readLinks_ok h5
    refine ⟨fun hc => ((e1 hc).trans (b1 hc)).trans (a1 hc), fun hc => ?_, e3 ∘ b3 ∘ a3⟩
    have hcell : Cell False d d2 := .of_eq id a2
    refine (hcell.trans (b2 hc) (R := ∃ g ∈ elements s%"group" kids, HasField g)
      (by simp)).trans (e2 hc) ?_
    exact hasField_iff
theorem readGroups_state {c : Category} : ∀ {xs : List Xml}
    {acc r : Dict Str GroupSpec} {d d' : Defaults},
    readGroups c xs acc d = .ok (r, d') →
    (c ≠ .applications → d' = d) ∧
      (c = .applications → Cell (∃ g ∈ elements s%"group" xs, HasField g) d d') ∧
      (Declared d → Declared d')
  | [], acc, r, d, d', h => by
    rw [readGroups, Reader.pure_ok] at h
    obtain ⟨_, rfl⟩ := h
    exact ⟨fun _ => rfl, fun _ => .of_eq (by simp [elements]) rfl, id⟩
  | x :: xs, acc, r, d, d', h => by
    rw [readGroups] at h
    split at h
    · rename_i hx
      obtain ⟨g, d1, h1, h⟩ := Reader.bind_ok.1 h
      obtain ⟨_, d2, h2, h⟩ := Reader.bind_ok.1 h
      obtain ⟨a1, a2, a3⟩ := readGroup_state h1
      obtain ⟨b1, b2, b3⟩ := noteGroup_ok h2
      obtain ⟨e1, e2, e3⟩ := readGroups_state h
      refine ⟨fun hc => ((e1 hc).trans (b1 hc)).trans (a1 hc), fun hc => ?_, e3 ∘ b3 ∘ a3⟩
      have hcell : Cell (HasField x) d d2 :=
        (a2 hc).trans (Cell.of_eq (P := False) id b2) (by simp)
      refine hcell.trans (e2 hc) ?_
      rw [elements_cons_pos hx]
      simp
    · rename_i hx
      rw [elements_cons_neg hx]
      exact readGroups_state h
end

theorem readDefinition_state {title : Str} {c : Category} {root : Xml} {cd : ClassDef}
    {d d' : Defaults} (h : readDefinition title c root d = .ok (cd, d')) :
    (c ≠ .applications → d' = d) ∧ (c = .applications → Cell (HasField root) d d') ∧
      (Declared d → Declared d') := by
  unfold readDefinition at h
  obtain ⟨attrs, d2, h2, h⟩ := Reader.bind_ok.1 h
  obtain ⟨groups, d3, h3, h⟩ := Reader.bind_ok.1 h
  obtain ⟨fields, d4, h4, h⟩ := Reader.bind_ok.1 h
  obtain ⟨links, d5, h5, h⟩ := Reader.bind_ok.1 h
  rw [Reader.pure_ok] at h
  obtain ⟨_, rfl⟩ := h
  obtain ⟨a1, a2, a3⟩ := readAttributes_state h2
  obtain ⟨b1, b2, b3⟩ := readGroups_state h3
  obtain ⟨e1, e2, e3⟩ := readFields_state h4
  obtain ⟨_, _, _, rfl, _⟩ := readLinks_ok h5
  refine ⟨fun hc => ((e1 hc).trans (b1 hc)).trans (a1 hc), fun hc => ?_, e3 ∘ b3 ∘ a3⟩
  have hcell : Cell False d d2 := .of_eq id a2
  exact (hcell.trans (b2 hc) (R := ∃ g ∈ elements s%"group" root.kids, HasField g)
    (by simp)).trans (e2 hc) hasField_iff

/-! ## which documents can be read -/

/-- the computation ends without an exception -/
def Succeeds {α} (x : Reader α) (d : Defaults) : Prop := ∃ a d', x d = .ok (a, d')

theorem succeeds_bind {α β} {x : Reader α} {f : α → Reader β} {d : Defaults} :
    Succeeds (x >>= f) d ↔ ∃ a d1, x d = .ok (a, d1) ∧ Succeeds (f a) d1 := by
  constructor
  · rintro ⟨b, d', h⟩
    obtain ⟨a, d1, h1, h2⟩ := Reader.bind_ok.1 h
    exact ⟨a, d1, h1, b, d', h2⟩
  · rintro ⟨a, d1, h1, b, d', h2⟩
    exact ⟨b, d', Reader.bind_ok.2 ⟨a, d1, h1, h2⟩⟩

theorem succeeds_pure {α} (a : α) (d : Defaults) : Succeeds (pure a) d := ⟨a, d, rfl⟩

theorem noteAttribute_succeeds (c : Category) {d : Defaults} (hd : Declared d) :
    ∃ d', noteAttribute c d = .ok ((), d') := by
  unfold noteAttribute
  cases c with
  | applications =>
    obtain ⟨v, hv⟩ := Option.isSome_iff_exists.1 hd.1
    simp [hv]
  | _ => exact ⟨d, rfl⟩

theorem noteField_succeeds (c : Category) {d : Defaults} (hd : Declared d) :
    ∃ d', noteField c d = .ok ((), d') := by
  unfold noteField
  cases c with
  | applications =>
    obtain ⟨v, hv⟩ := Option.isSome_iff_exists.1 hd.2.1
    simp [hv]
  | _ => exact ⟨d, rfl⟩

theorem noteGroup_succeeds (c : Category) {d : Defaults} (hd : Declared d) :
    ∃ d', noteGroup c d = .ok ((), d') := by
  unfold noteGroup
  cases c with
  | applications =>
    obtain ⟨v, hv⟩ := Option.isSome_iff_exists.1 hd.2.2.1
    simp [hv]
  | _ => exact ⟨d, rfl⟩

theorem readAttributes_succeeds {c : Category} {xs : List Xml} {acc : Dict Str AttrSpec}
    {d : Defaults} (hd : Declared d) :
    Succeeds (readAttributes c xs acc) d ↔
      GoodAttrs xs ∧ ∀ x ∈ elements s%"attribute" xs, ∀ n, nameOf x = some n → n ∉ Dict.keys acc := by
  induction xs generalizing acc d with
  | nil =>
    rw [readAttributes]
    simp [succeeds_pure, GoodAttrs, elements]
  | cons x xs ih =>
    rw [readAttributes]
    by_cases hx : x.isNx s%"attribute" = true
    · rw [if_pos hx]
      unfold GoodAttrs
      rw [elements_cons_pos hx]
      constructor
      · intro h
        obtain ⟨name, d1, h1, h⟩ := succeeds_bind.1 h
        obtain ⟨hn, rfl⟩ := need_ok.1 h1
        obtain ⟨_, d2, h2, h⟩ := succeeds_bind.1 h
        have hd2 := (noteAttribute_ok h2).2.2 hd
        split at h
        · obtain ⟨a, d', h⟩ := h; exact absurd h (by simp [Reader.raise])
        · rename_i hnew
          have hnm : name ∉ Dict.keys acc := fun hm => hnew (Dict.has_iff.2 hm)
          obtain ⟨⟨g1, g2⟩, g3⟩ := (ih hd2).1 h
          refine ⟨⟨?_, ?_⟩, ?_⟩
          · intro y hy
            rcases List.mem_cons.1 hy with rfl | hy
            · unfold nameOf; rw [hn]; rfl
            · exact g1 y hy
          · rw [List.map_cons, List.nodup_cons]
            refine ⟨?_, g2⟩
            intro hm
            obtain ⟨y, hy, hey⟩ := List.mem_map.1 hm
            have : nameOf y = some name := by rw [hey]; exact hn
            exact g3 y hy name this (Dict.mem_keys_set.2 (.inl rfl))
          · intro y hy n hyn
            rcases List.mem_cons.1 hy with rfl | hy
            · have : n = name := by
                unfold nameOf at hyn; rw [hn] at hyn; injection hyn with h; exact h.symm
              subst this; exact hnm
            · exact fun hm => g3 y hy n hyn (Dict.mem_keys_set.2 (.inr hm))
      · rintro ⟨⟨g1, g2⟩, g3⟩
        obtain ⟨name, hname⟩ := Option.isSome_iff_exists.1 (g1 x (by simp))
        have hnm : name ∉ Dict.keys acc := g3 x (by simp) name hname
        obtain ⟨d2, h2⟩ := noteAttribute_succeeds c hd
        have hd2 := (noteAttribute_ok h2).2.2 hd
        refine succeeds_bind.2 ⟨name, d, need_ok.2 ⟨hname, rfl⟩, succeeds_bind.2 ⟨(), d2, h2, ?_⟩⟩
        rw [if_neg (fun hh => hnm (Dict.has_iff.1 hh))]
        refine (ih hd2).2 ⟨⟨fun y hy => g1 y (by simp [hy]), ?_⟩, ?_⟩
        · rw [List.map_cons, List.nodup_cons] at g2; exact g2.2
        · intro y hy n hyn hm
          rcases Dict.mem_keys_set.1 hm with rfl | hm
          · rw [List.map_cons, List.nodup_cons] at g2
            exact g2.1 (List.mem_map.2 ⟨y, hy, hyn.trans hname.symm⟩)
          · exact g3 y (by simp [hy]) n hyn hm
    · rw [if_neg hx, ih hd]
      unfold GoodAttrs
      rw [elements_cons_neg hx]

theorem readAttributes_nil_succeeds {c : Category} {xs : List Xml}
    {d : Defaults} (hd : Declared d) :
    Succeeds (readAttributes c xs []) d ↔ GoodAttrs xs := by
  rw [readAttributes_succeeds hd]
  simp [Dict.keys]

theorem readDims_succeeds {xs : List Xml} {acc : Dict (Option Str) DimSpec} {d : Defaults}
    (hd : Declared d) : ∃ r, readDims xs acc d = .ok (r, d) := by
  induction xs generalizing acc with
  | nil => exact ⟨acc, rfl⟩
  | cons x xs ih =>
    rw [readDims]
    split
    · obtain ⟨r, h⟩ := ih (acc := Dict.set acc x.dimSpec.index x.dimSpec)
      exact ⟨r, Reader.bind_ok.2 ⟨(), d, needComponent_ok.2 ⟨hd.2.2.2.2, rfl⟩, h⟩⟩
    · exact ih

theorem readDimensions_succeeds (x : Xml) {d : Defaults} (hd : Declared d) :
    ∃ o, readDimensions x d = .ok (o, d) := by
  rw [readDimensions_def]
  cases elements s%"dimensions" x.kids with
  | nil => exact ⟨none, rfl⟩
  | cons y t =>
    cases t with
    | cons z t => exact ⟨none, rfl⟩
    | nil =>
      obtain ⟨r, h⟩ := readDims_succeeds (xs := y.kids) (acc := []) hd
      exact ⟨_, Reader.bind_ok.2 ⟨(), d, needComponent_ok.2 ⟨hd.2.2.2.1, rfl⟩,
        Reader.bind_ok.2 ⟨r, d, h, rfl⟩⟩⟩

theorem readField_succeeds {c : Category} {x : Xml} {d : Defaults} (hd : Declared d) :
    Succeeds (readField c x) d ↔ GoodField x := by
  unfold readField GoodField
  constructor
  · intro h
    obtain ⟨name, d1, h1, h⟩ := succeeds_bind.1 h
    obtain ⟨a, d2, h2, _⟩ := succeeds_bind.1 h
    obtain ⟨hn, rfl⟩ := need_ok.1 h1
    exact ⟨by unfold nameOf; rw [hn]; rfl, (readAttributes_nil_succeeds hd).1 ⟨a, d2, h2⟩⟩
  · rintro ⟨h1, h2⟩
    obtain ⟨name, hname⟩ := Option.isSome_iff_exists.1 h1
    obtain ⟨a, d2, h⟩ := (readAttributes_nil_succeeds (c := c) hd).2 h2
    obtain ⟨o, h3⟩ := readDimensions_succeeds x ((readAttributes_state h).2.2 hd)
    exact succeeds_bind.2 ⟨name, d, need_ok.2 ⟨hname, rfl⟩,
      succeeds_bind.2 ⟨a, d2, h, succeeds_bind.2 ⟨o, d2, h3, succeeds_pure _ _⟩⟩⟩

theorem readFields_succeeds {c : Category} {used : List Str} {xs : List Xml}
    {acc : Dict Str FieldSpec} {d : Defaults} (hd : Declared d) :
    Succeeds (readFields c used xs acc) d ↔ ∀ f ∈ elements s%"field" xs, GoodField f := by
  induction xs generalizing acc d with
  | nil => rw [readFields]; simp [succeeds_pure, elements]
  | cons x xs ih =>
    rw [readFields]
    by_cases hx : x.isNx s%"field" = true
    · rw [if_pos hx, elements_cons_pos hx]
      constructor
      · intro h
        obtain ⟨f, d1, h1, h⟩ := succeeds_bind.1 h
        obtain ⟨_, d2, h2, h⟩ := succeeds_bind.1 h
        have hd1 := (readField_state h1).2.2 hd
        have hd2 := (noteField_ok h2).2.2 hd1
        intro y hy
        rcases List.mem_cons.1 hy with rfl | hy
        · exact (readField_succeeds hd).1 ⟨f, d1, h1⟩
        · exact (ih hd2).1 h y hy
      · intro h
        obtain ⟨f, d1, h1⟩ := (readField_succeeds (c := c) hd).2 (h x (by simp))
        have hd1 := (readField_state h1).2.2 hd
        obtain ⟨d2, h2⟩ := noteField_succeeds c hd1
        have hd2 := (noteField_ok h2).2.2 hd1
        exact succeeds_bind.2 ⟨f, d1, h1, succeeds_bind.2 ⟨(), d2, h2,
          (ih hd2).2 fun y hy => h y (by simp [hy])⟩⟩
    · rw [if_neg hx, elements_cons_neg hx]
      exact ih hd

theorem readLinks_succeeds {used : List Str} {xs : List Xml}
    {acc : Dict Str LinkSpec} {d : Defaults} :
    Succeeds (readLinks used xs acc) d ↔ ∀ l ∈ elements s%"link" xs, (nameOf l).isSome := by
  induction xs generalizing acc d with
  | nil => rw [readLinks]; simp [succeeds_pure, elements]
  | cons x xs ih =>
    rw [readLinks]
    by_cases hx : x.isNx s%"link" = true
    · rw [if_pos hx, elements_cons_pos hx]
      constructor
      · intro h
        obtain ⟨name, d1, h1, h⟩ := succeeds_bind.1 h
        obtain ⟨hn, rfl⟩ := need_ok.1 h1
        intro y hy
        rcases List.mem_cons.1 hy with rfl | hy
        · unfold nameOf; rw [hn]; rfl
        · exact ih.1 h y hy
      · intro h
        obtain ⟨name, hname⟩ := Option.isSome_iff_exists.1 (h x (by simp))
        exact succeeds_bind.2 ⟨name, d, need_ok.2 ⟨hname, rfl⟩,
          ih.2 fun y hy => h y (by simp [hy])⟩
    · rw [if_neg hx, elements_cons_neg hx]
      exact ih

theorem groupName_succeeds {a : Dict Str Str} {d : Defaults} :
    Succeeds (groupName a) d ↔ Dict.has a s%"type" = true := by
  unfold groupName Dict.has
  cases h : Dict.get? a s%"type" with
  | none => simp [Succeeds, Reader.raise]
  | some t => simp [succeeds_pure]

mutual
theorem readGroup_succeeds {c : Category} : ∀ {x : Xml} {d : Defaults}, Declared d →
    (Succeeds (readGroup c x) d ↔ GoodGroup x)
  | .comment, d, _ => by
    constructor
    · rintro ⟨a, d', h⟩; rw [readGroup] at h; exact absurd h (by simp [Reader.raise])
    · intro h; cases h
  | .elem nx tag a kids, d, hd => by
    rw [readGroup]
    constructor
    · intro h
      obtain ⟨name, d1, h1, h⟩ := succeeds_bind.1 h
      obtain ⟨attrs, d2, h2, h⟩ := succeeds_bind.1 h
      obtain ⟨groups, d3, h3, h⟩ := succeeds_bind.1 h
      obtain ⟨fields, d4, h4, h⟩ := succeeds_bind.1 h
      obtain ⟨links, d5, h5, h⟩ := succeeds_bind.1 h
      obtain ⟨rfl, _⟩ := groupName_ok h1 nx tag kids
      have hd2 := (readAttributes_state h2).2.2 hd
      have hd3 := (readGroups_state h3).2.2 hd2
      exact .mk (groupName_succeeds.1 ⟨_, _, h1⟩)
        ((readAttributes_nil_succeeds hd).1 ⟨_, _, h2⟩)
        ((readGroups_succeeds hd2).1 ⟨_, _, h3⟩)
        ((readFields_succeeds hd3).1 ⟨_, _, h4⟩)
        (readLinks_succeeds.1 ⟨_, _, h5⟩)
    · intro h
      cases h with
      | mk g1 g2 g3 g4 g5 =>
        obtain ⟨name, d1, h1⟩ := (groupName_succeeds (d := d)).2 g1
        obtain ⟨rfl, _⟩ := groupName_ok h1 nx tag kids
        obtain ⟨attrs, d2, h2⟩ := (readAttributes_nil_succeeds (c := c) hd).2 g2
        have hd2 := (readAttributes_state h2).2.2 hd
        obtain ⟨groups, d3, h3⟩ := (readGroups_succeeds (c := c) (acc := []) hd2).2 g3
        have hd3 := (readGroups_state h3).2.2 hd2
        obtain ⟨fields, d4, h4⟩ :=
          (readFields_succeeds (c := c) (used := Dict.keys groups) (acc := []) hd3).2 g4
        obtain ⟨links, d5, h5⟩ := (readLinks_succeeds
          (used := Dict.keys groups ++ Dict.keys fields) (acc := []) (d := d4)).2 g5
        exact succeeds_bind.2 ⟨_, _, h1, succeeds_bind.2 ⟨_, _, h2, succeeds_bind.2 ⟨_, _, h3,
          succeeds_bind.2 ⟨_, _, h4, succeeds_bind.2 ⟨_, _, h5, succeeds_pure _ _⟩⟩⟩⟩⟩
theorem readGroups_succeeds {c : Category} : ∀ {xs : List Xml}
    {acc : Dict Str GroupSpec} {d : Defaults}, Declared d →
    (Succeeds (readGroups c xs acc) d ↔ ∀ g ∈ elements s%"group" xs, GoodGroup g)
  | [], acc, d, _ => by rw [readGroups]; simp [succeeds_pure, elements]
  | x :: xs, acc, d, hd => by
    rw [readGroups]
    by_cases hx : x.isNx s%"group" = true
    · rw [if_pos hx, elements_cons_pos hx]
      constructor
      · intro h
        obtain ⟨g, d1, h1, h⟩ := succeeds_bind.1 h
        obtain ⟨_, d2, h2, h⟩ := succeeds_bind.1 h
        have hd1 := (readGroup_state h1).2.2 hd
        have hd2 := (noteGroup_ok h2).2.2 hd1
        intro y hy
        rcases List.mem_cons.1 hy with hyx | hy
        · rw [hyx]; exact (readGroup_succeeds hd).1 ⟨g, d1, h1⟩
        · exact (readGroups_succeeds hd2).1 h y hy
      · intro h
        obtain ⟨g, d1, h1⟩ := (readGroup_succeeds (c := c) hd).2 (h x (by simp))
        have hd1 := (readGroup_state h1).2.2 hd
        obtain ⟨d2, h2⟩ := noteGroup_succeeds c hd1
        have hd2 := (noteGroup_ok h2).2.2 hd1
        exact succeeds_bind.2 ⟨g, d1, h1, succeeds_bind.2 ⟨(), d2, h2,
          (readGroups_succeeds hd2).2 fun y hy => h y (by simp [hy])⟩⟩
    · rw [if_neg hx, elements_cons_neg hx]
      exact readGroups_succeeds hd
end

end Punx

import Verif.Spec.Shared
import Verif.Props.NxdlParse5

/-!
# C142: what the reading of definitions does to the defaults of the schema
-/

namespace Punx
open Spec

theorem Spec.After.none (d : Defaults) : After False False False d d :=
  ⟨False.elim, fun _ => rfl, False.elim, fun _ => rfl, False.elim, fun _ => rfl, rfl, rfl⟩

theorem cell_trans {α : Type} {P Q R : Prop} {v a b c : α} (h1 : P → b = v) (h1' : ¬ P → b = a)
    (h2 : Q → c = v) (h2' : ¬ Q → c = b) (hR : R ↔ P ∨ Q) : (R → c = v) ∧ (¬ R → c = a) := by
  classical
  constructor
  · intro r
    by_cases q : Q
    · exact h2 q
    · exact (h2' q).trans (h1 ((hR.1 r).resolve_right q))
  · intro nr
    exact (h2' fun q => nr (hR.2 (.inr q))).trans (h1' fun p => nr (hR.2 (.inl p)))

theorem Spec.After.trans {A F G A' F' G' A'' F'' G'' : Prop} {d d1 d2 : Defaults} (h1 : After A F G d d1)
    (h2 : After A' F' G' d1 d2) (hA : A'' ↔ A ∨ A') (hF : F'' ↔ F ∨ F') (hG : G'' ↔ G ∨ G') :
    After A'' F'' G'' d d2 := by
  have a := cell_trans h1.attributes h1.noAttributes h2.attributes h2.noAttributes hA
  have f := cell_trans h1.fields h1.noFields h2.fields h2.noFields hF
  have g := cell_trans h1.groups h1.noGroups h2.groups h2.noGroups hG
  exact ⟨a.1, a.2, f.1, f.2, g.1, g.2, h2.dimensions.trans h1.dimensions, h2.dim.trans h1.dim⟩

theorem Spec.After.congr {A F G A' F' G' : Prop} {d d' : Defaults} (h : After A F G d d') (hA : A' ↔ A)
    (hF : F' ↔ F) (hG : G' ↔ G) : After A' F' G' d d' := by
  rw [← propext hA, ← propext hF, ← propext hG] at h; exact h

/-- Definitions of other categories change nothing. -/
def App (c : Category) (P : Prop) : Prop := c = .applications ∧ P

theorem noteAttribute_after {c : Category} {u : Unit} {d d' : Defaults}
    (h : noteAttribute c d = .ok (u, d')) : After (App c True) False False d d' := by
  unfold noteAttribute at h
  cases c with
  | applications =>
    cases ho : d.attrOptional with
    | none => simp [ho] at h
    | some v =>
      simp only [ho] at h
      injection h with h
      injection h with _ h
      subst h
      exact ⟨fun _ => rfl, fun n => absurd ⟨rfl, trivial⟩ n, False.elim, fun _ => rfl, False.elim,
        fun _ => rfl, rfl, rfl⟩
  | _ =>
    injection h with h; injection h with _ h; subst h
    exact (After.none d).congr (by simp [App]) Iff.rfl Iff.rfl

theorem noteField_after {c : Category} {u : Unit} {d d' : Defaults}
    (h : noteField c d = .ok (u, d')) : After False (App c True) False d d' := by
  unfold noteField at h
  cases c with
  | applications =>
    cases ho : d.fieldMinOccurs with
    | none => simp [ho] at h
    | some v =>
      simp only [ho] at h
      injection h with h
      injection h with _ h
      subst h
      exact ⟨False.elim, fun _ => rfl, fun _ => rfl, fun n => absurd ⟨rfl, trivial⟩ n, False.elim,
        fun _ => rfl, rfl, rfl⟩
  | _ =>
    injection h with h; injection h with _ h; subst h
    exact (After.none d).congr Iff.rfl (by simp [App]) Iff.rfl

theorem noteGroup_after {c : Category} {u : Unit} {d d' : Defaults}
    (h : noteGroup c d = .ok (u, d')) : After False False (App c True) d d' := by
  unfold noteGroup at h
  cases c with
  | applications =>
    cases ho : d.groupMinOccurs with
    | none => simp [ho] at h
    | some v =>
      simp only [ho] at h
      injection h with h
      injection h with _ h
      subst h
      exact ⟨False.elim, fun _ => rfl, False.elim, fun _ => rfl, fun _ => rfl,
        fun n => absurd ⟨rfl, trivial⟩ n, rfl, rfl⟩
  | _ =>
    injection h with h; injection h with _ h; subst h
    exact (After.none d).congr Iff.rfl Iff.rfl (by simp [App])

theorem readAttributes_after {c : Category} {xs : List Xml} {acc r : Dict Str AttrSpec}
    {d d' : Defaults} (h : readAttributes c xs acc d = .ok (r, d')) :
    After (App c (elements s%"attribute" xs ≠ [])) False False d d' := by
  induction xs generalizing acc d with
  | nil =>
    rw [readAttributes, Reader.pure_ok] at h
    obtain ⟨_, rfl⟩ := h
    exact (After.none d).congr (by simp [App, elements]) Iff.rfl Iff.rfl
  | cons x xs ih =>
    rw [readAttributes] at h
    split at h
    · rename_i hx
      obtain ⟨name, d1, h1, h⟩ := Reader.bind_ok.1 h
      obtain ⟨_, rfl⟩ := need_ok.1 h1
      obtain ⟨_, d2, h2, h⟩ := Reader.bind_ok.1 h
      split at h
      · exact absurd h (by simp [Reader.raise])
      · rw [elements_cons_pos hx]
        exact (noteAttribute_after h2).trans (ih h) (by simp [App]; tauto) (by simp) (by simp)
    · rename_i hx
      rw [elements_cons_neg hx]
      exact ih h

theorem readField_after {c : Category} {x : Xml} {f : Str × FieldSpec} {d d' : Defaults}
    (h : readField c x d = .ok (f, d')) :
    After (App c (elements s%"attribute" x.kids ≠ [])) False False d d' := by
  unfold readField at h
  obtain ⟨name, d1, h1, h⟩ := Reader.bind_ok.1 h
  obtain ⟨_, rfl⟩ := need_ok.1 h1
  obtain ⟨attrs, d2, h2, h⟩ := Reader.bind_ok.1 h
  obtain ⟨dims, d3, h3, h4⟩ := Reader.bind_ok.1 h
  obtain ⟨rfl, _⟩ := readDimensions_ok h3
  rw [Reader.pure_ok] at h4
  obtain ⟨_, rfl⟩ := h4
  exact readAttributes_after h2

theorem readFields_after {c : Category} {used : List Str} {xs : List Xml}
    {acc r : Dict Str FieldSpec} {d d' : Defaults}
    (h : readFields c used xs acc d = .ok (r, d')) :
    After (App c (∃ f ∈ elements s%"field" xs, elements s%"attribute" f.kids ≠ []))
      (App c (elements s%"field" xs ≠ [])) False d d' := by
  induction xs generalizing acc d with
  | nil =>
    rw [readFields, Reader.pure_ok] at h
    obtain ⟨_, rfl⟩ := h
    exact (After.none d).congr (by simp [App, elements]) (by simp [App, elements]) Iff.rfl
  | cons x xs ih =>
    rw [readFields] at h
    split at h
    · rename_i hx
      obtain ⟨f, d1, h1, h⟩ := Reader.bind_ok.1 h
      obtain ⟨_, d2, h2, h⟩ := Reader.bind_ok.1 h
      rw [elements_cons_pos hx]
      have h12 := (readField_after h1).trans (noteField_after h2)
        (A'' := App c (elements s%"attribute" x.kids ≠ [])) (F'' := App c True) (G'' := False)
        (by simp) (by simp) (by simp)
      exact h12.trans (ih h) (by simp only [App, List.mem_cons, exists_eq_or_imp]; tauto)
        (by simp [App]; tauto) (by simp)
    · rename_i hx
      rw [elements_cons_neg hx]
      exact ih h

theorem hasAttribute_iff {x : Xml} : HasAttribute x ↔
    (elements s%"attribute" x.kids ≠ [] ∨ ∃ g ∈ elements s%"group" x.kids, HasAttribute g) ∨
      ∃ f ∈ elements s%"field" x.kids, elements s%"attribute" f.kids ≠ [] := by
  constructor
  · intro h
    cases h with
    | here ha => exact .inl (.inl (List.ne_nil_of_mem ha))
    | ofField hf ha => exact .inr ⟨_, hf, List.ne_nil_of_mem ha⟩
    | deeper hg h => exact .inl (.inr ⟨_, hg, h⟩)
  · rintro ((h | ⟨g, hg, h⟩) | ⟨f, hf, h⟩)
    · obtain ⟨a, ha⟩ := List.exists_mem_of_ne_nil _ h
      exact .here ha
    · exact .deeper hg h
    · obtain ⟨a, ha⟩ := List.exists_mem_of_ne_nil _ h
      exact .ofField hf ha

theorem hasField_iff' {x : Xml} : HasField x ↔
    (∃ g ∈ elements s%"group" x.kids, HasField g) ∨ elements s%"field" x.kids ≠ [] := by
  rw [hasField_iff]
  exact or_congr Iff.rfl ⟨fun ⟨_, h⟩ => List.ne_nil_of_mem h, List.exists_mem_of_ne_nil _⟩

/-- The content of a group or definition, part by part. -/
theorem parts_after {c : Category} {x : Xml} {d d2 d3 d4 : Defaults}
    (h2 : After (App c (elements s%"attribute" x.kids ≠ [])) False False d d2)
    (h3 : After (App c (∃ g ∈ elements s%"group" x.kids, HasAttribute g))
      (App c (∃ g ∈ elements s%"group" x.kids, HasField g))
      (App c (elements s%"group" x.kids ≠ [])) d2 d3)
    (h4 : After (App c (∃ f ∈ elements s%"field" x.kids, elements s%"attribute" f.kids ≠ []))
      (App c (elements s%"field" x.kids ≠ [])) False d3 d4) :
    After (App c (HasAttribute x)) (App c (HasField x)) (App c (HasGroup x)) d d4 := by
  have h23 := h2.trans h3
    (A'' := App c (elements s%"attribute" x.kids ≠ [] ∨ ∃ g ∈ elements s%"group" x.kids,
      HasAttribute g))
    (F'' := App c (∃ g ∈ elements s%"group" x.kids, HasField g)) (G'' := App c (HasGroup x))
    (by unfold App; tauto) (by simp) (by simp [HasGroup])
  refine h23.trans h4 ?_ ?_ (by simp)
  · unfold App; rw [hasAttribute_iff, and_or_left]
  · unfold App; rw [hasField_iff', and_or_left]

mutual
theorem readGroup_after {c : Category} : ∀ {x : Xml} {g : Str × GroupSpec} {d d' : Defaults},
    readGroup c x d = .ok (g, d') →
    After (App c (HasAttribute x)) (App c (HasField x)) (App c (HasGroup x)) d d'
  | .comment, g, d, d', h => by
    rw [readGroup] at h; exact absurd h (by simp [Reader.raise])
  | .elem nx tag a kids, g, d, d', h => by
    rw [readGroup] at h
    obtain ⟨name, d1, h1, h⟩ := Reader.bind_ok.1 h
    obtain ⟨attrs, d2, h2, h⟩ := Reader.bind_ok.1 h
    obtain ⟨groups, d3, h3, h⟩ := Reader.bind_ok.1 h
    obtain ⟨fields, d4, h4, h⟩ := Reader.bind_ok.1 h
    obtain ⟨links, d5, h5, h⟩ := Reader.bind_ok.1 h
    rw [Reader.pure_ok] at h
    obtain ⟨_, rfl⟩ := h
    obtain ⟨rfl, _⟩ := groupName_ok h1 nx tag kids
    obtain ⟨_, _, _, rfl, _⟩ := readLinks_ok h5
    exact parts_after (x := .elem nx tag a kids) (readAttributes_after h2) (readGroups_after h3)
      (readFields_after h4)
theorem readGroups_after {c : Category} : ∀ {xs : List Xml}
    {acc r : Dict Str GroupSpec} {d d' : Defaults},
    readGroups c xs acc d = .ok (r, d') →
    After (App c (∃ g ∈ elements s%"group" xs, HasAttribute g))
      (App c (∃ g ∈ elements s%"group" xs, HasField g)) (App c (elements s%"group" xs ≠ [])) d d'
  | [], acc, r, d, d', h => by
    rw [readGroups, Reader.pure_ok] at h
    obtain ⟨_, rfl⟩ := h
    exact (After.none d).congr (by simp [App, elements]) (by simp [App, elements])
      (by simp [App, elements])
  | x :: xs, acc, r, d, d', h => by
    rw [readGroups] at h
    split at h
    · rename_i hx
      obtain ⟨g, d1, h1, h⟩ := Reader.bind_ok.1 h
      obtain ⟨_, d2, h2, h⟩ := Reader.bind_ok.1 h
      rw [elements_cons_pos hx]
      have h12 := (readGroup_after h1).trans (noteGroup_after h2)
        (A'' := App c (HasAttribute x)) (F'' := App c (HasField x)) (G'' := App c True)
        (by simp) (by simp) (by unfold App; tauto)
      exact h12.trans (readGroups_after h)
        (by simp only [App, List.mem_cons, exists_eq_or_imp]; tauto)
        (by simp only [App, List.mem_cons, exists_eq_or_imp]; tauto) (by simp [App]; tauto)
    · rename_i hx
      rw [elements_cons_neg hx]
      exact readGroups_after h
end

/-- **C142.** The effect of one definition: none unless it is an application definition. -/
theorem definition_effect {title : Str} {c : Category} {root : Xml} {cd : ClassDef}
    {d d' : Defaults} (h : readDefinition title c root d = .ok (cd, d')) :
    After (c = .applications ∧ HasAttribute root) (c = .applications ∧ HasField root)
      (c = .applications ∧ HasGroup root) d d' := by
  unfold readDefinition at h
  obtain ⟨attrs, d2, h2, h⟩ := Reader.bind_ok.1 h
  obtain ⟨groups, d3, h3, h⟩ := Reader.bind_ok.1 h
  obtain ⟨fields, d4, h4, h⟩ := Reader.bind_ok.1 h
  obtain ⟨links, d5, h5, h⟩ := Reader.bind_ok.1 h
  rw [Reader.pure_ok] at h
  obtain ⟨_, rfl⟩ := h
  obtain ⟨_, _, _, rfl, _⟩ := readLinks_ok h5
  exact parts_after (readAttributes_after h2) (readGroups_after h3) (readFields_after h4)

theorem readFiles_after {valid : Xml → Bool} : ∀ {l : List (Category × NxdlFile)}
    {acc r : Dict Str ClassDef} {d d' : Defaults}, readFiles valid l acc d = .ok (r, d') →
    After (∃ f x, (Category.applications, f) ∈ l ∧ f.content = some x ∧ HasAttribute x)
      (∃ f x, (Category.applications, f) ∈ l ∧ f.content = some x ∧ HasField x)
      (∃ f x, (Category.applications, f) ∈ l ∧ f.content = some x ∧ HasGroup x) d d'
  | [], acc, r, d, d', h => by
    rw [readFiles, Reader.pure_ok] at h
    obtain ⟨_, rfl⟩ := h
    exact (After.none d).congr (by simp) (by simp) (by simp)
  | (c, f) :: l, acc, r, d, d', h => by
    rw [readFiles] at h
    obtain ⟨cd, d1, h1, h⟩ := Reader.bind_ok.1 h
    obtain ⟨x, hx, _, hx'⟩ := readFile_ok.1 h1
    have key : ∀ P : Xml → Prop, (∃ g y, (Category.applications, g) ∈ (c, f) :: l ∧
        g.content = some y ∧ P y) ↔ (c = .applications ∧ P x) ∨
        ∃ g y, (Category.applications, g) ∈ l ∧ g.content = some y ∧ P y := by
      intro P
      constructor
      · rintro ⟨g, y, hm, hy, hf⟩
        rcases List.mem_cons.1 hm with he | hm
        · injection he with e1 e2
          subst e1 e2
          rw [hx] at hy
          injection hy with hy
          subst hy
          exact .inl ⟨rfl, hf⟩
        · exact .inr ⟨g, y, hm, hy, hf⟩
      · rintro (⟨rfl, hf⟩ | ⟨g, y, hm, hy, hf⟩)
        · exact ⟨f, x, by simp, hx, hf⟩
        · exact ⟨g, y, by simp [hm], hy, hf⟩
    exact (definition_effect hx').trans (readFiles_after h) (key _) (key _) (key _)

/-- **C142.** The defaults after the definitions of a directory were read. -/
theorem defaults_after {valid : Xml → Bool} {dir : DefDir} {s d' : Defaults} {cl : Dict Str ClassDef}
    (hs : dir.schema = some s) (h : loadClasses valid dir = .ok (cl, some d')) :
    After (InApplications dir HasAttribute) (InApplications dir HasField)
      (InApplications dir HasGroup) s d' := by
  obtain ⟨l, d'', hl, hr, he⟩ := loadClasses_ok hs h
  injection he with he
  subst he
  obtain ⟨hmem, _, _, _⟩ := nxdlFileList_ok hl
  have key : ∀ P : Xml → Prop, InApplications dir P ↔
      ∃ f x, (Category.applications, f) ∈ l ∧ f.content = some x ∧ P x := by
    intro P
    constructor
    · rintro ⟨fs, f, x, g1, g2, g3, h2, h3⟩
      exact ⟨f, x, (hmem _ _).2 ⟨fs, g1, g2, g3⟩, h2, h3⟩
    · rintro ⟨f, x, h1, h2, h3⟩
      obtain ⟨fs, g1, g2, g3⟩ := (hmem _ _).1 h1
      exact ⟨fs, f, x, g1, g2, g3, h2, h3⟩
  exact (readFiles_after hr).congr (key _) (key _) (key _)

/-- **C142.** Without a schema a directory can be read only if it has no definitions at all. -/
theorem without_schema {valid : Xml → Bool} {dir : DefDir} (hs : dir.schema = none) :
    (∀ r, loadClasses valid dir = .ok r ↔ r = ([], none) ∧ dir.here = true ∧
      ∀ c, ∃ fs, dir.listing c = some fs ∧ ∀ f ∈ fs, ¬ IsNxdl f) ∧
    (dir.here = true → (∀ c, (dir.listing c).isSome) →
      (∃ c fs f, dir.listing c = some fs ∧ f ∈ fs ∧ IsNxdl f) →
      loadClasses valid dir = .error .assertionError) := by
  have hcases : ∀ l, nxdlFileList dir = .ok l →
      loadClasses valid dir = if l = [] then .ok ([], none) else .error .assertionError := by
    intro l hl
    have hh := (nxdlFileList_ok hl).2.2.2
    unfold loadClasses
    rw [if_pos hh, hl, hs]
    cases l <;> rfl
  constructor
  · intro r
    constructor
    · intro h
      have hh : dir.here = true := by
        by_contra hc
        unfold loadClasses at h
        rw [if_neg hc] at h
        cases h
      cases hl : nxdlFileList dir with
      | error e =>
        unfold loadClasses at h
        rw [if_pos hh, hl] at h
        cases h
      | ok l =>
        obtain ⟨hm, _, hc, _⟩ := nxdlFileList_ok hl
        rw [hcases l hl] at h
        split at h
        · rename_i hnil
          injection h with h
          refine ⟨h.symm, hh, fun c => ?_⟩
          obtain ⟨fs, hfs⟩ := Option.isSome_iff_exists.1 (hc c)
          refine ⟨fs, hfs, fun f hf hn => ?_⟩
          have := (hm c f).2 ⟨fs, hfs, hf, hn⟩
          rw [hnil] at this
          cases this
        · cases h
    · rintro ⟨rfl, hh, hc⟩
      obtain ⟨l, hl⟩ := nxdlFileList_succeeds hh (fun c => by
        obtain ⟨fs, hfs, _⟩ := hc c; rw [hfs]; rfl)
      obtain ⟨hm, _, _, _⟩ := nxdlFileList_ok hl
      have : l = [] := by
        rw [List.eq_nil_iff_forall_not_mem]
        rintro ⟨c, f⟩ hp
        obtain ⟨fs, h1, h2, h3⟩ := (hm c f).1 hp
        obtain ⟨fs', h4, h5⟩ := hc c
        rw [h1] at h4
        injection h4 with h4
        subst h4
        exact h5 f h2 h3
      rw [hcases l hl, if_pos this]
  · rintro hh hc ⟨c, fs, f, h1, h2, h3⟩
    obtain ⟨l, hl⟩ := nxdlFileList_succeeds hh hc
    obtain ⟨hm, _, _, _⟩ := nxdlFileList_ok hl
    have : l ≠ [] := List.ne_nil_of_mem ((hm c f).2 ⟨fs, h1, h2, h3⟩)
    rw [hcases l hl, if_neg this]

/-! ## Cases -/

/-- An application definition with a group and an attribute of a field in it. -/
def attributedDoc : Xml :=
  .elem true s%"definition" [] [groupX s%"NXentry" [.elem true s%"field" [(s%"name", s%"t")]
    [.elem true s%"attribute" [(s%"name", s%"units")] []]]]

/-- its file -/
def attributedFile : NxdlFile := { name := s%"NXapp.nxdl.xml", content := some attributedDoc }

/-- **C142 (witness).** The same base classes, with and without this application definition: the
defaults that all classes share differ in all three values. -/
theorem defaults_leak :
    (loadClasses (fun _ => true) (sampleDefDir [])).toOption.map (·.2) =
      some (some shippedDefaults) ∧
    (loadClasses (fun _ => true) (sampleDefDir [attributedFile])).toOption.map (·.2) =
      some (some
        { attrOptional := some (.bool false), fieldMinOccurs := some (.int 1),
          groupMinOccurs := some (.int 1), dimensions := true, dim := true }) := by
  constructor <;> decide +kernel

/-- The hypotheses of `defaults_after`, with all three kinds present and with none. -/
theorem attributed_case :
    InApplications (sampleDefDir [attributedFile]) HasAttribute ∧
    InApplications (sampleDefDir [attributedFile]) HasGroup ∧
    ¬ InApplications (sampleDefDir []) HasAttribute := by
  have hn : IsNxdl attributedFile := ⟨s%"NXapp", rfl⟩
  refine ⟨⟨_, attributedFile, attributedDoc, rfl, by simp, hn, rfl, ?_⟩,
    ⟨_, attributedFile, attributedDoc, rfl, by simp, hn, rfl, List.cons_ne_nil _ _⟩, ?_⟩
  · exact .deeper (List.mem_cons_self ..) (.ofField (List.mem_cons_self ..) (List.mem_cons_self ..))
  · rintro ⟨fs, f, x, h1, h2, _⟩
    injection h1 with h1
    subst h1
    cases h2

/-- A directory without schema: empty, and with a definition. -/
example : loadClasses (fun _ => true)
    { here := true, schema := none, listing := fun _ => some [] } = .ok ([], none) ∧
    (loadClasses (fun _ => true) { sampleDefDir [] with schema := none }).toOption = none :=
  ⟨((without_schema rfl).1 _).2 ⟨rfl, rfl, fun _ => ⟨[], rfl, by simp⟩⟩, by decide +kernel⟩

end Punx

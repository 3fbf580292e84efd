import Verif.Props.Describe
import Verif.Props.Version3
import Verif.Props.DefaultPlotV2

/-!
# C131: the printed outline of a schema; C132: the text of a manager
-/

namespace Punx
open Spec

/-- **C131** (partial): what `print_tree` prints are the rows of the one outline of the object, and
the numbers it returns are right; it completes unless the objects are nested too deeply.  Missing:
elements in the object are not shown (`elements_not_printed`). -/
theorem outline_printed_partial (o : SObj) :
    (∀ fuel l p, printTree fuel l o = .ok p → ∀ rows, Outline l o rows → Reports rows p) ∧
    (∀ l, ∃ rows, Outline l o rows ∧ ∀ rows', Outline l o rows' → rows' = rows) ∧
    ∃ n, ∀ fuel, n ≤ fuel → ∀ l, ∃ p, printTree fuel l o = .ok p := by
  refine ⟨fun fuel l p h rows hr => ?_, fun l => ?_, printTree_completes o⟩
  · obtain ⟨rows', h1, h2⟩ := printTree_kept fuel l o p h
    rw [outline_unique hr h1]
    exact h2.1
  · obtain ⟨n, hn⟩ := printTree_completes o
    obtain ⟨p, hp⟩ := hn n (Nat.le_refl n) l
    obtain ⟨rows, h1, -⟩ := printTree_kept n l o p hp
    exact ⟨rows, h1, fun rows' h => outline_unique h h1⟩

mutual
theorem outline_kinds {l : Nat} {o : SObj} {rows : List (Nat × SObj)} :
    Outline l o rows → o.kind ≠ .element → ∀ r ∈ rows, r.2.kind ≠ .element
  | .mk h1 h2 h3 h4, hk => by
    intro r hr
    rcases List.mem_cons.1 hr with rfl | hr
    · exact hk
    · rcases List.mem_append.1 hr with hr | hr
      · exact outlines_kinds h3 (fun c hc => by rw [((h1.2 c).1 hc).2]; simp) r hr
      · exact outlines_kinds h4 (fun c hc => by rw [((h2.2 c).1 hc).2]; simp) r hr
theorem outlines_kinds {l : Nat} {os : List SObj} {rows : List (Nat × SObj)} :
    Outlines l os rows → (∀ c ∈ os, c.kind ≠ .element) → ∀ r ∈ rows, r.2.kind ≠ .element
  | .nil, _ => fun r hr => absurd hr (by simp)
  | .cons h hs, hk => by
    intro r hr
    rcases List.mem_append.1 hr with hr | hr
    · exact outline_kinds h (hk _ (by simp)) r hr
    · exact outlines_kinds hs (fun c hc => hk c (by simp [hc])) r hr
end

/-- An outline shows no element but the object itself. -/
theorem outline_elements {l : Nat} {o : SObj} {rows : List (Nat × SObj)} (h : Outline l o rows) :
    ∀ r ∈ rows.tail, r.2.kind ≠ .element := by
  cases h with
  | mk h1 h2 h3 h4 =>
    intro r hr
    rcases List.mem_append.1 hr with hr | hr
    · exact (outlines_kinds h3 (fun c hc => by rw [((h1.2 c).1 hc).2]; simp) r hr)
    · exact (outlines_kinds h4 (fun c hc => by rw [((h2.2 c).1 hc).2]; simp) r hr)

/-- C131 is violated: elements in the object are never printed, whatever the schema.  The comment in
the code has them between the attributes and the groups; the member it looks for was renamed. -/
theorem elements_not_printed {fuel l : Nat} {o : SObj} {p : Printed}
    (h : printTree fuel l o = .ok p) :
    Dict.get? p.tally s%"element" = if o.kind = .element then some 1 else none := by
  obtain ⟨rows, h1, h2, -⟩ := printTree_kept fuel l o p h
  have hk := outline_elements h1
  have key : ofKind s%"element" rows = if o.kind = .element then 1 else 0 := by
    cases h1 with
    | mk g1 g2 g3 g4 =>
      rename_i ra rg
      have hz : ((ra ++ rg).filter fun r => r.2.kind.text = s%"element") = [] := by
        rw [List.filter_eq_nil_iff]
        intro r hr
        have := hk r hr
        cases e : r.2.kind <;> simp_all [SKind.text]
      unfold ofKind
      rw [List.filter_cons, hz]
      cases e : o.kind <;> simp [SKind.text]
  cases e : decide (o.kind = .element) with
  | true =>
    have e := of_decide_eq_true e
    rw [if_pos e] at key ⊢
    exact (h2.tally _ _).2 ⟨key.symm, by simp⟩
  | false =>
    have e := of_decide_eq_false e
    rw [if_neg e] at key ⊢
    cases hg : Dict.get? p.tally s%"element" with
    | none => rfl
    | some n =>
      have := (h2.tally _ _).1 hg
      omega

/-! ## the summary -/

/-- A table is built again from its values. -/
theorem label_fold_values : ∀ (d acc : Dict Str SObj), (Dict.keys (acc ++ d)).Nodup →
    (∀ kv ∈ d, kv.2.label = kv.1) →
    (d.map (·.2)).foldl (fun d c => Dict.set d c.label c) acc = acc ++ d
  | [], acc, _, _ => by simp
  | (k, o) :: d, acc, h, hl => by
    have hk : o.label = k := hl (k, o) (by simp)
    have hn : k ∉ Dict.keys acc := by
      intro hk
      simp only [Dict.keys, List.map_append, List.map_cons] at h hk
      exact (List.nodup_append.1 h).2.2 _ hk k (by simp) rfl
    rw [List.map_cons, List.foldl_cons]
    simp only
    rw [hk, Dict.set_of_not_mem hn o, label_fold_values d _ (by simpa using h)
      (fun kv hkv => hl kv (by simp [hkv]))]
    simp

theorem filter_kind_all {k : SKind} {d : Dict Str SObj} (h : ∀ kv ∈ d, kv.2.kind = k) :
    (d.map (·.2)).filter (·.kind = k) = d.map (·.2) := by
  rw [List.filter_eq_self]
  intro c hc
  obtain ⟨kv, hkv, rfl⟩ := List.mem_map.1 hc
  simp [h kv hkv]

theorem filter_kind_none {k k' : SKind} (hne : k ≠ k') {d : Dict Str SObj}
    (h : ∀ kv ∈ d, kv.2.kind = k) : (d.map (·.2)).filter (·.kind = k') = [] := by
  rw [List.filter_eq_nil_iff]
  intro c hc
  obtain ⟨kv, hkv, rfl⟩ := List.mem_map.1 hc
  simp [h kv hkv, hne]

theorem mem_kindTable {k : SKind} {o : SObj} {kv : Str × SObj} (h : kv ∈ o.table k) :
    kv.2.kind = k ∧ kv.2.label = kv.1 :=
  (table_last.1 (Dict.get?_of_mem (nodup_table k o) h)).2

theorem table_other {k : SKind} (l l' : List SObj) (hk : ∀ c ∈ l, c.kind = k) (n key : Option Str)
    (kd : SKind) (i : SInfo) (k' : SKind) (hne : k ≠ k') :
    SObj.table k' (.mk kd n key i (l ++ l'.filter (·.kind ≠ k))) = SObj.table k' (.mk kd n key i l') := by
  unfold SObj.table
  simp only [SObj.kids]
  congr 1
  rw [List.filter_append, List.filter_filter]
  have h1 : l.filter (·.kind = k') = [] := by
    rw [List.filter_eq_nil_iff]
    intro c hc
    simp [hk c hc, hne]
  rw [h1, List.nil_append]
  refine List.filter_congr fun c _ => ?_
  by_cases e : c.kind = k'
  · have : ¬ k' = k := fun h => hne h.symm
    simp [e, this]
  · simp [e]

theorem table_values {k : SKind} {d : Dict Str SObj} (hd : (Dict.keys d).Nodup)
    (h : ∀ kv ∈ d, kv.2.kind = k ∧ kv.2.label = kv.1) (l : List SObj) (n key : Option Str)
    (kd : SKind) (i : SInfo) :
    SObj.table k (.mk kd n key i (d.map (·.2) ++ l.filter (·.kind ≠ k))) = d := by
  unfold SObj.table
  simp only [SObj.kids]
  rw [List.filter_append, List.filter_filter, filter_kind_all (fun kv hkv => (h kv hkv).1)]
  have h1 : (l.filter fun a => decide (a.kind = k) && decide (a.kind ≠ k)) = [] := by
    rw [List.filter_eq_nil_iff]
    intro c _
    simp
  rw [h1, List.append_nil, label_fold_values d [] (by simpa using hd) fun kv hkv => (h kv hkv).2]
  rfl

/-- The group whose attributes are replaced has these, and its own groups and elements. -/
theorem table_withAttributes (g gg : SObj) :
    (g.withAttributes gg.attributes).attributes = gg.attributes ∧
    (g.withAttributes gg.attributes).groups = g.groups ∧
    (g.withAttributes gg.attributes).components = g.components := by
  have hm : ∀ c ∈ gg.attributes.map (·.2), c.kind = .attribute := by
    intro c hc
    obtain ⟨kv, hkv, rfl⟩ := List.mem_map.1 hc
    exact (mem_kindTable hkv).1
  cases g with
  | mk kd n key i kids =>
  exact ⟨table_values (nodup_table _ _) (fun _ => mem_kindTable) _ _ _ _ _,
    table_other _ _ hm _ _ _ _ _ (by simp), table_other _ _ hm _ _ _ _ _ (by simp)⟩

theorem rebuilt_tables (s : Summary) :
    SObj.groups (.mk s.definition.kind s.definition.name s.definition.key s.definition.info
      (s.groups.map (·.2) ++ s.definition.kids.filter (·.kind ≠ .group))) = s.groups ∧
    SObj.attributes (.mk s.definition.kind s.definition.name s.definition.key s.definition.info
      (s.groups.map (·.2) ++ s.definition.kids.filter (·.kind ≠ .group))) =
        s.definition.attributes := by
  have hlab : ∀ g : SObj, (g.withAttributes s.groupAttributes).kind = g.kind ∧
      (g.withAttributes s.groupAttributes).label = g.label := fun g => by cases g; exact ⟨rfl, rfl⟩
  have hgr : (Dict.keys s.groups).Nodup ∧
      ∀ kv ∈ s.groups, kv.2.kind = .group ∧ kv.2.label = kv.1 := by
    unfold Summary.groups
    have h1 := nodup_table .group s.definition
    have h2 : ∀ kv ∈ s.definition.groups, _ := fun kv => mem_kindTable (k := .group) (kv := kv)
    unfold SObj.groups at h2 ⊢
    split
    · exact ⟨by simp [Dict.keys], fun _ h => absurd h (by simp)⟩
    · rename_i k g rest e
      rw [e] at h1 h2
      refine ⟨h1, fun kv hkv => ?_⟩
      rcases List.mem_cons.1 hkv with rfl | hkv
      · have := h2 (k, g) (by simp)
        exact ⟨(hlab g).1.trans this.1, (hlab g).2.trans this.2⟩
      · exact h2 kv (by simp [hkv])
  refine ⟨table_values hgr.1 hgr.2 _ _ _ _ _, ?_⟩
  unfold SObj.attributes
  rw [table_other (k := .group) (s.groups.map (·.2)) s.definition.kids (fun c hc => by
      obtain ⟨kv, hkv, rfl⟩ := List.mem_map.1 hc
      exact (hgr.2 kv hkv).1) _ _ _ _ .attribute (by simp)]
  cases s.definition
  rfl

/-- The definition as it is after `setup`: the attributes of its first group are those of the element
`group`. -/
theorem printSummary_eq (fuel : Nat) (s : Summary) : printSummary fuel s =
      printTree fuel 0 (.mk s.definition.kind s.definition.name s.definition.key s.definition.info
        (s.groups.map (·.2) ++ s.definition.kids.filter (·.kind ≠ .group))) := by
  cases fuel with
  | zero => rfl
  | succ fuel =>
    rw [printSummary, printTree, (rebuilt_tables s).1, (rebuilt_tables s).2]
    cases s.definition
    rfl

/-- **C131** (partial): the same for `print_tree(summary.definition)`: the outline of the definition,
whose first group has the attributes of the element `group`. -/
theorem summary_printed_partial (s : Summary) : ∃ o : SObj,
    (o.kind = s.definition.kind ∧ o.name = s.definition.name ∧ o.key = s.definition.key ∧
      o.info = s.definition.info) ∧
    (∀ l, ListedKids .attribute o l ↔ ListedKids .attribute s.definition l) ∧
    (∀ k, Dict.get? o.groups k = (Dict.get? s.definition.groups k).map fun g =>
      if s.definition.groups.head?.map (·.1) = some k then g.withAttributes s.groupAttributes else g) ∧
    ∀ fuel p, printSummary fuel s = .ok p → ∀ rows, Outline 0 o rows → Reports rows p := by
  refine ⟨.mk s.definition.kind s.definition.name s.definition.key s.definition.info
      (s.groups.map (·.2) ++ s.definition.kids.filter (·.kind ≠ .group)),
    ⟨rfl, rfl, rfl, rfl⟩, fun l => ?_, fun k => ?_, fun fuel p h rows hr =>
    (outline_printed_partial _).1 fuel 0 p (printSummary_eq fuel s ▸ h) rows hr⟩
  · have h2 := (rebuilt_tables s).2
    have e : ∀ {o o' : SObj}, o.attributes = o'.attributes → ListedKids .attribute o l →
        ListedKids .attribute o' l := fun {o o'} e h => by
      rw [listedKids_unique h (sortedValues_listed .attribute o)]
      unfold SObj.attributes at e
      rw [e]
      exact sortedValues_listed .attribute o'
    exact ⟨e h2, e h2.symm⟩
  · rw [(rebuilt_tables s).1]
    unfold Summary.groups
    cases s.definition.groups with
    | nil => rfl
    | cons kg rest =>
      obtain ⟨k', g⟩ := kg
      simp only [List.head?_cons, Option.map_some, Option.some.injEq]
      by_cases e : k' = k
      · simp [Dict.get?, e]
      · simp only [Dict.get?, e, if_false]
        cases Dict.get? rest k <;> rfl

/-! ## the text of an object -/

/-- **C131**: the text of an object. -/
theorem class_text (cls : Str) (ms : Dict Str ObjMember) (h : (Dict.keys ms).Nodup) :
    ∃ rows, ShownMembers ms rows ∧ renderClassStr cls ms = cls ++ s%"(" ++
      join s%", " (rows.map fun r => r.1 ++ '=' :: r.2.dropWhile (· == '_')) ++ s%")" := by
  let f : Str × ObjMember → Option (Str × Str) := fun kv =>
    match kv.2 with
    | .text t => if startsWith kv.1 s%"_" then none else some (kv.1, t)
    | _ => none
  have hf : ∀ kv r, f kv = some r ↔ kv.1 = r.1 ∧ kv.2 = .text r.2 ∧ kv.1.head? ≠ some '_' := by
    rintro ⟨k, v⟩ ⟨n, t⟩
    have hs : startsWith k s%"_" = true ↔ k.head? = some '_' := by
      cases k with
      | nil => simp [startsWith]
      | cons c k =>
        simp only [List.head?_cons, Option.some.injEq]
        simp only [startsWith, List.isPrefixOf, Bool.and_true, beq_iff_eq]
        exact eq_comm
    cases v with
    | nothing => simp [f]
    | collection => simp [f]
    | text s =>
      simp only [f]
      by_cases hk : startsWith k s%"_" = true
      · simp [hk, hs.1 hk]
      · have := mt hs.2 hk
        simp [hk, this]
  refine ⟨(sortKeys ms).filterMap f, ⟨?_, ?_⟩, ?_⟩
  · rw [List.pairwise_filterMap]
    refine List.Pairwise.imp ?_ (sortKeys_strict h)
    intro a b hab r hr r' hr'
    rw [← ((hf a r).1 hr).1, ← ((hf b r').1 hr').1]
    exact hab
  · intro n t
    rw [List.mem_filterMap]
    constructor
    · rintro ⟨kv, hkv, e⟩
      obtain ⟨h1, h2, h3⟩ := (hf _ _).1 e
      have := Dict.get?_of_mem h (mem_sortBy.1 hkv)
      simp only at h1 h2
      rw [h1, h2] at this
      exact ⟨this, h1 ▸ h3⟩
    · rintro ⟨h1, h2⟩
      exact ⟨(n, .text t), mem_sortBy.2 (Dict.mem_of_get? h1), (hf (n, .text t) (n, t)).2 ⟨rfl, rfl, h2⟩⟩
  · unfold renderClassStr
    congr 3
    rw [List.map_filterMap]
    refine List.filterMap_congr fun kv _ => ?_
    obtain ⟨k, v⟩ := kv
    cases v with
    | nothing => rfl
    | collection => rfl
    | text t =>
      simp only [memberText, f, stripMarks]
      split <;> simp

/-- Lists sorted by their names. -/
theorem pairs_unique {β : Type} {r r' : List (Str × β)}
    (h : r.Pairwise fun a b => strLe a.1 b.1 = true ∧ a.1 ≠ b.1)
    (h' : r'.Pairwise fun a b => strLe a.1 b.1 = true ∧ a.1 ≠ b.1)
    (hm : ∀ kv, kv ∈ r ↔ kv ∈ r') : r = r' := by
  have nd : ∀ {l : List (Str × β)}, (l.Pairwise fun a b => strLe a.1 b.1 = true ∧ a.1 ≠ b.1) →
      l.Nodup := fun h => List.Pairwise.imp (fun {a b} h (e : a = b) => h.2 (e ▸ rfl)) h
  have hp : r.Perm r' := (List.perm_ext_iff_of_nodup (nd h) (nd h')).2 hm
  refine hp.eq_of_pairwise (le := fun a b => strLe a.1 b.1 = true ∧ a.1 ≠ b.1) ?_ h h'
  intro a b _ _ h1 h2
  exact absurd (strLe_antisymm h1.1 h2.1) h1.2

/-- There is only one such list of members. -/
theorem shown_unique {ms : Dict Str ObjMember} {r r' : List (Str × Str)} (h : ShownMembers ms r)
    (h' : ShownMembers ms r') : r = r' :=
  pairs_unique h.sorted h'.sorted fun kv =>
    (h.content kv.1 kv.2).trans (h'.content kv.1 kv.2).symm

/-! ## the text of a manager -/

theorem count_fold (l : Dict Str ClassDef) : ∀ (d : Dict Str Nat), (Dict.keys d).Nodup →
    (Dict.keys (l.foldl (fun d kv => bump d (kv.2.category.dirName, 1)) d)).Nodup ∧
    ∀ k, tallied (l.foldl (fun d kv => bump d (kv.2.category.dirName, 1)) d) k =
        tallied d k + (l.filter fun kv => kv.2.category.dirName = k).length ∧
      (k ∈ Dict.keys (l.foldl (fun d kv => bump d (kv.2.category.dirName, 1)) d) ↔
        k ∈ Dict.keys d ∨ 0 < (l.filter fun kv => kv.2.category.dirName = k).length) := by
  induction l with
  | nil => exact fun d h => ⟨h, fun k => by simp⟩
  | cons c l ih =>
    intro d h
    rw [List.foldl_cons]
    obtain ⟨h1, h2⟩ := ih (bump d (c.2.category.dirName, 1)) (nodup_bump h _)
    refine ⟨h1, fun k => ?_⟩
    obtain ⟨h3, h4⟩ := bump_get d (c.2.category.dirName, 1) k
    rw [(h2 k).1, (h2 k).2, h3, h4, List.filter_cons]
    by_cases e : c.2.category.dirName = k
    · simp only [e, if_true, decide_true, List.length_cons]
      exact ⟨by omega, by simp⟩
    · have e' : ¬ k = c.2.category.dirName := fun h => e h.symm
      simp only [e, e', if_false, decide_false, Bool.false_eq_true, or_false]
      exact ⟨by omega, trivial⟩

theorem dirName_inj {c c' : Category} (h : c.dirName = c'.dirName) : c = c' := by
  cases c <;> cases c' <;> first | rfl | exact absurd h (by decide)

theorem ofCategory_eq (c : Category) (l : Dict Str ClassDef) :
    (l.filter fun kv => kv.2.category.dirName = c.dirName).length = ofCategory c l := by
  unfold ofCategory
  congr 1
  refine List.filter_congr fun kv _ => ?_
  rw [decide_eq_decide]
  exact ⟨dirName_inj, fun h => h ▸ rfl⟩

/-- **C132**: the text of a manager has one entry for each category that occurs, sorted by name, with
the number of its classes. -/
theorem manager_text (classes : Dict Str ClassDef) : managerText classes =
    s%"NXDL_Manager(" ++ join s%", " (categoryEntries classes) ++ s%")" := by
  obtain ⟨h1, h2⟩ := count_fold classes [] (by simp [Dict.keys])
  unfold managerText categoryEntries
  simp only
  congr 3
  generalize hd : classes.foldl (fun d kv => bump d (kv.2.category.dirName, 1)) [] = d at h1 h2
  let f : Str × Category → Option (Str × Nat) := fun e =>
    if ofCategory e.2 classes = 0 then none else some (e.1, ofCategory e.2 classes)
  let R := [(s%"applications", Category.applications), (s%"base_classes", .baseClasses),
   (s%"contributed_definitions", .contributed)].filterMap f
  have hR : sortKeys d = R := by
    refine pairs_unique (sortKeys_strict h1) ?_ fun kv => ?_
    · rw [List.pairwise_filterMap]
      refine List.Pairwise.imp (R := fun a b => strLe a.1 b.1 = true ∧ a.1 ≠ b.1) ?_ (by decide)
      intro a b hab r hr r' hr'
      simp only [f, Option.ite_none_left_eq_some, Option.some.injEq] at hr hr'
      rw [← hr.2, ← hr'.2]
      exact hab
    · obtain ⟨k, n⟩ := kv
      have hin : (k, n) ∈ sortKeys d ↔ 0 < n ∧ ∃ c : Category, k = c.dirName ∧ n = ofCategory c classes := by
        have e1 : (k, n) ∈ sortKeys d ↔ Dict.get? d k = some n :=
          mem_sortBy.trans ⟨fun h => Dict.get?_of_mem h1 h, Dict.mem_of_get?⟩
        rw [e1]
        obtain ⟨h3, h4⟩ := h2 k
        have h5 : tallied [] k = 0 := rfl
        have h6 : ¬ k ∈ Dict.keys ([] : Dict Str Nat) := by simp [Dict.keys]
        rw [h5, Nat.zero_add] at h3
        simp only [h6, false_or] at h4
        constructor
        · intro hg
          have hk : k ∈ Dict.keys d := by
            by_contra hk
            rw [Dict.get?_eq_none.2 hk] at hg
            cases hg
          have hp := h4.1 hk
          have hn : tallied d k = n := by simp [tallied, hg]
          refine ⟨by omega, ?_⟩
          obtain ⟨kv, hkv⟩ := List.exists_mem_of_length_pos hp
          have e : kv.2.category.dirName = k := by simpa using (List.mem_filter.1 hkv).2
          refine ⟨kv.2.category, e.symm, ?_⟩
          rw [← ofCategory_eq, e]
          omega
        · rintro ⟨hp, c, rfl, rfl⟩
          rw [ofCategory_eq] at h3 h4
          have hk := h4.2 hp
          cases hg : Dict.get? d c.dirName with
          | none => exact absurd hk (Dict.get?_eq_none.1 hg)
          | some m => simpa [tallied, hg] using h3
      rw [hin]
      simp only [R, f, List.mem_filterMap, Option.ite_none_left_eq_some, Option.some.injEq, Prod.mk.injEq]
      constructor
      · rintro ⟨hp, c, rfl, rfl⟩
        refine ⟨(c.dirName, c), ?_, Nat.pos_iff_ne_zero.1 hp, rfl, rfl⟩
        cases c <;> simp [Category.dirName]
      · rintro ⟨⟨a, c⟩, hm, hne, rfl, rfl⟩
        refine ⟨by omega, c, ?_, rfl⟩
        simp only [List.mem_cons, Prod.mk.injEq, List.not_mem_nil, or_false] at hm
        rcases hm with ⟨rfl, rfl⟩ | ⟨rfl, rfl⟩ | ⟨rfl, rfl⟩ <;> rfl
  rw [hR, List.map_filterMap]
  refine List.filterMap_congr fun e _ => ?_
  simp only [f]
  split <;> simp

/-- **C132**: all classes are counted. -/
theorem manager_counts_all (classes : Dict Str ClassDef) :
    ofCategory .applications classes + ofCategory .baseClasses classes +
      ofCategory .contributed classes = classes.length := by
  unfold ofCategory
  induction classes with
  | nil => rfl
  | cons kv l ih =>
    simp only [List.filter_cons]
    cases kv.2.category <;> simp <;> omega

theorem split_at {c : Char} : ∀ {a a' b b' : Str}, c ∉ a → c ∉ a' → a ++ c :: b = a' ++ c :: b' →
    a = a' ∧ b = b'
  | [], [], _, _, _, _, h => ⟨rfl, by simpa using h⟩
  | [], y :: a', _, _, _, h2, h => by
    simp only [List.nil_append, List.cons_append, List.cons.injEq] at h
    exact absurd (h.1 ▸ List.mem_cons_self) h2
  | x :: a, [], _, _, h1, _, h => by
    simp only [List.nil_append, List.cons_append, List.cons.injEq] at h
    exact absurd (h.1 ▸ List.mem_cons_self) h1
  | x :: a, y :: a', _, _, h1, h2, h => by
    simp only [List.cons_append, List.cons.injEq] at h
    have := split_at (fun hc => h1 (List.mem_cons_of_mem _ hc))
      (fun hc => h2 (List.mem_cons_of_mem _ hc)) h.2
    exact ⟨by rw [h.1, this.1], this.2⟩

theorem dirName_plain (c : Category) : ':' ∉ c.dirName ∧ ',' ∉ c.dirName := by
  cases c <;> decide

theorem mem_entries {classes : Dict Str ClassDef} {x : Str} : x ∈ categoryEntries classes ↔
    ∃ c : Category, 0 < ofCategory c classes ∧ x = c.dirName ++ ':' :: natStr (ofCategory c classes) := by
  unfold categoryEntries
  simp only [List.mem_filterMap, Option.ite_none_left_eq_some, Option.some.injEq]
  constructor
  · rintro ⟨⟨a, c⟩, hm, hne, rfl⟩
    refine ⟨c, Nat.pos_of_ne_zero hne, ?_⟩
    simp only [List.mem_cons, Prod.mk.injEq, List.not_mem_nil, or_false] at hm
    rcases hm with ⟨rfl, rfl⟩ | ⟨rfl, rfl⟩ | ⟨rfl, rfl⟩ <;> rfl
  · rintro ⟨c, hp, rfl⟩
    refine ⟨(c.dirName, c), ?_, Nat.pos_iff_ne_zero.1 hp, rfl⟩
    cases c <;> simp [Category.dirName]

theorem join_entries {l l' : List Str} (h : ∀ x ∈ l, ',' ∉ x ∧ x ≠ []) (h' : ∀ x ∈ l', ',' ∉ x ∧ x ≠ [])
    (e : join s%", " l = join s%", " l') : l = l' := by
  have ne : ∀ (x : Str) (r : List Str), x ≠ [] → join s%", " (x :: r) ≠ [] := by
    intro x r hx
    cases r with
    | nil => exact hx
    | cons b r => simp [join]
  cases l with
  | nil =>
    cases l' with
    | nil => rfl
    | cons y l' => exact absurd e.symm (ne y l' (h' y (by simp)).2)
  | cons x l =>
    cases l' with
    | nil => exact absurd e (ne x l (h x (by simp)).2)
    | cons y l' =>
      have h1 := split_join (fun z hz => (h z hz).1)
      rw [e, split_join (fun z hz => (h' z hz).1), List.cons.injEq] at h1
      rw [h1.1, (List.map_injective_iff.2 (fun a b h => (List.cons.inj h).2)) h1.2]

/-- **C132**: two managers have the same text exactly if they have the same number of classes of every
category. -/
theorem manager_text_iff (a b : Dict Str ClassDef) : managerText a = managerText b ↔
    ∀ c, ofCategory c a = ofCategory c b := by
  rw [manager_text, manager_text]
  constructor
  · intro h
    have plain : ∀ (l : Dict Str ClassDef), ∀ x ∈ categoryEntries l, ',' ∉ x ∧ x ≠ [] := by
      intro l x hx
      obtain ⟨c, -, rfl⟩ := mem_entries.1 hx
      refine ⟨fun hc => ?_, by simp⟩
      rcases List.mem_append.1 hc with hc | hc
      · exact (dirName_plain c).2 hc
      · rcases List.mem_cons.1 hc with hc | hc
        · exact absurd hc (by decide)
        · exact absurd (natStr_digits hc) (by decide)
    have e := join_entries (plain a) (plain b) (List.append_cancel_left (List.append_cancel_right h))
    have key : ∀ {a b : Dict Str ClassDef}, categoryEntries a = categoryEntries b → ∀ c,
        0 < ofCategory c a → ofCategory c b = ofCategory c a := by
      intro a b e c hp
      have hm := mem_entries.2 ⟨c, hp, rfl⟩
      rw [e] at hm
      obtain ⟨c', _, h2⟩ := mem_entries.1 hm
      obtain ⟨h3, h4⟩ := split_at (dirName_plain c).1 (dirName_plain c').1 h2
      cases dirName_inj h3
      exact (natStr_inj h4).symm
    intro c
    rcases Nat.eq_zero_or_pos (ofCategory c a) with h0 | hp
    · rcases Nat.eq_zero_or_pos (ofCategory c b) with h0' | hp'
      · rw [h0, h0']
      · exact key e.symm c hp'
    · exact (key e c hp).symm
  · intro h
    unfold categoryEntries
    simp only [h]

end Punx

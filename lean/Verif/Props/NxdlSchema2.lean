import Verif.Props.NxdlSchemaSample

/-!
# C78, C79: what is found in the catalogue of a schema, and when it can be read
-/

namespace Punx
open Spec

/-! ## single nodes -/

theorem parseAttr_ok_iff (n : XsNode) : (∃ o, parseAttr n = .ok o) ↔ PatternGiven n := by
  rw [parseAttr, PatternGiven, innerPatterns]
  generalize ((n.select s%"simpleType").flatMap (·.select s%"restriction")).flatMap
    (·.select s%"pattern") = found
  match found with
  | [] => simp [bind, Except.bind]
  | [p] =>
    rw [show (∀ q, [p] = [q] → HasAttr q s%"value") ↔ HasAttr p s%"value" from
      ⟨fun h => h p rfl, fun h q e => by injection e with e; exact e ▸ h⟩, HasAttr]
    simp only []
    cases Dict.get? p.attrib s%"value" <;> simp [bind, Except.bind]
  | _ :: _ :: _ => simp [bind, Except.bind]

theorem mapM_ok_iff {α β : Type} {f : α → Except PyErr β} : ∀ {l : List α},
    (∃ bs, l.mapM f = .ok bs) ↔ ∀ a ∈ l, ∃ b, f a = .ok b
  | [] => by simp [pure, Except.pure]
  | a :: l => by
    rw [List.mapM_cons]
    have ih := mapM_ok_iff (f := f) (l := l)
    cases ha : f a with
    | error e =>
      constructor
      · rintro ⟨bs, h⟩; cases h
      · intro h
        obtain ⟨b, hb⟩ := h a (by simp)
        rw [ha] at hb; cases hb
    | ok b =>
      cases hl : l.mapM f with
      | error e =>
        constructor
        · rintro ⟨bs, h⟩; cases h
        · intro h
          obtain ⟨bs, hb⟩ := ih.2 fun x hx => h x (List.mem_cons_of_mem _ hx)
          rw [hl] at hb; cases hb
      | ok bs =>
        refine ⟨fun _ x hx => ?_, fun _ => ⟨_, rfl⟩⟩
        rcases List.mem_cons.1 hx with rfl | hx
        · exact ⟨b, ha⟩
        · exact ih.1 ⟨bs, hl⟩ x hx

mutual
theorem parseElem_ok : (n : XsNode) → n ≠ .comment →
    (∀ m ∈ n.everywhere s%"attribute", PatternGiven m) → ∃ o, parseElem n = .ok o
  | .comment, h, _ => absurd rfl h
  | .elem xs t l a k, _, h => by
    have hk : ∀ m ∈ XsNode.nodesOf k, m.isXs s%"attribute" = true → PatternGiven m :=
      fun m hm hx => h m (List.mem_filter.2 ⟨by rw [XsNode.nodes]; exact List.mem_cons_of_mem _ hm, hx⟩)
    obtain ⟨ks, hks⟩ := parseInline_ok k hk
    rw [parseElem, hks]
    split
    · exact ⟨_, rfl⟩
    · exact ⟨_, rfl⟩
theorem parseInline_ok : (ns : List XsNode) →
    (∀ m ∈ XsNode.nodesOf ns, m.isXs s%"attribute" = true → PatternGiven m) →
    ∃ o, parseInline ns = .ok o
  | [], _ => ⟨[], rfl⟩
  | .comment :: ns, h => by
    rw [parseInline]
    exact parseInline_ok ns fun m hm => h m (by
      rw [XsNode.nodesOf]; exact List.mem_append_right _ hm)
  | .elem xs t l a k :: ns, h => by
    have hr := parseInline_ok ns fun m hm => h m (by
      rw [XsNode.nodesOf]; exact List.mem_append_right _ hm)
    have hk : ∀ m ∈ XsNode.nodesOf k, m.isXs s%"attribute" = true → PatternGiven m :=
      fun m hm => h m (by
        rw [XsNode.nodesOf, XsNode.nodes]
        exact List.mem_append_left _ (List.mem_cons_of_mem _ hm))
    obtain ⟨rest, hr⟩ := hr
    obtain ⟨es, he⟩ := parseSeqs_ok k hk
    obtain ⟨as, ha⟩ := (mapM_ok_iff (f := parseAttr)
      (l := k.filter (XsNode.isXs s%"attribute"))).2 fun m hm =>
        (parseAttr_ok_iff m).2 (hk m (mem_nodesOf k (List.mem_filter.1 hm).1)
          (List.mem_filter.1 hm).2)
    rw [parseInline, he, ha, hr]
    split
    · exact ⟨_, rfl⟩
    · exact ⟨_, rfl⟩
theorem parseSeqs_ok : (ns : List XsNode) →
    (∀ m ∈ XsNode.nodesOf ns, m.isXs s%"attribute" = true → PatternGiven m) →
    ∃ o, parseSeqs ns = .ok o
  | [], _ => ⟨[], rfl⟩
  | .comment :: ns, h => by
    rw [parseSeqs]
    exact parseSeqs_ok ns fun m hm => h m (by
      rw [XsNode.nodesOf]; exact List.mem_append_right _ hm)
  | .elem xs t l a k :: ns, h => by
    obtain ⟨rest, hr⟩ := parseSeqs_ok ns fun m hm => h m (by
      rw [XsNode.nodesOf]; exact List.mem_append_right _ hm)
    obtain ⟨es, he⟩ := parseElems_ok k fun m hm => h m (by
        rw [XsNode.nodesOf, XsNode.nodes]
        exact List.mem_append_left _ (List.mem_cons_of_mem _ hm))
    rw [parseSeqs, he, hr]
    split
    · exact ⟨_, rfl⟩
    · exact ⟨_, rfl⟩
theorem parseElems_ok : (ns : List XsNode) →
    (∀ m ∈ XsNode.nodesOf ns, m.isXs s%"attribute" = true → PatternGiven m) →
    ∃ o, parseElems ns = .ok o
  | [], _ => ⟨[], rfl⟩
  | n :: ns, h => by
    obtain ⟨rest, hr⟩ := parseElems_ok ns fun m hm => h m (by
      rw [XsNode.nodesOf]; exact List.mem_append_right _ hm)
    rw [parseElems, hr]
    by_cases hn : n.isXs s%"element" = true
    · obtain ⟨e, he⟩ := parseElem_ok n (by rintro rfl; cases hn) fun m hm => h m (by
        rw [XsNode.nodesOf]
        exact List.mem_append_left _ (List.mem_filter.1 hm).1) (List.mem_filter.1 hm).2
      rw [he, if_pos hn]
      exact ⟨_, rfl⟩
    · rw [if_neg hn]
      exact ⟨_, rfl⟩
end

theorem parseGroup_ok (n : XsNode) (h : ∀ m ∈ n.everywhere s%"attribute", PatternGiven m) :
    ∃ o, parseGroup n = .ok o ∧ o.name = Dict.get? n.attrib s%"name" := by
  obtain ⟨ks, hk⟩ := parseSeqs_ok n.kids fun m hm hx => h m (List.mem_filter.2 ⟨by
    cases n with
    | comment => cases hm
    | elem xs t l a k => rw [XsNode.nodes]; exact List.mem_cons_of_mem _ hm, hx⟩)
  rw [parseGroup, hk]
  exact ⟨_, rfl, rfl⟩

theorem parseGroup_name {n : XsNode} {o : SObj} (h : parseGroup n = .ok o) :
    o.name = Dict.get? n.attrib s%"name" := by
  rw [parseGroup] at h
  cases hk : parseSeqs n.kids with
  | error e => rw [hk] at h; cases h
  | ok ks =>
    rw [hk] at h
    injection h with h
    subst h
    rfl

mutual
theorem nodes_trans {m k : XsNode} : (n : XsNode) → m ∈ n.nodes → k ∈ m.nodes → k ∈ n.nodes
  | .comment, hm, hk => by
    simp only [XsNode.nodes, List.mem_singleton] at hm
    subst hm
    exact hk
  | .elem xs t l a ks, hm, hk => by
    rw [XsNode.nodes] at hm
    rcases List.mem_cons.1 hm with rfl | hm
    · exact hk
    · rw [XsNode.nodes]
      exact List.mem_cons_of_mem _ (nodesOf_trans ks hm hk)
theorem nodesOf_trans {m k : XsNode} : (ns : List XsNode) → m ∈ XsNode.nodesOf ns →
    k ∈ m.nodes → k ∈ XsNode.nodesOf ns
  | [], hm, _ => by cases hm
  | n :: ns, hm, hk => by
    rw [XsNode.nodesOf, List.mem_append] at hm ⊢
    rcases hm with hm | hm
    · exact .inl (nodes_trans n hm hk)
    · exact .inr (nodesOf_trans ns hm hk)
end

theorem everywhere_trans {root n m : XsNode} {t : Str} (hn : n ∈ root.nodes)
    (hm : m ∈ n.everywhere t) : m ∈ root.everywhere t :=
  List.mem_filter.2 ⟨nodes_trans root hn (List.mem_filter.1 hm).1, (List.mem_filter.1 hm).2⟩

/-! ## simple types -/

theorem readValues_ok_iff : ∀ (ns : List XsNode) (s : SSimple),
    (∃ s', readValues ns s = .ok s') ↔ ∀ p ∈ ns, HasAttr p s%"value"
  | [], s => by simp [readValues]
  | n :: ns, s => by
    rw [readValues]
    simp only [List.forall_mem_cons, HasAttr]
    cases hv : Dict.get? n.attrib s%"value" with
    | none => simp
    | some v =>
      simp only [Option.some.injEq, exists_eq', true_and]
      exact readValues_ok_iff ns _

theorem readLengths_ok_iff (int : Str → Option Int) : ∀ (ns : List XsNode) (s : SSimple),
    (∃ s', readLengths int ns s = .ok s') ↔
      ∀ m ∈ ns, ∃ v k, Dict.get? m.attrib s%"value" = some v ∧ int v = some k
  | [], s => by simp [readLengths]
  | n :: ns, s => by
    rw [readLengths]
    simp only [List.forall_mem_cons]
    cases hv : Dict.get? n.attrib s%"value" with
    | none => simp
    | some v =>
      cases hi : int v with
      | none => simp [hi]
      | some k =>
        simp only [hi]
        exact (readLengths_ok_iff int ns _).trans ⟨fun h => ⟨⟨v, k, rfl, hi⟩, h⟩, And.right⟩

theorem readRestrictions_ok_iff (int : Str → Option Int) : ∀ (ns : List XsNode) (s : SSimple),
    (∃ s', readRestrictions int ns s = .ok s') ↔
      ∀ r ∈ ns, (∀ p ∈ r.select s%"pattern", HasAttr p s%"value") ∧
        ∀ m ∈ r.select s%"maxLength",
          ∃ v k, Dict.get? m.attrib s%"value" = some v ∧ int v = some k
  | [], s => by simp [readRestrictions]
  | n :: ns, s => by
    rw [readRestrictions]
    simp only [List.forall_mem_cons]
    generalize s.noteBase n = s1
    have h1 := readValues_ok_iff (n.select s%"pattern") s1
    cases hv : readValues (n.select s%"pattern") s1 with
    | error e =>
      rw [hv] at h1
      refine ⟨fun ⟨_, h⟩ => (by cases h), fun h => ?_⟩
      obtain ⟨s', h⟩ := h1.2 h.1.1
      cases h
    | ok s2 =>
      have h2 := readLengths_ok_iff int (n.select s%"maxLength") s2
      simp only [bind, Except.bind]
      cases hl : readLengths int (n.select s%"maxLength") s2 with
      | error e =>
        rw [hl] at h2
        refine ⟨fun ⟨_, h⟩ => (by cases h), fun h => ?_⟩
        obtain ⟨s', h⟩ := h2.2 h.1.2
        cases h
      | ok s3 =>
        have h3 := readRestrictions_ok_iff int ns s3
        exact ⟨fun h => ⟨⟨h1.1 ⟨_, hv⟩, h2.1 ⟨_, hl⟩⟩, h3.1 h⟩, fun h => h3.2 h.2⟩

theorem parseSimple_ok_iff (int : Str → Option Int) (n : XsNode) :
    (∃ s, parseSimple int n = .ok s) ↔ SimpleReadable int n :=
  readRestrictions_ok_iff int _ _

theorem readSimples_ok_iff (int : Str → Option Int) : ∀ (ns : List XsNode)
    (d : Dict (Option Str) SSimple),
    (∃ d', readSimples int ns d = .ok d') ↔ ∀ n ∈ ns, SimpleReadable int n
  | [], d => by simp [readSimples]
  | n :: ns, d => by
    rw [readSimples]
    simp only [List.forall_mem_cons]
    have h1 := parseSimple_ok_iff int n
    cases hp : parseSimple int n with
    | error e =>
      rw [hp] at h1
      refine ⟨fun ⟨_, h⟩ => (by cases h), fun h => ?_⟩
      obtain ⟨s', h⟩ := h1.2 h.1
      cases h
    | ok s =>
      have h2 := readSimples_ok_iff int ns (Dict.set d (Dict.get? n.attrib s%"name") s)
      exact ⟨fun h => ⟨h1.1 ⟨_, hp⟩, h2.1 h⟩, fun h => h2.2 h.2⟩

theorem readSimples_keys (int : Str → Option Int) : ∀ {ns : List XsNode}
    {d d' : Dict (Option Str) SSimple}, readSimples int ns d = .ok d' → ∀ k,
    k ∈ Dict.keys d' ↔ k ∈ Dict.keys d ∨ ∃ n ∈ ns, Dict.get? n.attrib s%"name" = k
  | [], d, d', h, k => by
    injection h with h
    subst h
    simp
  | n :: ns, d, d', h, k => by
    rw [readSimples] at h
    cases hp : parseSimple int n with
    | error e => rw [hp] at h; cases h
    | ok s =>
      rw [hp] at h
      rw [readSimples_keys int (ns := ns) h k, Dict.mem_keys_set]
      simp only [List.exists_mem_cons_iff]
      constructor
      · rintro ((rfl | h) | h)
        · exact .inr (.inl rfl)
        · exact .inl h
        · exact .inr (.inr h)
      · rintro (h | rfl | h)
        · exact .inl (.inr h)
        · exact .inl (.inl rfl)
        · exact .inr h

theorem keys_inheritSimple (d : Dict (Option Str) SSimple) (k : Option Str) :
    Dict.keys (inheritSimple d k) = Dict.keys d := by
  rw [inheritSimple]
  cases h : Dict.get? d k with
  | none => rfl
  | some v =>
    simp only []
    cases Dict.get? d v.base with
    | none => rfl
    | some b =>
      simp only [Dict.keys_set]
      rw [if_pos]
      exact Dict.has_iff.1 (by rw [Dict.has, h]; rfl)

theorem keys_foldl_inheritSimple (ks : List (Option Str)) (d : Dict (Option Str) SSimple) :
    Dict.keys (ks.foldl inheritSimple d) = Dict.keys d := by
  induction ks generalizing d with
  | nil => rfl
  | cons k ks ih => rw [List.foldl_cons, ih, keys_inheritSimple]

theorem simpleTypes_ok_iff (int : Str → Option Int) (root : XsNode) :
    (∃ d, simpleTypes int root = .ok d) ↔
      ∀ n ∈ root.select s%"simpleType", SimpleReadable int n := by
  rw [← readSimples_ok_iff int _ [], simpleTypes]
  cases readSimples int (root.select s%"simpleType") [] <;> simp [bind, Except.bind]

theorem simpleTypes_keys {int : Str → Option Int} {root : XsNode} {d : Dict (Option Str) SSimple}
    (h : simpleTypes int root = .ok d) (k : Option Str) :
    k ∈ Dict.keys d ↔ ∃ n ∈ root.select s%"simpleType", Dict.get? n.attrib s%"name" = k := by
  rw [simpleTypes] at h
  cases hr : readSimples int (root.select s%"simpleType") [] with
  | error e => rw [hr] at h; cases h
  | ok d0 =>
    rw [hr] at h
    injection h with h
    rw [← h, keys_foldl_inheritSimple, readSimples_keys int hr k]
    simp [Dict.keys]

/-! ## the stages -/

/-- names of the section `schema` -/
def SchemaDb.names (db : SchemaDb) : List (Option Str) := Dict.keys (db.schema.getD [])

theorem ref_ok_iff (db : SchemaDb) (k : Option Str) : (∃ r, db.ref k = .ok r) ↔ k ∈ db.names := by
  rw [SchemaDb.ref, SchemaDb.names]
  cases hs : db.schema with
  | none => simp [Dict.keys]
  | some d =>
    simp only [Option.bind_some, Option.getD_some]
    cases hg : Dict.get? d k with
    | none =>
      have := Dict.get?_eq_none.1 hg
      simp [this]
    | some r =>
      have : k ∈ Dict.keys d := Dict.has_iff.1 (by rw [Dict.has, hg]; rfl)
      simp [this]

theorem names_note (db : SchemaDb) (x : Option Str) (r : SRef) (k : Option Str) :
    k ∈ (db.note x r).names ↔ k = x ∨ k ∈ db.names := by
  rw [SchemaDb.note, SchemaDb.names, SchemaDb.names]
  simp only [Option.getD_some]
  rw [Dict.mem_keys_set]

theorem startDb_names (d : Dict (Option Str) SSimple) : (startDb d).names = Dict.keys d := by
  cases d with
  | nil => rfl
  | cons x xs =>
    simp only [startDb, SchemaDb.names, Option.getD_some, Dict.keys, List.map_map]
    rfl

theorem startDb_made (d : Dict (Option Str) SSimple) : (startDb d).schema.isSome ↔ d ≠ [] := by
  cases d <;> simp [startDb]

theorem attrGroups_ok : ∀ {ns : List XsNode} {db db' : SchemaDb}, attrGroups ns db = .ok db' →
    (∀ k, k ∈ db'.names ↔ k ∈ db.names ∨ ∃ n ∈ ns, Dict.get? n.attrib s%"name" = k) ∧
    (db'.schema.isSome ↔ db.schema.isSome ∨ ns ≠ []) ∧ db'.attrs = db.attrs ∧
    db'.groups = db.groups ∧ db'.simple = db.simple
  | [], db, db', h => by
    injection h with h
    subst h
    simp
  | n :: ns, db, db', h => by
    rw [attrGroups] at h
    cases hp : parseAttrGroup n with
    | error e => rw [hp] at h; cases h
    | ok ks =>
      rw [hp] at h
      obtain ⟨h1, h2, h3, h4, h5⟩ := attrGroups_ok (ns := ns) h
      refine ⟨fun k => ?_, ?_, h3, h4, h5⟩
      · rw [h1, names_note]
        simp only [List.exists_mem_cons_iff]
        constructor
        · rintro ((rfl | h) | h)
          · exact .inr (.inl rfl)
          · exact .inl h
          · exact .inr (.inr h)
        · rintro (h | rfl | h)
          · exact .inl (.inr h)
          · exact .inl (.inl rfl)
          · exact .inr h
      · rw [h2]
        simp [SchemaDb.note]

theorem attrGroups_ok_iff : ∀ {ns : List XsNode} {db : SchemaDb},
    (∃ db', attrGroups ns db = .ok db') ↔ ∀ n ∈ ns, ∀ m ∈ n.select s%"attribute", PatternGiven m
  | [], db => by simp [attrGroups]
  | n :: ns, db => by
    rw [attrGroups]
    simp only [List.forall_mem_cons]
    have h1 : (∃ o, parseAttrGroup n = .ok o) ↔ ∀ m ∈ n.select s%"attribute", PatternGiven m := by
      rw [parseAttrGroup, mapM_ok_iff]
      exact forall₂_congr fun m _ => parseAttr_ok_iff m
    cases hp : parseAttrGroup n with
    | error e =>
      rw [hp] at h1
      refine ⟨fun ⟨_, h⟩ => (by cases h), fun h => ?_⟩
      obtain ⟨s', h⟩ := h1.2 h.1
      cases h
    | ok ks =>
      have h2 := attrGroups_ok_iff (ns := ns)
        (db := db.note (Dict.get? n.attrib s%"name") (.other ks))
      exact ⟨fun h => ⟨h1.1 ⟨_, hp⟩, h2.1 h⟩, fun h => h2.2 h.2⟩

theorem namedGroups_ok : ∀ {ns : List XsNode} {db db' : SchemaDb}, namedGroups ns db = .ok db' →
    (∀ k, k ∈ db'.names ↔ k ∈ db.names ∨ ∃ n ∈ ns, ∃ x, k = some x ∧ HasName n x) ∧
    byLine parseGroup ns db.groups = .ok db'.groups ∧ db'.attrs = db.attrs ∧
    db'.elems = db.elems ∧ db'.simple = db.simple
  | [], db, db', h => by
    injection h with h
    subst h
    simp [byLine]
  | n :: ns, db, db', h => by
    rw [namedGroups] at h
    rw [byLine]
    cases hp : parseGroup n with
    | error e => rw [hp] at h; cases h
    | ok o =>
      rw [hp] at h
      simp only [bind, Except.bind] at h ⊢
      have hname := parseGroup_name hp
      cases hn : o.name with
      | none =>
        rw [hn] at h
        obtain ⟨h1, h2, h3, h4, h5⟩ := namedGroups_ok (ns := ns) h
        refine ⟨fun k => ?_, h2, h3, h4, h5⟩
        rw [h1]
        simp only [List.exists_mem_cons_iff, HasName, ← hname, hn]
        simp [SchemaDb.names]
      | some x =>
        rw [hn] at h
        cases hs : db.schema with
        | none => simp only [hs] at h; cases h
        | some d =>
          simp only [hs] at h
          obtain ⟨h1, h2, h3, h4, h5⟩ := namedGroups_ok (ns := ns) h
          refine ⟨fun k => ?_, h2, h3, h4, h5⟩
          rw [h1, names_note]
          simp only [List.exists_mem_cons_iff, HasName, ← hname, hn, SchemaDb.names, hs]
          constructor
          · rintro ((rfl | h) | h)
            · exact .inr (.inl ⟨x, rfl, rfl⟩)
            · exact .inl h
            · exact .inr (.inr h)
          · rintro (h | ⟨y, rfl, hy⟩ | h)
            · exact .inl (.inr h)
            · exact .inl (.inl hy.symm)
            · exact .inr h

theorem namedGroups_ok_iff : ∀ {ns : List XsNode} {db : SchemaDb},
    (∀ n ∈ ns, ∀ m ∈ n.everywhere s%"attribute", PatternGiven m) →
    ((∃ db', namedGroups ns db = .ok db') ↔
      ((∃ n ∈ ns, HasAttr n s%"name") → db.schema.isSome))
  | [], db, _ => by simp [namedGroups]
  | n :: ns, db, hp => by
    obtain ⟨o, ho, hname⟩ := parseGroup_ok n (hp n (by simp))
    have hp' : ∀ n ∈ ns, ∀ m ∈ n.everywhere s%"attribute", PatternGiven m :=
      fun m hm => hp m (List.mem_cons_of_mem _ hm)
    rw [namedGroups, ho]
    simp only [bind, Except.bind, List.exists_mem_cons_iff, HasAttr, ← hname]
    cases hn : o.name with
    | none =>
      refine (namedGroups_ok_iff hp').trans ?_
      simp [HasAttr]
    | some x =>
      cases hs : db.schema with
      | none => simp
      | some d =>
        refine (namedGroups_ok_iff hp').trans ?_
        simp [SchemaDb.note]

/-- all nodes of the three kinds below the root have an object -/
structure Stored (root : XsNode) (db : SchemaDb) : Prop where
  attrs : ∀ n ∈ root.everywhere s%"attribute", ∃ o, atLine db.attrs n = .ok o
  elems : ∀ n ∈ root.everywhere s%"element", ∃ o, atLine db.elems n = .ok o
  groups : ∀ n ∈ root.everywhere s%"group", ∃ o, atLine db.groups n = .ok o

/-- The object found for a node is that of the last node on its line. -/
theorem atLine_last {parse : XsNode → Except PyErr SObj} {ns : List XsNode} {d : Dict Nat SObj}
    (h : byLine parse ns [] = .ok d) {n : XsNode} (hn : n ∈ ns) :
    ∃ m, (ns.filter (·.line = n.line)).getLast? = some m ∧ m ∈ ns ∧ atLine d n = parse m := by
  have hg := byLine_get h n.line
  cases hl : (ns.filter (·.line = n.line)).getLast? with
  | none =>
    rw [List.getLast?_eq_none_iff, List.filter_eq_nil_iff] at hl
    exact absurd (hl n hn) (by simp)
  | some m =>
    have hm : m ∈ ns := (List.mem_filter.1 (List.mem_of_getLast? hl)).1
    obtain ⟨o, ho⟩ := byLine_all h m hm
    rw [hl] at hg
    simp only [ho, Except.toOption] at hg
    exact ⟨m, rfl, hm, by rw [atLine, hg, ho]⟩

theorem atLine_stored {parse : XsNode → Except PyErr SObj} {ns : List XsNode} {d : Dict Nat SObj}
    (h : byLine parse ns [] = .ok d) {n : XsNode} (hn : n ∈ ns) : ∃ o, atLine d n = .ok o := by
  obtain ⟨m, _, hm, he⟩ := atLine_last h hn
  obtain ⟨o, ho⟩ := byLine_all h m hm
  exact ⟨o, he.trans ho⟩

theorem seqKids_ok {root : XsNode} {db : SchemaDb} (hs : Stored root db) {n : XsNode}
    (hn : n ∈ root.nodes) : ∃ ks, seqKids db n = .ok ks := by
  obtain ⟨es, he⟩ := mapM_ok_iff.2 fun m hm => hs.elems m (everywhere_kid hn hm)
  obtain ⟨gs, hg⟩ := mapM_ok_iff.2 fun m hm => hs.groups m (everywhere_kid hn hm)
  rw [seqKids, he, hg]
  exact ⟨_, rfl⟩

theorem extensionKids_ok_iff {root : XsNode} {db : SchemaDb} (hs : Stored root db) {n : XsNode}
    (hn : n ∈ root.nodes) : (∃ ks, extensionKids db n = .ok ks) ↔
      ∀ b, Dict.get? n.attrib s%"base" = some b → some (stripNs b) ∈ db.names := by
  obtain ⟨as, ha⟩ := mapM_ok_iff.2 fun m hm => hs.attrs m (everywhere_kid hn hm)
  obtain ⟨ss, hss⟩ := mapM_ok_iff.2 fun m hm =>
    seqKids_ok hs (nodes_select (t := s%"sequence") hn hm)
  rw [extensionKids, ha, hss]
  cases hb : Dict.get? n.attrib s%"base" with
  | none => simp [bind, Except.bind]
  | some b =>
    have h1 := ref_ok_iff db (some (stripNs b))
    cases hr : db.ref (some (stripNs b)) with
    | error e =>
      rw [hr] at h1
      have : some (stripNs b) ∉ db.names := fun h => by obtain ⟨_, h⟩ := h1.2 h; cases h
      simp [bind, Except.bind, Except.map, this, hr]
    | ok r =>
      have := h1.1 ⟨_, hr⟩
      simp [bind, Except.bind, Except.map, this, hr]

theorem contentKids_ok_iff {root : XsNode} {db : SchemaDb} (hs : Stored root db) {n : XsNode}
    (hn : n ∈ root.nodes) : (∃ ks, contentKids db n = .ok ks) ↔
      ∃ x rest, n.kids = x :: rest ∧ x.isXs s%"extension" ∧
        ∀ b, Dict.get? x.attrib s%"base" = some b → some (stripNs b) ∈ db.names := by
  rw [contentKids]
  cases hk : n.kids with
  | nil => simp
  | cons x rest =>
    have hx : x ∈ root.nodes := nodes_kid root hn (hk ▸ List.mem_cons_self)
    have h1 := extensionKids_ok_iff hs hx
    cases x with
    | comment => simp [XsNode.isXs]
    | elem b t l a ks =>
      simp only []
      by_cases he : XsNode.isXs s%"extension" (.elem b t l a ks) = true
      · rw [if_pos he]
        refine h1.trans ⟨fun h => ⟨_, _, rfl, he, h⟩, ?_⟩
        rintro ⟨x, r, h2, h3, h4⟩
        injection h2 with h2 h5
        rw [h2]
        exact h4
      · rw [if_neg he]
        refine ⟨fun ⟨_, h⟩ => (by cases h), ?_⟩
        rintro ⟨x, r, h2, h3, h4⟩
        injection h2 with h2 h5
        exact absurd (h2 ▸ h3) he

theorem attrGroupKids_ok_iff {db : SchemaDb} {n : XsNode} : (∃ ks, attrGroupKids db n = .ok ks) ↔
    ∃ r, Dict.get? n.attrib s%"ref" = some r ∧ some (stripNs r) ∈ db.names := by
  rw [attrGroupKids]
  cases hr : Dict.get? n.attrib s%"ref" with
  | none => simp
  | some r =>
    have h1 := ref_ok_iff db (some (stripNs r))
    simp only [Option.some.injEq, exists_eq_left']
    rw [← h1]
    cases db.ref (some (stripNs r)) <;> simp [Except.map]

theorem complexKids_ok_iff {root : XsNode} {db : SchemaDb} (hs : Stored root db) {n : XsNode}
    (hn : n ∈ root.nodes) : (∃ ks, complexKids db n = .ok ks) ↔
      RefersTo (fun k => some k ∈ db.names) n := by
  obtain ⟨as, ha⟩ := mapM_ok_iff.2 fun m hm => hs.attrs m (everywhere_kid hn hm)
  obtain ⟨gs, hg⟩ := mapM_ok_iff.2 fun m hm => hs.groups m (everywhere_kid hn hm)
  obtain ⟨ss, hss⟩ := mapM_ok_iff.2 fun m hm =>
    seqKids_ok hs (nodes_select (t := s%"sequence") hn hm)
  have h1 : (∃ bs, (n.select s%"complexContent").mapM (contentKids db) = .ok bs) ↔ _ :=
    mapM_ok_iff.trans (forall₂_congr fun c hc => contentKids_ok_iff hs (nodes_select hn hc))
  have h2 : (∃ bs, (n.select s%"attributeGroup").mapM (attrGroupKids db) = .ok bs) ↔ _ :=
    mapM_ok_iff.trans (forall₂_congr fun c _ => attrGroupKids_ok_iff (db := db))
  rw [RefersTo, ← h1, ← h2, complexKids, ha, hg, hss]
  simp only [bind, Except.bind]
  cases (n.select s%"complexContent").mapM (contentKids db) with
  | error e => simp
  | ok cs =>
    simp only []
    cases (n.select s%"attributeGroup").mapM (attrGroupKids db) with
    | error e => simp
    | ok gas => simp

theorem complexTypes_ok_iff {root : XsNode} : ∀ {ns : List XsNode} {db : SchemaDb},
    Stored root db → (∀ n ∈ ns, n ∈ root.nodes) →
    ((∃ db', complexTypes ns db = .ok db') ↔
      ∀ before n after, ns = before ++ n :: after → HasAttr n s%"name" →
        RefersTo (fun k => some k ∈ db.names ∨ ∃ m ∈ before, HasName m k) n)
  | [], db, _, _ => by simp [complexTypes]
  | n :: ns, db, hs, hns => by
    have hns' : ∀ m ∈ ns, m ∈ root.nodes := fun m hm => hns m (List.mem_cons_of_mem _ hm)
    have hsplit : ∀ P : List XsNode → XsNode → Prop,
        (∀ before m after, n :: ns = before ++ m :: after → P before m) ↔
          P [] n ∧ ∀ before m after, ns = before ++ m :: after → P (n :: before) m := by
      intro P
      constructor
      · exact fun h => ⟨h [] n ns rfl, fun b m a e => h (n :: b) m a (by rw [e]; rfl)⟩
      · rintro ⟨h1, h2⟩ b m a e
        cases b with
        | nil => injection e with e1 e2; exact e1 ▸ h1
        | cons x b => injection e with e1 e2; exact e1 ▸ h2 b m a e2
    rw [hsplit fun before m => HasAttr m s%"name" →
      RefersTo (fun k => some k ∈ db.names ∨ ∃ m ∈ before, HasName m k) m, complexTypes]
    cases hn : Dict.get? n.attrib s%"name" with
    | none =>
      simp only []
      rw [complexTypes_ok_iff hs hns']
      have h1 : ¬ HasAttr n s%"name" := by simp [HasAttr, hn]
      have h2 : ∀ k, ¬ HasName n k := by simp [HasName, hn]
      simp only [h1, false_implies, true_and, List.exists_mem_cons_iff, h2, false_or]
    | some x =>
      simp only []
      have h1 : HasAttr n s%"name" := ⟨x, hn⟩
      have h2 : ∀ k, HasName n k ↔ k = x := by
        intro k
        rw [HasName, hn, Option.some.injEq, eq_comm]
      have h3 := complexKids_ok_iff hs (hns n (by simp))
      simp only [List.not_mem_nil, false_and, exists_false, or_false, h1, true_implies,
        List.exists_mem_cons_iff, h2]
      rw [← h3]
      cases hc : complexKids db n with
      | error e => simp [bind, Except.bind]
      | ok ks =>
        have h4 := complexTypes_ok_iff (ns := ns) (db := db.note (some x) (.other ks))
          ⟨hs.attrs, hs.elems, hs.groups⟩ hns'
        simp only [names_note, Option.some.injEq] at h4
        simp only [bind, Except.bind, Except.ok.injEq, exists_eq', true_and]
        rw [h4]
        have h5 : ∀ before : List XsNode,
            (fun k => (k = x ∨ some k ∈ db.names) ∨ ∃ m ∈ before, HasName m k) =
            (fun k => some k ∈ db.names ∨ k = x ∨ ∃ m ∈ before, HasName m k) := by
          intro before
          funext k
          simp only [eq_iff_iff]
          rw [or_comm (a := k = x), or_assoc]
        simp only [h5]

theorem complexTypes_ok : ∀ {ns : List XsNode} {db db' : SchemaDb}, complexTypes ns db = .ok db' →
    db'.attrs = db.attrs ∧ db'.elems = db.elems ∧ db'.groups = db.groups ∧ db'.simple = db.simple
  | [], db, db', h => by
    injection h with h
    subst h
    simp
  | n :: ns, db, db', h => by
    rw [complexTypes] at h
    cases hn : Dict.get? n.attrib s%"name" with
    | none => rw [hn] at h; exact complexTypes_ok (ns := ns) h
    | some x =>
      rw [hn] at h
      simp only [] at h
      cases hc : complexKids db n with
      | error e => rw [hc] at h; cases h
      | ok ks =>
        rw [hc] at h
        exact complexTypes_ok (ns := ns) (db := db.note (some x) (.other ks)) h

/-! ## the whole catalogue -/

/-- C78: the object that is found for a declaration is that of the last declaration of its kind on
the same line. -/
theorem found_is_last {int : Str → Option Int} {root : XsNode} {db : SchemaDb}
    (h : readSchema int root = .ok db) :
    (∀ n ∈ root.everywhere s%"attribute", ∃ m,
      ((root.everywhere s%"attribute").filter (·.line = n.line)).getLast? = some m ∧
      atLine db.attrs n = parseAttr m) ∧
    (∀ n ∈ root.everywhere s%"element", ∃ m,
      ((root.everywhere s%"element").filter (·.line = n.line)).getLast? = some m ∧
      atLine db.elems n = parseElem m) ∧
    (∀ n ∈ root.everywhere s%"group", ∃ m,
      ((root.everywhere s%"group").filter (·.line = n.line)).getLast? = some m ∧
      atLine db.groups n = parseGroup m) := by
  rw [readSchema] at h
  cases hs : simpleTypes int root with
  | error e => rw [hs] at h; cases h
  | ok simple =>
    rw [hs] at h
    simp only [bind, Except.bind] at h
    cases ha : byLine parseAttr (root.everywhere s%"attribute") [] with
    | error e => rw [ha] at h; cases h
    | ok attrs =>
      rw [ha] at h
      simp only [] at h
      cases hg : attrGroups (root.select s%"attributeGroup")
          { startDb simple with attrs := attrs } with
      | error e => rw [hg] at h; cases h
      | ok db1 =>
        rw [hg] at h
        simp only [] at h
        cases he : byLine parseElem (root.everywhere s%"element") [] with
        | error e => rw [he] at h; cases h
        | ok elems =>
          rw [he] at h
          simp only [] at h
          cases hn : namedGroups (root.everywhere s%"group") { db1 with elems := elems } with
          | error e => rw [hn] at h; cases h
          | ok db2 =>
            rw [hn] at h
            simp only [] at h
            obtain ⟨_, _, h3, h4, _⟩ := attrGroups_ok hg
            obtain ⟨_, h6, h7, h8, _⟩ := namedGroups_ok hn
            obtain ⟨h9, h10, h11, _⟩ := complexTypes_ok h
            have hg0 : (startDb simple).groups = [] := by cases simple <;> rfl
            have h6' : byLine parseGroup (root.everywhere s%"group") [] = .ok db2.groups := by
              rw [← h6]
              simp only [h4, hg0]
            rw [h9, h10, h11, h7, h8]
            simp only [h3]
            refine ⟨fun n hn => ?_, fun n hn => ?_, fun n hn => ?_⟩
            · obtain ⟨m, h1, _, h2⟩ := atLine_last ha hn; exact ⟨m, h1, h2⟩
            · obtain ⟨m, h1, _, h2⟩ := atLine_last he hn; exact ⟨m, h1, h2⟩
            · obtain ⟨m, h1, _, h2⟩ := atLine_last h6' hn; exact ⟨m, h1, h2⟩

/-- C79: a schema can be read exactly if patterns have values and lengths are numbers, named
groups are preceded by some simple type or attribute group, and each complex type refers only to
complex types declared before it. -/
theorem schema_read_iff (int : Str → Option Int) (root : XsNode) :
    (∃ db, readSchema int root = .ok db) ↔ SchemaReadable int root := by
  rw [readSchema]
  have hS := simpleTypes_ok_iff int root
  cases hs : simpleTypes int root with
  | error e =>
    rw [hs] at hS
    refine ⟨fun ⟨_, h⟩ => (by cases h), fun h => ?_⟩
    obtain ⟨_, h⟩ := hS.2 h.simple
    cases h
  | ok simple =>
    have hsimple := hS.1 ⟨_, hs⟩
    have hkeys := simpleTypes_keys hs
    simp only [bind, Except.bind]
    have hA : (∃ d, byLine parseAttr (root.everywhere s%"attribute") [] = .ok d) ↔
        ∀ n ∈ root.everywhere s%"attribute", PatternGiven n := by
      rcases byLine_cases (parse := parseAttr) (root.everywhere s%"attribute") with
        ⟨e, h1, h2⟩ | ⟨d, os, h1, h2⟩
      · refine ⟨fun ⟨_, h⟩ => (by rw [h1] at h; cases h), fun h => ?_⟩
        obtain ⟨os, h3⟩ := mapM_ok_iff.2 fun n hn => (parseAttr_ok_iff n).2 (h n hn)
        rw [h2] at h3; cases h3
      · exact ⟨fun _ n hn => (parseAttr_ok_iff n).1 (mapM_ok_iff.1 ⟨os, h2⟩ n hn),
          fun _ => ⟨d, h1⟩⟩
    cases ha : byLine parseAttr (root.everywhere s%"attribute") [] with
    | error e =>
      rw [ha] at hA
      refine ⟨fun ⟨_, h⟩ => (by cases h), fun h => ?_⟩
      obtain ⟨_, h⟩ := hA.2 h.pattern
      cases h
    | ok attrs =>
      have hpat := hA.1 ⟨_, ha⟩
      obtain ⟨db1, hg⟩ := (attrGroups_ok_iff (ns := root.select s%"attributeGroup")
        (db := { startDb simple with attrs := attrs })).2 fun n hn m hm =>
          hpat m (everywhere_kid (nodes_select (mem_nodes_self root) hn) hm)
      obtain ⟨elems, he⟩ : ∃ d, byLine parseElem (root.everywhere s%"element") [] = .ok d := by
        rcases byLine_cases (parse := parseElem) (root.everywhere s%"element") with
          ⟨e, h1, h2⟩ | ⟨d, os, h1, h2⟩
        · obtain ⟨os, h3⟩ := mapM_ok_iff.2 fun n (hn : n ∈ root.everywhere s%"element") =>
            parseElem_ok n (by rintro rfl; cases (List.mem_filter.1 hn).2)
              fun m hm => hpat m (everywhere_trans (List.mem_filter.1 hn).1 hm)
          rw [h2] at h3; cases h3
        · exact ⟨d, h1⟩
      simp only [] at hg ⊢
      simp only [hg, he]
      obtain ⟨h1, h2, h3, h4, h5⟩ := attrGroups_ok hg
      have hN := namedGroups_ok_iff (ns := root.everywhere s%"group")
        (db := { db1 with elems := elems })
        fun n hn m hm => hpat m (everywhere_trans (List.mem_filter.1 hn).1 hm)
      have hmade : db1.schema.isSome ↔
          root.select s%"simpleType" ≠ [] ∨ root.select s%"attributeGroup" ≠ [] := by
        rw [h2]
        refine or_congr ?_ Iff.rfl
        refine (startDb_made simple).trans ?_
        rw [not_iff_not]
        constructor
        · rintro rfl
          rw [List.eq_nil_iff_forall_not_mem]
          intro n hn
          exact absurd ((hkeys _).2 ⟨n, hn, rfl⟩) (by simp [Dict.keys])
        · intro e
          rw [e] at hkeys
          cases simple with
          | nil => rfl
          | cons x xs => exact absurd ((hkeys x.1).1 (by simp [Dict.keys])) (by simp)
      cases hn : namedGroups (root.everywhere s%"group") { db1 with elems := elems } with
      | error e =>
        rw [hn] at hN
        refine ⟨fun ⟨_, h⟩ => (by cases h), fun h => ?_⟩
        obtain ⟨_, h⟩ := hN.2 fun hg => hmade.2 (h.section' hg)
        cases h
      | ok db2 =>
        have hsec := hN.1 ⟨_, hn⟩
        obtain ⟨h6, h7, h8, h9, h10⟩ := namedGroups_ok hn
        have hg0 : (startDb simple).groups = [] := by cases simple <;> rfl
        have h7' : byLine parseGroup (root.everywhere s%"group") [] = .ok db2.groups := by
          rw [← h7]
          simp only [h4, hg0]
        have hst : Stored root db2 := by
          refine ⟨fun n hn => ?_, fun n hn => ?_, fun n hn => atLine_stored h7' hn⟩
          · rw [h8]
            simp only [h3]
            exact atLine_stored ha hn
          · rw [h9]
            exact atLine_stored he hn
        have hC := complexTypes_ok_iff (ns := root.select s%"complexType") hst
          fun n hn => nodes_select (mem_nodes_self root) hn
        have hknown : ∀ before : List XsNode,
            (fun k => some k ∈ db2.names ∨ ∃ m ∈ before, HasName m k) = Known root before := by
          intro before
          funext k
          rw [eq_iff_iff, h6, Known]
          have h11 : some k ∈ ({ db1 with elems := elems } : SchemaDb).names ↔
              (∃ n ∈ root.select s%"simpleType", HasName n k) ∨
                ∃ n ∈ root.select s%"attributeGroup", HasName n k := by
            refine (h1 (some k)).trans (or_congr ?_ Iff.rfl)
            have : ({ startDb simple with attrs := attrs } : SchemaDb).names = Dict.keys simple :=
              startDb_names simple
            rw [this]
            exact hkeys (some k)
          have h12 : (∃ n ∈ root.everywhere s%"group", ∃ x, some k = some x ∧ HasName n x) ↔
              ∃ n ∈ root.everywhere s%"group", HasName n k := by simp
          rw [h11, h12]
          simp only [or_assoc]
        simp only [hknown] at hC
        simp only []
        rw [hC]
        exact ⟨fun h => ⟨hsimple, hpat, fun hx => hmade.1 (hsec hx), h⟩, fun h => h.order⟩

/-! ## cases -/

/-- The shipped schema can be read. -/
example : SchemaReadable xsdInt (nxdlXsd 705) := by
  rw [← schema_read_iff]
  have : (readSchema xsdInt (nxdlXsd 705)).isOk = true := by decide +kernel
  cases h : readSchema xsdInt (nxdlXsd 705) with
  | error e => rw [h] at this; cases this
  | ok db => exact ⟨db, rfl⟩

/-- A type with one attribute. -/
def plainType : XsNode := .elem true s%"complexType" 2 [(s%"name", s%"basicComponent")]
  [.elem true s%"attribute" 3 [(s%"name", s%"name")] []]

/-- A type that extends it. -/
def extendedType : XsNode := .elem true s%"complexType" 5 [(s%"name", s%"linkType")]
  [.elem true s%"complexContent" 6 []
    [.elem true s%"extension" 7 [(s%"base", s%"nx:basicComponent")] []]]

/-- A schema with the given content. -/
def schemaOf (kids : List XsNode) : XsNode := .elem true s%"schema" 1 [] kids

/-- C79: the order of declarations, which XML Schema leaves free, decides whether a schema can be
read. -/
theorem declaration_order_matters :
    SchemaReadable xsdInt (schemaOf [plainType, extendedType]) ∧
      ¬ SchemaReadable xsdInt (schemaOf [extendedType, plainType]) := by
  rw [← schema_read_iff, ← schema_read_iff]
  exact ⟨⟨_, rfl⟩, by rintro ⟨db, h⟩; cases h⟩

end Punx

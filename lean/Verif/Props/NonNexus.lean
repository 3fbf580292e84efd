import Verif.Props.Addressed

/-!
# C35: non-NeXus content is not judged
-/

namespace Punx
open Spec

theorem lastComp_noSlash (n : Str) : '/' ∉ baseName n := by
  rw [baseName]
  intro h
  rw [List.mem_reverse] at h
  have := List.mem_takeWhile_imp h
  simp at this

theorem objName_slash {n : Str} (h : objName n = s%"/") : n = s%"/" := by
  rw [objName_eq, shortName] at h
  split at h
  · assumption
  · exfalso
    apply lastComp_noSlash n
    rw [h]; simp

/-- Below non-NeXus content there is only non-NeXus content (except a root). -/
theorem below_nonNexus {env : Env} {f : H5File} (h : (catalog env f).res = .ok ()) {it p : Item}
    (hit : it ∈ (catalog env f).log) (hp : it.parent = some p) (hn : p.classpath = nonNeXus) :
    it.classpath = nonNeXus ∨ (it.classpath = [] ∧ it.addr = some s%"/") := by
  cases catalogued h hit with
  | root => cases hp
  | @attr v attrs ka j h1 h2 h3 h4 =>
    rw [attrItem_parent] at hp
    cases hp
    left
    rw [attrItem, if_pos hn]
  | @node q n oid h1 h2 =>
    rw [objItem_parent] at hp
    cases hp
    have e : (objItem env (some p) (.node n) n.name oid).classpath =
      (cpOf env (some p) (.node n) n.name).1 := rfl
    rw [e, cpOf, determineClasspath]
    by_cases h1 : objName n.name = s%"/"
    · rw [if_pos h1]
      right
      refine ⟨rfl, ?_⟩
      show some n.name = _
      rw [objName_slash h1]
    · rw [if_neg h1]
      simp only [if_pos hn]
      exact .inl rfl

theorem nonNexus_cases {env : Env} {f : H5File} (h : (catalog env f).res = .ok ())
    (hw : WellNamedFile f) {it : Item} (hit : it ∈ (catalog env f).log)
    (hn : it.classpath = nonNeXus) {a : Str} (ha : it.addr = some a) :
    '@' ∉ a ∧ ∃ n, it.obj = .node n ∧ a = n.name := by
  cases hc : catalogued h hit with
  | root => cases hn
  | @attr v attrs ka j h1 h2 h3 h4 =>
    exfalso
    rw [attrItem] at ha hn
    by_cases hv : v.classpath = nonNeXus
    · rw [if_pos hv] at ha; cases ha
    · rw [if_neg hv] at hn
      have hn' : v.classpath ++ '@' :: ka.1 = nonNeXus := hn
      have : '@' ∈ v.classpath ++ '@' :: ka.1 := by simp
      rw [hn'] at this
      exact absurd this (by decide)
  | @node p n oid h1 h2 =>
    have e : a = n.name := by injection ha with ha; exact ha.symm
    subst e
    exact ⟨catalog_all h (wellNamedKids_noAt [] (by simp) f.kids hw.2.2) hit rfl, n, rfl, rfl⟩

theorem item_unique {env : Env} {f : H5File} (h : (catalog env f).res = .ok ())
    (hw : WellNamedFile f) {i it : Item} (hi : i ∈ (catalog env f).log)
    (hit : it ∈ (catalog env f).log) {a : Str} (ha : i.addr = some a) (hb : it.addr = some a) :
    i = it := by
  have h1 := catalog_addresses_complete h hw hi ha
  have h2 := catalog_addresses_complete h hw hit hb
  rw [h1] at h2
  injection h2

theorem allKids_mem {P : Node → Prop} {l : Str} {m : Node} : (ks : Kids) → AllKids P ks →
    (l, some m) ∈ ks.toList → P m
  | .nil, _, h => by simp [Kids.toList] at h
  | .cons l k n rest, hP, h => by
    rw [AllKids] at hP
    rw [Kids.toList, List.mem_cons] at h
    rcases h with h | h
    · cases h; exact allNodes_self hP.1
    · exact allKids_mem rest hP.2 h
  | .broken l k rest, hP, h => by
    rw [AllKids] at hP
    rw [Kids.toList, List.mem_cons] at h
    rcases h with h | h
    · cases h
    · exact allKids_mem rest hP h

theorem member_catalogued {env : Env} {f : H5File} (h : (catalog env f).res = .ok ()) {i : Item}
    (hi : i ∈ (catalog env f).log) {g n : Node} (hg : i.obj.asGroup = some g)
    (hn : n ∈ members g) :
    ∃ it ∈ (catalog env f).log, it.obj = .node n ∧ it.addr = some n.name := by
  let Q : Node → Prop := fun m => ∃ it ∈ (catalog env f).log, it.obj = .node m ∧
    it.addr = some m.name
  have hk : AllKids Q f.kids := catalog_covers h
  have all_mem : ∀ ks : Kids, AllKids Q ks → ∀ n, n ∈ ks.toList.filterMap (·.2) → Q n := by
    intro ks hks n hn
    rw [List.mem_filterMap] at hn
    obtain ⟨⟨l, o⟩, hm, ho⟩ := hn
    simp only at ho
    subst ho
    exact allKids_mem ks hks hm
  cases ho : i.obj with
  | file f' =>
    have : f' = f := by
      cases catalogued h hi with
      | root => cases ho; rfl
      | attr j _ _ _ _ => rw [attrItem_obj] at ho; cases ho
      | node _ _ => cases ho
    subst this
    rw [ho] at hg
    simp only [H5Obj.asGroup, Option.some.injEq] at hg
    subst hg
    exact all_mem _ hk n hn
  | node m =>
    rw [ho] at hg
    have hm := catalog_all h (allKids_nested f.kids hk) hi ho
    cases m with
    | group mn ma mk =>
      simp only [H5Obj.asGroup, Option.some.injEq] at hg
      subst hg
      rw [AllNodes] at hm
      exact all_mem _ hm.2 n hn
    | dataset mn ma md => cases hg
    | datatype mn ma => cases hg
  | val v => rw [ho] at hg; cases hg
  | none => rw [ho] at hg; cases hg

/-- What may be said about an object of non-NeXus content at its address. -/
inductive NonNexusLine : Node → Str → Status → Prop
  /-- its name is checked -/
  | name (n : Node) (st : Status) : NonNexusLine n s%"validItemName" st
  /-- it is not a NeXus group -/
  | notNexus (n : Str) (a : List (Str × Val)) (ks : Kids) :
      NonNexusLine (.group n a ks) s%"NeXus_group" .ok
  /-- it is mentioned as a member of a NeXus group -/
  | groupIn (n : Str) (a : List (Str × Val)) (ks : Kids) :
      NonNexusLine (.group n a ks) s%"group in base class" .ok
  | fieldIn (n : Str) (a : List (Str × Val)) (d : DataInfo) :
      NonNexusLine (.dataset n a d) s%"field in base class" .ok
  | unhandled (n : Str) (a : List (Str × Val)) :
      NonNexusLine (.datatype n a) s%"unhandled: group_items_in_base_class" .todo
  /-- an application definition asks for it and it is there -/
  | field (n : Node) : NonNexusLine n s%"NXDL field" .ok
  | enum (n : Str) (a : List (Str × Val)) (d : DataInfo) (st : Status) :
      NonNexusLine (.dataset n a d) s%"NXDL field enumerations" st

theorem found_addr {α : Type} {w : W Eff α} {R : Item → Str → Status → Prop} (h : Emits R w)
    {x : Finding} (hx : x ∈ findings w.log) : ∃ i, i.addr = x.addr ∧ R i x.test x.status := by
  obtain ⟨o, k, hm⟩ := mem_findings hx
  rcases h _ hm with ⟨i, k', st, c, e, hr⟩ | ⟨_, _, _, e⟩
  · cases e; exact ⟨i, rfl, hr⟩
  · cases e

/-- C35: everything that a completed validation reports at the address of an object of
non-NeXus content.  In particular no class, attribute or default plot verdict, and no ERROR
except about its name or, for a dataset, about an enumeration of an application definition. -/
theorem nonNexus_findings {env : Env} {mgr : Manager} {mins : Dict (Str × Str) Int} {f : H5File}
    (h : (validateOpen env mgr mins f).res = .ok ()) (hw : WellNamedFile f) {it : Item}
    (hit : it ∈ (catalog env f).log) (hn : it.classpath = s%"non-NeXus content") {n : Node}
    (ho : it.obj = .node n) {x : Finding} (hx : x ∈ findings (validateOpen env mgr mins f).log)
    (hxa : x.addr = some n.name) : NonNexusLine n x.test x.status := by
  have c := completed h
  have hc := c.catalog
  have haddr : it.addr = some n.name := by
    cases catalogued hc hit with
    | root => cases ho
    | attr j _ _ _ _ => rw [attrItem_obj] at ho; cases ho
    | node _ _ => cases ho; rfl
  have hat := (nonNexus_cases hc hw hit hn haddr).1
  have uniq : ∀ i ∈ (catalog env f).log, i.addr = some n.name → i = it :=
    fun i hi ha => item_unique hc hw hi hit ha haddr
  obtain ⟨m, hlog, _, _⟩ := c.log
  rw [hlog, findings_append, findings_append, findings_append, List.mem_append, List.mem_append,
    List.mem_append] at hx
  rcases hx with ((hx | hx) | hx) | hx
  · -- names and attributes
    rw [findings_flatMap, List.mem_flatMap] at hx
    obtain ⟨i, hi, hx⟩ := hx
    obtain ⟨j, hj, rfl, _⟩ := found_addr (emits_nameAndAttribute _ [] i) hx
    have hia : j.addr = some n.name := hj.trans hxa
    have e2 : attributeVerify (mkCtx env mgr mins f) j = pure () := by
      rw [attributeVerify, hia]
      have : hasAt n.name = false := by
        rw [hasAt]; simpa using hat
      simp [this]
    rw [nameAndAttribute] at hx
    obtain ⟨o, k, hm⟩ := mem_findings hx
    rw [W.mem_bind_log, e2] at hm
    rcases hm with hm | ⟨_, _, hm⟩
    · obtain ⟨_, _, ht⟩ := emits_mem (emits_itemName _ [] j) hm
      rw [show x.test = s%"validItemName" from ht]
      exact .name n _
    · simp at hm
  · -- groups
    obtain ⟨parts, hS, hparts⟩ := step2_lines hc c.step2
    have : lineOf x ∈ parts.flatten := hS ▸ List.mem_map.2 ⟨x, hx, rfl⟩
    obtain ⟨ls, h1, h2⟩ := List.mem_flatten.1 this
    obtain ⟨i, hi, hr⟩ := forall₂_mem' hparts h1
    obtain ⟨hi, hgi⟩ := List.mem_filter.1 hi
    have hi := mem_addressed hi
    rcases hr with ⟨hni, rfl⟩ | ⟨hni, g', a', c', hg', ha', hc', rfl⟩
    · simp only [List.mem_singleton] at h2
      have hia : i.addr = some n.name := by
        rw [← hxa]; exact (congrArg Prod.fst h2).symm
      have := uniq i hi hia
      subst this
      have ht : x.test = s%"NeXus_group" := congrArg (fun l : Line => l.2.1) h2
      have hs : x.status = .ok := congrArg (fun l : Line => l.2.2) h2
      rw [ht, hs]
      rw [Item.isGroup, ho] at hgi
      cases n with
      | group => exact .notNexus _ _ _
      | dataset => cases hgi
      | datatype => cases hgi
    · rcases mem_groupLines h2 with ⟨h3, _⟩ | ⟨ka, _, h3, _⟩ | ⟨k, hk, h3⟩
      · have hia : i.addr = some n.name := by rw [ha', ← h3, ← hxa]; rfl
        have := uniq i hi hia
        subst this
        exact absurd hn hni
      · exfalso
        have : some n.name = some (a' ++ '@' :: ka.1) := by rw [← h3, ← hxa]; rfl
        injection this with this
        rw [this] at hat
        simp at hat
      · obtain ⟨q, hq, hqo, hqa⟩ := member_catalogued hc hi hg' hk
        have hkn : k.name = n.name := by
          have : some k.name = some n.name := by
            rw [← hxa, show x.addr = (lineOf x).1 from rfl, h3]
            cases k <;> rfl
          injection this
        have := uniq q hq (by rw [hqa, hkn])
        subst this
        rw [ho] at hqo
        injection hqo with hqo
        subst hqo
        have ht : x.test = (memberLine n).2.1 := congrArg (fun l : Line => l.2.1) h3
        have hs : x.status = (memberLine n).2.2 := congrArg (fun l : Line => l.2.2) h3
        rw [ht, hs]
        cases n with
        | group => exact .groupIn _ _ _
        | dataset => exact .fieldIn _ _ _
        | datatype => exact .unhandled _ _
  · -- application definitions
    obtain ⟨i, hia, p, hp, hpn, hi⟩ := found_addr (emits_step3_items hc) hx
    rw [hxa] at hia
    rcases hi with rfl | ⟨g, hg, fld, o, k, hget, hmk, hno, hyes⟩
    · have := uniq i hp hia
      subst this
      exact absurd hn hpn
    · cases o with
      | none =>
        exfalso
        obtain ⟨b, hb⟩ := group_addr hc hp (by intro v e; rw [e] at hg; cases hg)
        simp only [mkItem, H5Obj.name?, if_neg hpn] at hmk
        cases hmk
        simp only [Option.some.injEq] at hia
        rw [← hia] at hat
        simp at hat
      | some m =>
        obtain ⟨q, hq, hqa, hqo⟩ := reached_object hc hp hg hget
        have hmn : m.name = n.name := by
          rw [(mkItem_ok rfl hmk).1] at hia
          injection hia
        have := uniq q hq (by rw [hqa, hmn])
        subst this
        have hmn' : m = n := by
          rw [ho] at hqo
          rcases hqo with hqo | hqo
          · injection hqo with hqo; exact hqo.symm
          · cases n <;> cases hqo; rfl
        subst hmn'
        rcases hyes (by simp) with ⟨h1, h2⟩ | ⟨h1, dn, da, dd, h2⟩
        · rw [h1, h2]; exact .field _
        · injection h2 with h2
          rw [h1, h2]; exact .enum _ _ _ _
  · -- default plot
    exfalso
    obtain ⟨i, hia, hi, _⟩ := found_addr (emits_defaultPlot (mkCtx env mgr mins f) m) hx
    rw [hxa] at hia
    have hroot : rootItem f ∈ (catalog env f).log := by rw [catalog_log hc, fileItems]; simp
    rcases hi with hi | ⟨k, items, j, hk, hend, hj, hi⟩
    · obtain ⟨h1, h2⟩ := addresses_good hi
      have e1 := uniq i h1 hia
      have e2 := item_unique hc hw h1 hroot h2 rfl
      rw [← e1, e2] at hn
      cases hn
    · have hk' : (k, items) ∈ classpathTable (catalog env f).log := hk
      rw [mem_classpathTable hk', List.mem_filter] at hj
      obtain ⟨hj, hjk⟩ := hj
      have hjk : j.classpath = k := by simpa using hjk
      have hjn : j.classpath ≠ nonNeXus ∧ j.classpath ≠ [] := by
        rw [hjk]
        constructor <;> (rintro rfl; exact absurd hend (by decide))
      rcases hi with rfl | ⟨par, hpar, hds, hgr, _⟩
      · rw [uniq i hj hia] at hjn
        exact hjn.1 hn
      · have hpm := catalog_parent_mem hc hj hpar
        have hie := uniq i (catalog_parent_mem hc hpm hgr) hia
        have hin : i.classpath = nonNeXus := by rw [hie]; exact hn
        rcases below_nonNexus hc hpm hgr hin with h1 | ⟨h1, h2⟩
        · rcases below_nonNexus hc hj hpar h1 with h3 | ⟨h3, _⟩
          · exact hjn.1 h3
          · exact hjn.2 h3
        · have e2 := item_unique hc hw hpm hroot h2 rfl
          rw [e2] at hds
          cases hds

/-- C35: a group of non-NeXus content gets exactly one group finding, OK. -/
theorem nonNexus_group_once {env : Env} {mgr : Manager} {mins : Dict (Str × Str) Int} {f : H5File}
    (h : (validateOpen env mgr mins f).res = .ok ()) (hw : WellNamedFile f) {it : Item}
    (hit : it ∈ (catalog env f).log) (hn : it.classpath = s%"non-NeXus content") {n : Str}
    {a : List (Str × Val)} {ks : Kids} (ho : it.obj = .node (.group n a ks)) :
    reportAt (validateOpen env mgr mins f).log n s%"NeXus_group" = [.ok] := by
  have c := completed h
  have hc := c.catalog
  have hg : it.obj.asGroup = some (.group n a ks) := by rw [ho]; rfl
  have haddr : it.addr = some n := (catalogued_group hc hit hg).1
  obtain ⟨A, S, B, e, hA, hB, parts, hS, hparts⟩ := group_findings_run h
  rw [addressed_groups hc hw] at hparts
  have hnodup : (((catalog env f).log.filter Item.isGroup).map (·.oid)).Nodup :=
    ((List.filter_sublist).map _).nodup (catalog_once_containers_first hc).1
  have hmem : it ∈ (catalog env f).log.filter Item.isGroup :=
    List.mem_filter.2 ⟨hit, Item.isGroup_iff.2 ⟨_, hg⟩⟩
  have notGroup : ∀ k, OwnTest k → k ≠ s%"NeXus_group" := by
    rintro k (rfl | rfl | rfl | rfl) <;> decide
  have notAttr : ∀ k t, AttrOfTest k t → t ≠ s%"NeXus_group" := by
    rintro k t (rfl | rfl | rfl) <;> simp
  have notLines : ∀ (g' : Node) (a' cp' c' : Str) (l : Line),
      l ∈ groupLines env f mgr.classes g' a' cp' c' → l.2.1 ≠ s%"NeXus_group" := by
    intro g' a' cp' c' l hl
    rcases mem_groupLines hl with ⟨_, m2⟩ | ⟨ka, _, _, m2⟩ | ⟨k, _, rfl⟩
    · exact notGroup _ m2
    · exact notAttr _ _ m2
    · cases k <;> simp [memberLine]
  obtain ⟨ls, hls, hst⟩ := statusesAt_parts (a := n) (t := s%"NeXus_group") hparts hnodup hmem (by
    intro i hi hio ls hr
    obtain ⟨hi1, hi2⟩ := List.mem_filter.1 hi
    refine statusesAt_nil ?_
    rintro l hl ⟨hl1, hl2⟩
    rcases hr with ⟨_, rfl⟩ | ⟨_, g2, a2, c2, hg2, ha2, _, rfl⟩
    · simp only [List.mem_singleton] at hl
      subst hl
      exact hio (by rw [item_unique hc hw hi1 hit hl1 haddr])
    · exact notLines _ _ _ _ _ hl hl2)
  have hls' : ls = [(some n, s%"NeXus_group", .ok)] := by
    rcases hls with ⟨_, rfl⟩ | ⟨h1, _⟩
    · rw [haddr]
    · exact absurd hn h1
  have hgt : GroupTest s%"NeXus_group" := by constructor
  rw [reportAt_lines, e, List.map_append, List.map_append, statusesAt_append, statusesAt_append,
    hS, hst, hls']
  have hA' : statusesAt (A.map lineOf) n s%"NeXus_group" = [] := by
    refine statusesAt_nil ?_
    rintro l hl ⟨_, h2⟩
    obtain ⟨y, hy, rfl⟩ := List.mem_map.1 hl
    exact hA y hy (by rw [show y.test = _ from h2]; exact hgt)
  have hB' : statusesAt (B.map lineOf) n s%"NeXus_group" = [] := by
    refine statusesAt_nil ?_
    rintro l hl ⟨_, h2⟩
    obtain ⟨y, hy, rfl⟩ := List.mem_map.1 hl
    have h2 : y.test = s%"NeXus_group" := h2
    have := hB y hy (by rw [h2]; exact hgt)
    rw [h2] at this
    exact absurd this (by decide)
  rw [hA', hB']
  simp [statusesAt]

/-- C35: the attributes of non-NeXus content are not mentioned at all, in any run. -/
theorem nonNexus_attributes_silent {env : Env} {mgr : Manager} {mins : Dict (Str × Str) Int}
    {f : H5File} (hc : (catalog env f).res = .ok ()) (hw : WellNamedFile f) {it : Item}
    (hit : it ∈ (catalog env f).log) (hn : it.classpath = s%"non-NeXus content") {n : Node}
    (ho : it.obj = .node n) (k : Str) {x : Finding}
    (hx : x ∈ findings (validateOpen env mgr mins f).log) : x.addr ≠ some (n.name ++ '@' :: k) := by
  have haddr : it.addr = some n.name := by
    cases catalogued hc hit with
    | root => cases ho
    | attr j _ _ _ _ => rw [attrItem_obj] at ho; cases ho
    | node _ _ => cases ho; rfl
  have hat := (nonNexus_cases hc hw hit hn haddr).1
  have noAt : ∀ i ∈ (catalog env f).log, (∀ v, i.obj ≠ .val v) → ∀ b, i.addr = some b → '@' ∉ b := by
    intro i hi hv b hb
    cases catalogued hc hi with
    | root => cases hb; decide
    | attr j _ _ _ _ => exact absurd (attrItem_obj _ _ _) (hv _)
    | @node p m oid _ _ =>
      injection hb with hb
      rw [← hb]
      exact catalog_all hc (wellNamedKids_noAt [] (by simp) f.kids hw.2.2) hi rfl
  intro hxa
  obtain ⟨a, ha, hcase⟩ := findings_addressed env mgr mins f hx
  rw [hxa] at ha
  injection ha with ha
  rcases hcase with ⟨i, hi, hia⟩ | ⟨_, _, p, hp, b, g, hpn, hb, hg, hab⟩
  · rw [← ha] at hia
    cases hi' : catalogued hc hi with
    | root =>
      have : some s%"/" = some (n.name ++ '@' :: k) := hia
      injection this with this
      have h2 : '@' ∈ s%"/" := by rw [this]; simp
      exact absurd h2 (by decide)
    | node h1 h2 =>
      exact noAt _ hi (by intro v e; cases e) _ hia (by simp)
    | @attr v attrs ka j h1 h2 h3 h4 =>
      obtain ⟨b, hb, _⟩ := h2.addr
      rw [attrItem] at hia
      by_cases hv : v.classpath = nonNeXus
      · rw [if_pos hv] at hia; cases hia
      · rw [if_neg hv] at hia
        have hia' : (v.addr.getD s%"None") ++ '@' :: ka.1 = n.name ++ '@' :: k := by
          injection hia
        rw [hb] at hia'
        have hbn : '@' ∉ b := noAt v h1 (h2.not_val) b hb
        obtain ⟨e, _⟩ := at_inj hbn hat hia'
        have e' : b = n.name := e
        rw [e'] at hb
        rw [item_unique hc hw h1 hit hb haddr] at hv
        exact hv hn
  · have hab' : n.name ++ '@' :: k = b ++ '@' :: s%"None" := by rw [ha, hab]
    have hbn : '@' ∉ b := noAt p hp (by intro v e; rw [e] at hg; cases hg) b hb
    obtain ⟨e, _⟩ := at_inj hat hbn hab'
    rw [← e] at hb
    rw [item_unique hc hw hp hit hb haddr] at hpn
    exact hpn hn

/-! A case: a completed run with a non-NeXus group that has an attribute, below an entry. -/

/-- `/e` with a group without class that has an attribute and a field. -/
def plainGroupFile : H5File :=
  entryFile (.cons s%"other" .hard (.group s%"/e/other" [(s%"note", .int 3)]
    (.cons s%"x" .hard (.dataset s%"/e/other/x" [] (.ofVal (.int 1))) .nil)) .nil)

theorem plainGroupFile_ok :
    (validateOpen sampleEnv sampleMgr [] plainGroupFile).res = .ok () := by rfl

theorem plainGroupFile_named : WellNamedFile plainGroupFile := by
  simp [plainGroupFile, entryFile, WellNamedFile, WellNamedKids, WellNamed, Kids.toList]

example : reportAt (validateOpen sampleEnv sampleMgr [] plainGroupFile).log s%"/e/other"
    s%"NeXus_group" = [.ok] :=
  nonNexus_group_once plainGroupFile_ok plainGroupFile_named
    (List.getElem_mem (l := (catalog sampleEnv plainGroupFile).log) (n := 3) (by decide +kernel))
    (by rfl) (by rfl)

example : (report (validateOpen sampleEnv sampleMgr [] plainGroupFile).log).filter
    (fun l => l.1 = some s%"/e/other") =
    [(some s%"/e/other", s%"validItemName", .ok), (some s%"/e/other", s%"group in base class", .ok),
     (some s%"/e/other", s%"NeXus_group", .ok)] := by decide +kernel

end Punx

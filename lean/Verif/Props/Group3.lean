import Verif.Props.Group2
import Verif.Props.Sample

/-!
# C22–C25, C35: readable consequences for the whole report
-/

namespace Punx
open Spec

mutual
theorem wellNamed_noAt (path : Str) (hp : '@' ∉ path) : (n : Node) → WellNamed path n →
    AllNodes (fun m => '@' ∉ m.name) n
  | .group n a kids, h => by
    rw [WellNamed] at h
    rw [AllNodes]
    exact ⟨by simpa [Node.name, h.1] using hp, wellNamedKids_noAt path hp kids h.2.2.2⟩
  | .dataset n a d, h => by
    rw [WellNamed] at h
    rw [AllNodes]
    simpa [Node.name, h.1] using hp
  | .datatype n a, h => by
    rw [WellNamed] at h
    rw [AllNodes]
    simpa [Node.name, h.1] using hp
theorem wellNamedKids_noAt (path : Str) (hp : '@' ∉ path) : (ks : Kids) → WellNamedKids path ks →
    AllKids (fun m => '@' ∉ m.name) ks
  | .nil, _ => by rw [AllKids]; trivial
  | .cons l k n rest, h => by
    rw [WellNamedKids] at h
    rw [AllKids]
    refine ⟨wellNamed_noAt (path ++ '/' :: l) ?_ n h.2.2.2.1, wellNamedKids_noAt path hp rest h.2.2.2.2⟩
    simp [hp, h.2.2.1]
  | .broken l k rest, h => by
    rw [WellNamedKids] at h
    rw [AllKids]
    exact wellNamedKids_noAt path hp rest h
end

mutual
theorem wellNamed_attrs (path : Str) : (n : Node) → WellNamed path n →
    AllNodes (fun m => (m.attrs.map (·.1)).Nodup) n
  | .group n a kids, h => by
    rw [WellNamed] at h
    rw [AllNodes]
    exact ⟨h.2.1, wellNamedKids_attrs path kids h.2.2.2⟩
  | .dataset n a d, h => by
    rw [WellNamed] at h
    rw [AllNodes]
    exact h.2
  | .datatype n a, h => by
    rw [WellNamed] at h
    rw [AllNodes]
    exact h.2
theorem wellNamedKids_attrs (path : Str) : (ks : Kids) → WellNamedKids path ks →
    AllKids (fun m => (m.attrs.map (·.1)).Nodup) ks
  | .nil, _ => by rw [AllKids]; trivial
  | .cons l k n rest, h => by
    rw [WellNamedKids] at h
    rw [AllKids]
    exact ⟨wellNamed_attrs (path ++ '/' :: l) n h.2.2.2.1, wellNamedKids_attrs path rest h.2.2.2.2⟩
  | .broken l k rest, h => by
    rw [WellNamedKids] at h
    rw [AllKids]
    exact wellNamedKids_attrs path rest h
end

theorem wellNamed_group {env : Env} {f : H5File} (h : (catalog env f).res = .ok ())
    (hw : WellNamedFile f) {it : Item} (hit : it ∈ (catalog env f).log) {g : Node}
    (hg : it.obj.asGroup = some g) : '@' ∉ g.name ∧ (g.attrs.map (·.1)).Nodup := by
  cases ho : it.obj with
  | file f' =>
    have : f' = f := by
      cases catalogued h hit with
      | root => cases ho; rfl
      | attr j _ _ _ _ => rw [attrItem_obj] at ho; cases ho
      | node _ _ => cases ho
    subst this
    rw [ho] at hg
    simp only [H5Obj.asGroup, Option.some.injEq] at hg
    subst hg
    exact ⟨by simp [H5File.root, Node.name], hw.1⟩
  | node n =>
    rw [ho] at hg
    have hn : n = g := by
      cases n <;> simp [H5Obj.asGroup] at hg
      exact hg
    subst hn
    exact ⟨catalog_all h (wellNamedKids_noAt [] (by simp) f.kids hw.2.2) hit ho,
      catalog_all h (wellNamedKids_attrs [] f.kids hw.2.2) hit ho⟩
  | val v => rw [ho] at hg; cases hg
  | none => rw [ho] at hg; cases hg

/-- Test names used for the group itself. -/
def OwnTest (k : Str) : Prop :=
  k = s%"known NXDL" ∨ k = s%"NeXus base class" ∨ k = s%"NXDL field in data file" ∨
    k = s%"NXDL group in data file"

/-- Test names used for its attribute `k`. -/
def AttrOfTest (k t : Str) : Prop :=
  t = s%"known attribute" ∨ t = s%"attribute value enumeration" ∨ t = s%"value of @" ++ k

theorem mem_attrLines {env : Env} {f : H5File} {g : Node} {a cp : Str} {d : ClassDef}
    {ka : Str × Val} {l : Line} (h : l ∈ attrLines env f g a cp d ka) :
    l.1 = some (a ++ '@' :: ka.1) ∧ AttrOfTest ka.1 l.2.1 := by
  rw [attrLines] at h
  rcases List.mem_cons.1 h with rfl | h
  · exact ⟨rfl, .inl rfl⟩
  · split at h
    · simp at h
    · rcases List.mem_append.1 h with h | h
      · split at h
        · simp at h
        · simp at h; subst h; exact ⟨rfl, .inr (.inl rfl)⟩
      · split at h
        · simp at h
        · split at h
          · simp at h; subst h; exact ⟨rfl, .inr (.inr rfl)⟩
          · simp at h; subst h; exact ⟨rfl, .inr (.inr rfl)⟩

theorem mem_groupLines {env : Env} {f : H5File} {classes : Dict Str ClassDef} {g : Node}
    {a cp c : Str} {l : Line} (h : l ∈ groupLines env f classes g a cp c) :
    (l.1 = some a ∧ OwnTest l.2.1) ∨
    (∃ ka ∈ g.attrs, l.1 = some (a ++ '@' :: ka.1) ∧ AttrOfTest ka.1 l.2.1) ∨
    (∃ n ∈ members g, l = memberLine n) := by
  rw [groupLines] at h
  split at h
  · simp at h
    rcases h with rfl | rfl
    · exact .inl ⟨rfl, .inl rfl⟩
    · exact .inl ⟨rfl, .inr (.inl rfl)⟩
  · simp only [List.mem_append] at h
    rcases h with ((((h | h) | h) | h) | h) | h
    · simp at h
      rcases h with rfl | rfl
      · exact .inl ⟨rfl, .inl rfl⟩
      · exact .inl ⟨rfl, .inr (.inl rfl)⟩
    · rw [List.mem_flatMap] at h
      obtain ⟨ka, hka, h⟩ := h
      obtain ⟨h1, h2⟩ := mem_attrLines h
      exact .inr (.inl ⟨ka, (sortBy_perm g.attrs).mem_iff.1 hka, h1, h2⟩)
    · rw [List.mem_map] at h
      obtain ⟨n, h1, rfl⟩ := h
      exact .inr (.inr ⟨n, h1, rfl⟩)
    · rw [definedLines, List.mem_map] at h
      obtain ⟨n, _, rfl⟩ := h
      exact .inl ⟨rfl, .inr (.inr (.inl rfl))⟩
    · rw [definedLines, List.mem_map] at h
      obtain ⟨n, _, rfl⟩ := h
      exact .inl ⟨rfl, .inr (.inr (.inr rfl))⟩
    · simp at h
      subst h
      exact .inl ⟨rfl, .inr (.inl rfl)⟩

/-- The lines of the report for one address and one test. -/
def reportAt (effs : List Eff) (a t : Str) : List Status :=
  ((findings effs).filter (fun x => x.addr = some a ∧ x.test = t)).map (·.status)

/-- The statuses in a list of lines for one address and one test. -/
def statusesAt (ls : List Line) (a t : Str) : List Status :=
  (ls.filter (fun l => l.1 = some a ∧ l.2.1 = t)).map (·.2.2)

theorem reportAt_lines (effs : List Eff) (a t : Str) :
    reportAt effs a t = statusesAt ((findings effs).map lineOf) a t := by
  rw [reportAt, statusesAt]
  induction findings effs with
  | nil => rfl
  | cons x l ih =>
    rw [List.map_cons, List.filter_cons, List.filter_cons]
    by_cases h : x.addr = some a ∧ x.test = t
    · simp only [h, lineOf, and_self, decide_true, if_true, List.map_cons, ih]
    · simp only [h, lineOf, decide_false, Bool.false_eq_true, if_false]
      exact ih

theorem statusesAt_append (l m : List Line) (a t : Str) :
    statusesAt (l ++ m) a t = statusesAt l a t ++ statusesAt m a t := by
  simp [statusesAt]

theorem statusesAt_nil {l : List Line} {a t : Str}
    (h : ∀ x ∈ l, ¬ (x.1 = some a ∧ x.2.1 = t)) : statusesAt l a t = [] := by
  rw [statusesAt, List.map_eq_nil_iff, List.filter_eq_nil_iff]
  intro x hx
  have := h x hx
  simpa using this

theorem statusesAt_parts {R : Item → List Line → Prop} {its : List Item} {parts : List (List Line)}
    (h : List.Forall₂ R its parts) (hn : (its.map (·.oid)).Nodup) {it : Item} (hit : it ∈ its)
    {a t : Str} (ho : ∀ i ∈ its, i.oid ≠ it.oid → ∀ ls, R i ls → statusesAt ls a t = []) :
    ∃ ls, R it ls ∧ statusesAt parts.flatten a t = statusesAt ls a t := by
  induction h with
  | nil => simp at hit
  | @cons i ls its parts hr hrest ih =>
    rw [List.map_cons, List.nodup_cons] at hn
    rw [List.flatten_cons, statusesAt_append]
    rcases List.mem_cons.1 hit with rfl | hit
    · refine ⟨ls, hr, ?_⟩
      have : statusesAt parts.flatten a t = [] := by
        have ho' : ∀ i ∈ its, ∀ ls, R i ls → statusesAt ls a t = [] := by
          intro i hi
          refine ho i (by simp [hi]) ?_
          intro e
          exact hn.1 (List.mem_map.2 ⟨i, hi, e⟩)
        clear ih ho hn hr hit
        induction hrest with
        | nil => rfl
        | cons hr _ ih =>
          rw [List.flatten_cons, statusesAt_append, ho' _ (by simp) _ hr,
            ih (fun i hi => ho' i (by simp [hi]))]
          rfl
      rw [this, List.append_nil]
    · obtain ⟨ls', h1, h2⟩ := ih hn.2 hit (fun i hi => ho i (by simp [hi]))
      refine ⟨ls', h1, ?_⟩
      have hne : i.oid ≠ it.oid := fun e => hn.1 (List.mem_map.2 ⟨it, hit, e.symm⟩)
      rw [ho i (by simp) hne ls hr, List.nil_append, h2]

theorem at_inj {a b k l : Str} (ha : '@' ∉ a) (hb : '@' ∉ b) (h : a ++ '@' :: k = b ++ '@' :: l) :
    a = b ∧ k = l := by
  induction a generalizing b with
  | nil =>
    cases b with
    | nil => simpa using h
    | cons c cs => simp at h; simp [← h.1] at hb
  | cons c cs ih =>
    cases b with
    | nil => simp at h; simp [h.1] at ha
    | cons d ds =>
      simp at h
      obtain ⟨rfl, h⟩ := h
      obtain ⟨rfl, rfl⟩ := ih (fun m => ha (by simp [m])) (fun m => hb (by simp [m])) h
      exact ⟨rfl, rfl⟩

theorem groupClass_unique {env : Env} {cp : Str} {attrs : List (Str × Val)} {c c' : Str}
    (h : GroupClass env cp attrs c) (h' : GroupClass env cp attrs c') : c = c' := by
  rcases h with ⟨h1, h2⟩ | ⟨h1, h2⟩ <;> rcases h' with ⟨k1, k2⟩ | ⟨k1, k2⟩
  · rw [h2, k2]
  · exact absurd h1 k1
  · exact absurd k1 h1
  · rw [h2] at k2; injection k2

/-- What the report says about a NeXus group at its own address, and about its attributes at
theirs. -/
theorem reportAt_group {env : Env} {mgr : Manager} {mins : Dict (Str × Str) Int} {f : H5File}
    (h : (validateOpen env mgr mins f).res = .ok ()) (hw : WellNamedFile f) {it : Item}
    (hit : it ∈ (catalog env f).log) (hn : it.classpath ≠ s%"non-NeXus content") {g : Node}
    (hg : it.obj.asGroup = some g) {c : Str} (hc : GroupClass env it.classpath g.attrs c)
    {x t : Str} (hx : (x = g.name ∧ OwnTest t) ∨ ∃ k, x = g.name ++ '@' :: k ∧ AttrOfTest k t) :
    ∃ more, reportAt (validateOpen env mgr mins f).log x t =
        statusesAt (groupLines env f mgr.classes g g.name it.classpath c) x t ++ more ∧
      (t ≠ s%"known NXDL" → more = []) := by
  have cc := completed h
  obtain ⟨A, S, B, e, hA, hB, parts, hS, hparts⟩ := group_findings_run h
  rw [addressed_groups cc.catalog hw] at hparts
  have hgt : GroupTest t := by
    rcases hx with ⟨_, rfl | rfl | rfl | rfl⟩ | ⟨k, _, rfl | rfl | rfl⟩ <;> constructor
  have hnodup : (((catalog env f).log.filter Item.isGroup).map (·.oid)).Nodup :=
    ((List.filter_sublist).map _).nodup (catalog_once_containers_first cc.catalog).1
  have hmem : it ∈ (catalog env f).log.filter Item.isGroup :=
    List.mem_filter.2 ⟨hit, Item.isGroup_iff.2 ⟨g, hg⟩⟩
  have haddr := (catalogued_group cc.catalog hit hg).1
  have hgn := wellNamed_group cc.catalog hw hit hg
  obtain ⟨ls, hls, hst⟩ := statusesAt_parts (a := x) (t := t) hparts hnodup hmem (by
    intro i hi hio ls hr
    obtain ⟨hi1, hi2⟩ := List.mem_filter.1 hi
    obtain ⟨g', hg'⟩ := Item.isGroup_iff.1 hi2
    have hadd' := (catalogued_group cc.catalog hi1 hg').1
    have hgn' := wellNamed_group cc.catalog hw hi1 hg'
    have hne : g'.name ≠ g.name := by
      intro en
      have h1 := catalog_addresses_complete cc.catalog hw hi1 hadd'
      have h2 := catalog_addresses_complete cc.catalog hw hit haddr
      rw [en, h2] at h1
      injection h1 with h1
      exact hio (by rw [h1])
    refine statusesAt_nil ?_
    rintro l hl ⟨hl1, hl2⟩
    rcases hr with ⟨_, rfl⟩ | ⟨_, g2, a2, c2, hg2, ha2, _, rfl⟩
    · simp at hl
      subst hl
      rcases hx with ⟨_, ht⟩ | ⟨k, _, ht⟩
      · rcases ht with rfl | rfl | rfl | rfl <;> simp at hl2
      · rcases ht with rfl | rfl | rfl <;> simp at hl2
    · rw [hg'] at hg2
      injection hg2 with hg2
      subst hg2
      rw [hadd'] at ha2
      injection ha2 with ha2
      subst ha2
      rcases mem_groupLines hl with ⟨m1, m2⟩ | ⟨ka, _, m1, m2⟩ | ⟨n, _, rfl⟩
      · rw [m1] at hl1
        injection hl1 with hl1
        rcases hx with ⟨rfl, _⟩ | ⟨k, rfl, _⟩
        · exact hne hl1
        · rw [hl1] at hgn'; simp at hgn'
      · rw [m1] at hl1
        injection hl1 with hl1
        rcases hx with ⟨rfl, _⟩ | ⟨k, rfl, _⟩
        · rw [← hl1] at hgn; simp at hgn
        · exact hne (at_inj hgn'.1 hgn.1 hl1).1
      · rcases hx with ⟨_, ht⟩ | ⟨k, _, ht⟩
        · cases n <;> rcases ht with rfl | rfl | rfl | rfl <;> simp [memberLine] at hl2
        · cases n <;> rcases ht with rfl | rfl | rfl <;> simp [memberLine] at hl2)
  have hls' : ls = groupLines env f mgr.classes g g.name it.classpath c := by
    rcases hls with ⟨h1, _⟩ | ⟨_, g2, a2, c2, hg2, ha2, hc2, rfl⟩
    · exact absurd h1 hn
    · rw [hg] at hg2
      injection hg2 with hg2
      subst hg2
      rw [haddr] at ha2
      injection ha2 with ha2
      subst ha2
      rw [groupClass_unique hc hc2]
  subst hls'
  refine ⟨statusesAt (B.map lineOf) x t, ?_, ?_⟩
  · rw [reportAt_lines, e, List.map_append, List.map_append, statusesAt_append, statusesAt_append,
      hS, hst]
    have : statusesAt (A.map lineOf) x t = [] := by
      refine statusesAt_nil ?_
      rintro l hl ⟨_, h2⟩
      obtain ⟨y, hy, rfl⟩ := List.mem_map.1 hl
      exact hA y hy (by rw [show y.test = t from h2]; exact hgt)
    rw [this, List.nil_append]
  · intro ht
    refine statusesAt_nil ?_
    rintro l hl ⟨_, h2⟩
    obtain ⟨y, hy, rfl⟩ := List.mem_map.1 hl
    have h2 : y.test = t := h2
    exact ht (h2 ▸ hB y hy (by rw [h2]; exact hgt))

/-! ## filters of the expected lines -/

theorem statusesAt_attrs_own {env : Env} {f : H5File} {g : Node} {a cp : Str} {d : ClassDef}
    {l : List (Str × Val)} {t : Str} :
    statusesAt (l.flatMap (attrLines env f g a cp d)) a t = [] := by
  refine statusesAt_nil ?_
  rintro x hx ⟨h1, _⟩
  obtain ⟨ka, _, hx⟩ := List.mem_flatMap.1 hx
  rw [(mem_attrLines hx).1] at h1
  injection h1 with h1
  have := congrArg List.length h1
  simp at this

theorem statusesAt_members {g : Node} {a t : Str} (h1 : t ≠ s%"field in base class")
    (h2 : t ≠ s%"group in base class") (h3 : t ≠ s%"unhandled: group_items_in_base_class") :
    statusesAt ((members g).map memberLine) a t = [] := by
  refine statusesAt_nil ?_
  rintro x hx ⟨_, e⟩
  obtain ⟨n, _, rfl⟩ := List.mem_map.1 hx
  cases n
  · exact h1 e.symm
  · exact h3 e.symm
  · exact h2 e.symm

theorem statusesAt_defined {f : H5File} {g : Node} {a t t' : Str} {names : List Str} :
    statusesAt (definedLines f g a t names) a t' =
      if t = t' then (sortNames names).map (fun n => okIf (h5contains f g n = true) .optional)
      else [] := by
  rw [definedLines]
  split
  · rename_i h
    subst h
    rw [statusesAt, List.filter_map, List.map_map, List.filter_eq_self.2]
    · rfl
    · simp
  · rename_i h
    refine statusesAt_nil ?_
    rintro x hx ⟨_, e⟩
    obtain ⟨n, _, rfl⟩ := List.mem_map.1 hx
    exact h e

theorem statusesAt_cons (l : Line) (ls : List Line) (a t : Str) :
    statusesAt (l :: ls) a t =
      if l.1 = some a ∧ l.2.1 = t then l.2.2 :: statusesAt ls a t else statusesAt ls a t := by
  simp only [statusesAt, List.filter_cons]
  split
  · rename_i h
    simp only [decide_eq_true_eq] at h
    simp [h]
  · rename_i h
    simp only [decide_eq_true_eq] at h
    rw [if_neg h]

theorem statusesAt_empty (a t : Str) : statusesAt [] a t = [] := rfl

/-- C22: the class verdict of a NeXus group of a well named file.  An unknown class is an
ERROR under both tests; a known class gives OK under the first, and under the second OK
unless it is an application definition, followed by a TODO. -/
theorem class_verdict {env : Env} {mgr : Manager} {mins : Dict (Str × Str) Int} {f : H5File}
    (h : (validateOpen env mgr mins f).res = .ok ()) (hw : WellNamedFile f) {it : Item}
    (hit : it ∈ (catalog env f).log) (hn : it.classpath ≠ s%"non-NeXus content") {g : Node}
    (hg : it.obj.asGroup = some g) {c : Str} (hc : GroupClass env it.classpath g.attrs c) :
    (∃ more, reportAt (validateOpen env mgr mins f).log g.name s%"known NXDL" =
      okIf (∃ d, Dict.get? mgr.classes c = some d) .error :: more) ∧
    (Dict.get? mgr.classes c = none →
      reportAt (validateOpen env mgr mins f).log g.name s%"NeXus base class" = [.error]) ∧
    (∀ d, Dict.get? mgr.classes c = some d →
      reportAt (validateOpen env mgr mins f).log g.name s%"NeXus base class" =
        [okIf (d.category = .baseClasses ∨ d.category = .contributed) .error, .todo]) := by
  have key := fun t ht => reportAt_group h hw hit hn hg hc (x := g.name) (t := t) (.inl ⟨rfl, ht⟩)
  have cat : ∀ d : ClassDef, (d.category ≠ .applications) =
      (d.category = .baseClasses ∨ d.category = .contributed) := by
    intro d; cases d.category <;> simp
  refine ⟨?_, ?_, ?_⟩
  · obtain ⟨more, e, _⟩ := key s%"known NXDL" (.inl rfl)
    rw [groupLines] at e
    cases hd : Dict.get? mgr.classes c with
    | none =>
      rw [hd] at e
      simp only [statusesAt_cons, statusesAt_empty] at e
      refine ⟨more, ?_⟩
      rw [e, okIf_neg (by simp)]
      simp
    | some d =>
      rw [hd] at e
      simp only [statusesAt_append, statusesAt_cons, statusesAt_empty, statusesAt_attrs_own,
        statusesAt_defined] at e
      rw [statusesAt_members (by decide) (by decide) (by decide)] at e
      refine ⟨more, ?_⟩
      rw [e, okIf_pos (P := ∃ d', some d = some d') ⟨d, rfl⟩]
      simp
  · intro hd
    obtain ⟨more, e, hm⟩ := key s%"NeXus base class" (.inr (.inl rfl))
    rw [hm (by decide), groupLines, hd] at e
    simp only [statusesAt_cons, statusesAt_empty] at e
    rw [e]
    simp
  · intro d hd
    obtain ⟨more, e, hm⟩ := key s%"NeXus base class" (.inr (.inl rfl))
    rw [hm (by decide), groupLines, hd] at e
    simp only [statusesAt_append, statusesAt_cons, statusesAt_empty, statusesAt_attrs_own,
        statusesAt_defined] at e
    rw [statusesAt_members (by decide) (by decide) (by decide)] at e
    rw [e, cat]
    simp

/-- C25: what the class of a group defines is OK if present and otherwise OPTIONAL: one line
for every field and every group that the class names, each in alphabetical order. -/
theorem defined_content {env : Env} {mgr : Manager} {mins : Dict (Str × Str) Int} {f : H5File}
    (h : (validateOpen env mgr mins f).res = .ok ()) (hw : WellNamedFile f) {it : Item}
    (hit : it ∈ (catalog env f).log) (hn : it.classpath ≠ s%"non-NeXus content") {g : Node}
    (hg : it.obj.asGroup = some g) {c : Str} (hc : GroupClass env it.classpath g.attrs c)
    {d : ClassDef} (hd : Dict.get? mgr.classes c = some d) :
    reportAt (validateOpen env mgr mins f).log g.name s%"NXDL field in data file" =
      (sortNames (d.fields.map (·.1))).map (fun n => okIf (h5contains f g n = true) .optional) ∧
    reportAt (validateOpen env mgr mins f).log g.name s%"NXDL group in data file" =
      (sortNames (d.groups.map (·.1))).map (fun n => okIf (h5contains f g n = true) .optional) := by
  have key := fun t ht => reportAt_group h hw hit hn hg hc (x := g.name) (t := t) (.inl ⟨rfl, ht⟩)
  constructor
  · obtain ⟨more, e, hm⟩ := key s%"NXDL field in data file" (.inr (.inr (.inl rfl)))
    rw [hm (by decide), groupLines, hd] at e
    simp only [statusesAt_append, statusesAt_cons, statusesAt_empty, statusesAt_attrs_own,
        statusesAt_defined] at e
    rw [statusesAt_members (by decide) (by decide) (by decide)] at e
    rw [e]
    simp
  · obtain ⟨more, e, hm⟩ := key s%"NXDL group in data file" (.inr (.inr (.inr rfl)))
    rw [hm (by decide), groupLines, hd] at e
    simp only [statusesAt_append, statusesAt_cons, statusesAt_empty, statusesAt_attrs_own,
        statusesAt_defined] at e
    rw [statusesAt_members (by decide) (by decide) (by decide)] at e
    rw [e]
    simp

theorem statusesAt_attr {env : Env} {f : H5File} {g : Node} {a cp : Str} {d : ClassDef}
    {l : List (Str × Val)} (hn : (l.map (·.1)).Nodup) (ha : '@' ∉ a) {k : Str} {v : Val}
    (hk : (k, v) ∈ l) {t : Str} :
    statusesAt (l.flatMap (attrLines env f g a cp d)) (a ++ '@' :: k) t =
      statusesAt (attrLines env f g a cp d (k, v)) (a ++ '@' :: k) t := by
  induction l with
  | nil => simp at hk
  | cons ka l ih =>
    rw [List.map_cons, List.nodup_cons] at hn
    rw [List.flatMap_cons, statusesAt_append]
    rcases List.mem_cons.1 hk with rfl | hk
    · rw [statusesAt_nil (l := l.flatMap _), List.append_nil]
      rintro x hx ⟨h1, _⟩
      obtain ⟨kb, hkb, hx⟩ := List.mem_flatMap.1 hx
      rw [(mem_attrLines hx).1] at h1
      injection h1 with h1
      exact hn.1 (List.mem_map.2 ⟨kb, hkb, (at_inj ha ha h1).2⟩)
    · rw [statusesAt_nil (l := attrLines env f g a cp d ka), List.nil_append, ih hn.2 hk]
      rintro x hx ⟨h1, _⟩
      rw [(mem_attrLines hx).1] at h1
      injection h1 with h1
      exact hn.1 (List.mem_map.2 ⟨(k, v), hk, (at_inj ha ha h1).2.symm⟩)

theorem statusesAt_defined_attr {f : H5File} {g : Node} {a k t t' : Str} {names : List Str} :
    statusesAt (definedLines f g a t names) (a ++ '@' :: k) t' = [] := by
  refine statusesAt_nil ?_
  rintro x hx ⟨h1, _⟩
  obtain ⟨n, _, rfl⟩ := List.mem_map.1 hx
  injection h1 with h1
  have := congrArg List.length h1
  simp at this

theorem reportAt_attr {env : Env} {mgr : Manager} {mins : Dict (Str × Str) Int} {f : H5File}
    (h : (validateOpen env mgr mins f).res = .ok ()) (hw : WellNamedFile f) {it : Item}
    (hit : it ∈ (catalog env f).log) (hn : it.classpath ≠ s%"non-NeXus content") {g : Node}
    (hg : it.obj.asGroup = some g) {c : Str} (hc : GroupClass env it.classpath g.attrs c)
    {d : ClassDef} (hd : Dict.get? mgr.classes c = some d) {k t : Str} {v : Val}
    (hk : (k, v) ∈ g.attrs) (ht : AttrOfTest k t) :
    reportAt (validateOpen env mgr mins f).log (g.name ++ '@' :: k) t =
      statusesAt (attrLines env f g g.name it.classpath d (k, v)) (g.name ++ '@' :: k) t := by
  have hgn := wellNamed_group (completed h).catalog hw hit hg
  obtain ⟨more, e, hm⟩ := reportAt_group h hw hit hn hg hc (x := g.name ++ '@' :: k) (t := t)
    (.inr ⟨k, rfl, ht⟩)
  have hne : t ≠ s%"known NXDL" := by rcases ht with rfl | rfl | rfl <;> simp
  have hown : ∀ l : Line, l.1 = some g.name → ¬ (l.1 = some (g.name ++ '@' :: k) ∧ l.2.1 = t) := by
    rintro l h1 ⟨h2, _⟩
    rw [h1] at h2
    injection h2 with h2
    have := congrArg List.length h2
    simp at this
  rw [hm hne, List.append_nil, groupLines, hd] at e
  rw [e]
  simp only [statusesAt_append]
  rw [statusesAt_defined_attr, statusesAt_defined_attr,
    statusesAt_members (by rcases ht with rfl | rfl | rfl <;> simp)
      (by rcases ht with rfl | rfl | rfl <;> simp) (by rcases ht with rfl | rfl | rfl <;> simp),
    show sortByName g.attrs = sortAttrs g.attrs from rfl,
    statusesAt_attr (sortAttrs_nodup hgn.2) hgn.1 ((sortBy_perm g.attrs).mem_iff.2 hk)]
  rw [statusesAt_nil (l := [_]), statusesAt_nil (l := [_, _])]
  · simp
  · intro x hx
    simp at hx
    rcases hx with rfl | rfl <;> exact hown _ rfl
  · intro x hx
    simp at hx
    subst hx
    exact hown _ rfl

/-- C23: an attribute of a group is reported OK under "known attribute", once, whether or not
the class defines it. -/
theorem attribute_known_ok {env : Env} {mgr : Manager} {mins : Dict (Str × Str) Int} {f : H5File}
    (h : (validateOpen env mgr mins f).res = .ok ()) (hw : WellNamedFile f) {it : Item}
    (hit : it ∈ (catalog env f).log) (hn : it.classpath ≠ s%"non-NeXus content") {g : Node}
    (hg : it.obj.asGroup = some g) {c : Str} (hc : GroupClass env it.classpath g.attrs c)
    {d : ClassDef} (hd : Dict.get? mgr.classes c = some d) {k : Str} {v : Val}
    (hk : (k, v) ∈ g.attrs) :
    reportAt (validateOpen env mgr mins f).log (g.name ++ '@' :: k) s%"known attribute" = [.ok] := by
  rw [reportAt_attr h hw hit hn hg hc hd hk (.inl rfl), attrLines]
  rw [statusesAt_cons, if_pos ⟨rfl, rfl⟩]
  congr 1
  refine statusesAt_nil ?_
  rintro x hx ⟨_, h2⟩
  split at hx
  · simp at hx
  · rcases List.mem_append.1 hx with hx | hx
    · split at hx
      · simp at hx
      · simp at hx; subst hx; simp at h2
    · split at hx
      · simp at hx
      · split at hx
        · simp at hx; subst hx; simp at h2
        · simp at hx; subst hx; simp at h2

/-- C24: if the class enumerates the values of an attribute, the attribute is reported once:
OK if its text is one of the values, else ERROR; otherwise nothing is reported. -/
theorem attribute_enumeration {env : Env} {mgr : Manager} {mins : Dict (Str × Str) Int}
    {f : H5File} (h : (validateOpen env mgr mins f).res = .ok ()) (hw : WellNamedFile f) {it : Item}
    (hit : it ∈ (catalog env f).log) (hn : it.classpath ≠ s%"non-NeXus content") {g : Node}
    (hg : it.obj.asGroup = some g) {c : Str} (hc : GroupClass env it.classpath g.attrs c)
    {d : ClassDef} (hd : Dict.get? mgr.classes c = some d) {k : Str} {v : Val}
    (hk : (k, v) ∈ g.attrs) :
    (∀ spec, Dict.get? d.attrs k = some spec → spec.enums ≠ [] →
      reportAt (validateOpen env mgr mins f).log (g.name ++ '@' :: k)
        s%"attribute value enumeration" = [okIf (Enumerated env spec.enums v) .error]) ∧
    ((∀ spec, Dict.get? d.attrs k = some spec → spec.enums = []) →
      reportAt (validateOpen env mgr mins f).log (g.name ++ '@' :: k)
        s%"attribute value enumeration" = []) := by
  have e := reportAt_attr h hw hit hn hg hc hd hk (.inr (.inl rfl))
  rw [attrLines] at e
  rw [statusesAt_cons, if_neg (by simp)] at e
  have tail : ∀ l : List Line, (∀ x ∈ l, x.2.1 = s%"value of @" ++ k) →
      statusesAt l (g.name ++ '@' :: k) s%"attribute value enumeration" = [] := by
    intro l hl
    refine statusesAt_nil ?_
    rintro x hx ⟨_, h2⟩
    rw [hl x hx] at h2
    simp at h2
  constructor
  · intro spec hs he
    simp only [hs] at e
    rw [statusesAt_append, if_neg he, statusesAt_cons, if_pos ⟨rfl, rfl⟩, statusesAt_empty,
      tail] at e
    · exact e
    · intro x hx
      split at hx
      · simp at hx
      · split at hx <;> (simp at hx; subst hx; rfl)
  · intro hs
    cases hx : Dict.get? d.attrs k with
    | none => simp only [hx] at e; rw [e]; rfl
    | some spec =>
      simp only [hx] at e
      rw [statusesAt_append, if_pos (hs spec hx), statusesAt_empty, tail] at e
      · exact e
      · intro x hx
        split at hx
        · simp at hx
        · split at hx <;> (simp at hx; subst hx; rfl)

open Classical in
/-- C62: an attribute that the class of a group defines is reported once under "value of @…":
`signal`, and `default` of the root, an entry or a subentry, are OK if the text names something
in the group and else ERROR; `axes` is not reported; all others are TODO.  Attributes that the
class does not define are not reported. -/
theorem attribute_value {env : Env} {mgr : Manager} {mins : Dict (Str × Str) Int}
    {f : H5File} (h : (validateOpen env mgr mins f).res = .ok ()) (hw : WellNamedFile f) {it : Item}
    (hit : it ∈ (catalog env f).log) (hn : it.classpath ≠ s%"non-NeXus content") {g : Node}
    (hg : it.obj.asGroup = some g) {c : Str} (hc : GroupClass env it.classpath g.attrs c)
    {d : ClassDef} (hd : Dict.get? mgr.classes c = some d) {k : Str} {v : Val}
    (hk : (k, v) ∈ g.attrs) :
    let rep := reportAt (validateOpen env mgr mins f).log (g.name ++ '@' :: k) (s%"value of @" ++ k)
    (Dict.get? d.attrs k = none ∨ k = s%"axes" → rep = []) ∧
    (∀ spec, Dict.get? d.attrs k = some spec → k ≠ s%"axes" →
      (PointsInside it.classpath k → rep = [okIf (NamesMember env f g v) .error]) ∧
      (¬ PointsInside it.classpath k → rep = [.todo])) := by
  intro rep
  have e : rep = _ := reportAt_attr h hw hit hn hg hc hd hk (.inr (.inr rfl))
  rw [attrLines] at e
  rw [statusesAt_cons, if_neg (by simp)] at e
  have head : ∀ l : List Line, (∀ x ∈ l, x.2.1 = s%"attribute value enumeration") →
      statusesAt l (g.name ++ '@' :: k) (s%"value of @" ++ k) = [] := by
    intro l hl
    refine statusesAt_nil ?_
    rintro x hx ⟨_, h2⟩
    rw [hl x hx] at h2
    simp at h2
  have e2 : ∀ spec, Dict.get? d.attrs k = some spec → rep = statusesAt
      (if k = s%"axes" then []
       else if PointsInside it.classpath k then
        [(some (g.name ++ '@' :: k), s%"value of @" ++ k, okIf (NamesMember env f g v) .error)]
       else [(some (g.name ++ '@' :: k), s%"value of @" ++ k, .todo)])
      (g.name ++ '@' :: k) (s%"value of @" ++ k) := by
    intro spec hs
    simp only [hs] at e
    rw [statusesAt_append, head, List.nil_append] at e
    · exact e
    · intro x hx
      split at hx
      · simp at hx
      · simp at hx; subst hx; rfl
  constructor
  · intro hor
    cases hs : Dict.get? d.attrs k with
    | none => simp only [hs] at e; rw [e]; rfl
    | some spec =>
      rw [hs] at hor
      rcases hor with hor | hor
      · cases hor
      · rw [e2 spec hs, if_pos hor]; rfl
  · intro spec hs ha
    refine ⟨fun hp => ?_, fun hp => ?_⟩
    · rw [e2 spec hs, if_neg ha, if_pos hp, statusesAt_cons, if_pos ⟨rfl, rfl⟩]; rfl
    · rw [e2 spec hs, if_neg ha, if_neg hp, statusesAt_cons, if_pos ⟨rfl, rfl⟩]; rfl

end Punx

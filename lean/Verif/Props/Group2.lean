import Verif.Props.Group

/-!
# C22–C25, C35: the group findings of a whole run
-/

namespace Punx
open Spec

/-- Is the item a group or the file? -/
def Item.isGroup (it : Item) : Bool := isHdf5Group it.obj || isHdf5File it.obj

theorem Item.isGroup_iff {it : Item} : it.isGroup = true ↔ ∃ g, it.obj.asGroup = some g := by
  rw [Item.isGroup]
  cases it.obj with
  | file f => simp [isHdf5File, isHdf5Group, H5Obj.asGroup]
  | node n => cases n <;> simp [isHdf5File, isHdf5Group, H5Obj.asGroup]
  | val v => simp [isHdf5File, isHdf5Group, H5Obj.asGroup]
  | none => simp [isHdf5File, isHdf5Group, H5Obj.asGroup]

/-! ## the address table -/

theorem addressTable_append (l : List Item) (it : Item) :
    addressTable (l ++ [it]) = Dict.set (addressTable l) it.addr it := by
  simp [addressTable]

theorem mem_addressTable {l : List Item} {k : Option Str} {it : Item}
    (h : (k, it) ∈ addressTable l) : it ∈ l ∧ it.addr = k := by
  induction l using List.reverseRecOn with
  | nil => simp [addressTable] at h
  | append_singleton l x ih =>
    rw [addressTable_append] at h
    rcases mem_set h with h | h
    · simp only [Prod.mk.injEq] at h
      exact ⟨by simp [h.2], by rw [h.1, h.2]⟩
    · obtain ⟨h1, h2⟩ := ih h
      exact ⟨by simp [h1], h2⟩

theorem keys_addressTable (l : List Item) (k : Option Str) :
    k ∈ Dict.keys (addressTable l) ↔ ∃ it ∈ l, it.addr = k := by
  induction l using List.reverseRecOn with
  | nil => simp [addressTable, Dict.keys]
  | append_singleton l x ih =>
    rw [addressTable_append, Dict.mem_keys_set, ih]
    constructor
    · rintro (h | ⟨i, h1, h2⟩)
      · exact ⟨x, by simp, h.symm⟩
      · exact ⟨i, by simp [h1], h2⟩
    · rintro ⟨i, h1, h2⟩
      rcases List.mem_append.1 h1 with h1 | h1
      · exact .inr ⟨i, h1, h2⟩
      · simp at h1; subst h1; exact .inl h2.symm

theorem filter_values_set {P : Item → Bool} {d : Dict (Option Str) Item} {k : Option Str} {v : Item}
    (h : ∀ w, (k, w) ∈ d → P w = false) (hv : P v = false) :
    (Dict.values (Dict.set d k v)).filter P = (Dict.values d).filter P := by
  induction d with
  | nil => simp [Dict.set, Dict.values, hv]
  | cons q d ih =>
    obtain ⟨a, b⟩ := q
    rw [Dict.set]
    split
    · rename_i e
      subst e
      have := h b (by simp)
      simp [Dict.values, hv, this]
    · have := ih (fun w hw => h w (by simp [hw]))
      simp only [Dict.values, List.map_cons, List.filter_cons] at this ⊢
      rw [this]

/-- If no other item has the address of an item with `P`, the address table holds those
items in the order of the catalogue. -/
theorem filter_addressTable {P : Item → Bool} (l : List Item)
    (h : l.Pairwise (fun i j => i.addr = j.addr → P i = false ∧ P j = false)) :
    (Dict.values (addressTable l)).filter P = l.filter P := by
  induction l using List.reverseRecOn with
  | nil => rfl
  | append_singleton l x ih =>
    rw [List.pairwise_append] at h
    obtain ⟨h1, _, h3⟩ := h
    rw [addressTable_append, List.filter_append, ← ih h1]
    by_cases hx : P x = true
    · rw [Dict.set_of_not_mem]
      · simp [Dict.values, hx]
      · rw [keys_addressTable]
        rintro ⟨i, hi, e⟩
        have := (h3 i hi x (by simp) e).2
        rw [hx] at this
        cases this
    · have hx' : P x = false := by simpa using hx
      rw [filter_values_set _ hx']
      · simp [hx']
      · intro w hw
        obtain ⟨m1, m2⟩ := mem_addressTable hw
        exact (h3 w m1 x (by simp) m2).1

/-! ## the items of groups -/

theorem objItem_class {env : Env} {p : Item} {n : Node} {oid : List Nat} {c : Str}
    (h : (objItem env (some p) (.node n) n.name oid).nxClass = some c) :
    nxClassOf env n.attrs = some c := by
  have h' : (cpOf env (some p) (.node n) n.name).2 = some c := h
  rw [cpOf] at h'
  cases hd : determineClasspath env (some p) (isHdf5Group (.node n)) (objName n.name)
      ((H5Obj.node n).attrs?.getD []) with
  | error e => rw [hd] at h'; cases h'
  | ok r =>
    rw [hd] at h'
    have h2 : r.2 = some c := h'
    rw [determineClasspath] at hd
    simp only [H5Obj.attrs?, Option.getD_some] at hd
    split at hd
    · injection hd with hd; rw [← hd] at h2; cases h2
    · split at hd
      · injection hd with hd; rw [← hd] at h2; cases h2
      · split at hd
        · injection hd with hd; rw [← hd] at h2; cases h2
        · split at hd
          · cases hdec : decodeByteString env ((attrGet n.attrs s%"NX_class").getD .none) with
            | error e => rw [hdec] at hd; cases hd
            | ok v =>
              rw [hdec] at hd
              rw [decode_class env n.attrs hdec]
              cases v with
              | str t =>
                by_cases hs : startsWith t s%"NX" = true
                · simp only [bind, Except.bind, hs, if_true, Except.ok.injEq] at hd
                  rw [← hd] at h2
                  simp only [classOfVal, hs, if_true]
                  exact h2
                · simp only [bind, Except.bind, hs] at hd
                  injection hd with hd; rw [← hd] at h2; cases h2
              | _ => injection hd with hd; rw [← hd] at h2; cases h2
          · injection hd with hd; rw [← hd] at h2; cases h2

/-- A catalogued group: where it is and how its class is read. -/
theorem catalogued_group {env : Env} {f : H5File} (h : (catalog env f).res = .ok ()) {it : Item}
    (hit : it ∈ (catalog env f).log) {g : Node} (hg : it.obj.asGroup = some g) :
    it.addr = some g.name ∧ ∀ c, CheckedClass it c → GroupClass env it.classpath g.attrs c := by
  cases catalogued h hit with
  | root =>
    simp only [rootItem, H5Obj.asGroup, Option.some.injEq] at hg
    subst hg
    refine ⟨rfl, ?_⟩
    rintro c (⟨h1, h2⟩ | ⟨h1, _⟩)
    · exact .inl ⟨h1, h2⟩
    · exact absurd rfl h1
  | attr j _ _ _ _ =>
    rw [attrItem_obj] at hg; cases hg
  | @node p n oid _ _ =>
    have hn : n = g := by
      cases n <;> simp [objItem, H5Obj.asGroup] at hg
      exact hg
    subst hn
    refine ⟨rfl, ?_⟩
    rintro c (⟨h1, h2⟩ | ⟨h1, h2⟩)
    · exact .inl ⟨h1, h2⟩
    · exact .inr ⟨h1, objItem_class h2⟩

/-! ## the run -/

/-- The report expected on the group of item `it`: one line for non-NeXus content, else the
lines for its class. -/
def ReportOn (env : Env) (mgr : Manager) (f : H5File) (it : Item) (ls : List Line) : Prop :=
  (it.classpath = s%"non-NeXus content" ∧ ls = [(it.addr, s%"NeXus_group", .ok)]) ∨
  (it.classpath ≠ s%"non-NeXus content" ∧ ∃ g a c, it.obj.asGroup = some g ∧ it.addr = some a ∧
    GroupClass env it.classpath g.attrs c ∧
    ls = groupLines env f mgr.classes g a it.classpath c)

theorem emits_findings {α : Type} {w : W Eff α} {R : Item → Str → Status → Prop} (h : Emits R w)
    {x : Finding} (hx : x ∈ findings w.log) : ∃ i, R i x.test x.status := by
  rw [findings, List.mem_filterMap] at hx
  obtain ⟨e, he, hx⟩ := hx
  rcases h e he with ⟨i, k, st, c, rfl, hr⟩ | ⟨c, g, n, rfl⟩
  · simp only [Option.some.injEq] at hx
    subst hx
    exact ⟨i, hr⟩
  · cases hx

theorem AttrTest.not_group {k : Str} (h : AttrTest k) : ¬ GroupTest k := by
  intro hg
  have h1 := hg.isNot
  rw [h.is] at h1
  cases h1

theorem name_not_group : ¬ GroupTest tValidItemName := fun h => h.ne rfl

theorem AppTest.group {k : Str} (h : AppTest k) (hg : GroupTest k) : k = s%"known NXDL" := by
  generalize e : k = k' at hg
  cases h <;> cases hg <;> first | rfl | simp at e

theorem PlotTest.not_group {k : Str} (h : PlotTest k) : ¬ GroupTest k := by
  intro hg
  generalize e : k = k' at hg
  cases h <;> cases hg <;> simp at e

theorem findings_flatMap {γ : Type} (l : List γ) (k : γ → List Eff) :
    findings (l.flatMap k) = l.flatMap (fun x => findings (k x)) := by
  induction l with
  | nil => rfl
  | cons x l ih => simp [findings_append, ih]

/-- The items that step 2 looks at: for every address the last item with it. -/
def addressed (env : Env) (f : H5File) : List Item :=
  Dict.values (addressTable (catalog env f).log)

theorem mem_addressed {env : Env} {f : H5File} {it : Item} (h : it ∈ addressed env f) :
    it ∈ (catalog env f).log := by
  rw [addressed, Dict.values, List.mem_map] at h
  obtain ⟨⟨k, i⟩, hm, rfl⟩ := h
  exact (mem_addressTable hm).1

theorem step2_lines {env : Env} {mgr : Manager} {mins : Dict (Str × Str) Int} {f : H5File}
    (hc : (catalog env f).res = .ok ()) (hs2 : (step2 (mkCtx env mgr mins f)).res = .ok ()) :
    ∃ parts, (findings (step2 (mkCtx env mgr mins f)).log).map lineOf = parts.flatten ∧
      List.Forall₂ (ReportOn env mgr f) ((addressed env f).filter Item.isGroup) parts := by
  have hl := lines_forEach hs2
  have hok := W.forEach_ok_iff.1 hs2
  change lines (step2 (mkCtx env mgr mins f)) = _ at hl
  rw [show (findings (step2 (mkCtx env mgr mins f)).log).map lineOf =
    lines (step2 (mkCtx env mgr mins f)) from rfl, hl]
  have hA := mkCtx_addrOk env mgr mins f
  have key : ∀ l : List Item, (∀ it ∈ l, it ∈ (catalog env f).log) →
      (∀ it ∈ l, (if isHdf5Group it.obj || isHdf5File it.obj then
        validateGroup (mkCtx env mgr mins f) it else pure ()).res = .ok ()) →
      ∃ parts, l.flatMap (fun it => lines (if isHdf5Group it.obj || isHdf5File it.obj then
        validateGroup (mkCtx env mgr mins f) it else pure ())) = parts.flatten ∧
        List.Forall₂ (ReportOn env mgr f) (l.filter Item.isGroup) parts := by
    intro l
    induction l with
    | nil => intro _ _; exact ⟨[], rfl, .nil⟩
    | cons it l ih =>
      intro hm ho
      obtain ⟨parts, e, hp⟩ := ih (fun i hi => hm i (by simp [hi])) (fun i hi => ho i (by simp [hi]))
      have hit := ho it (by simp)
      rw [List.flatMap_cons, e, List.filter_cons]
      by_cases hgr : it.isGroup = true
      · have hgr' : (isHdf5Group it.obj || isHdf5File it.obj) = true := hgr
        rw [if_pos hgr'] at hit ⊢
        rw [if_pos hgr]
        refine ⟨lines (validateGroup (mkCtx env mgr mins f) it) :: parts, rfl, .cons ?_ hp⟩
        by_cases hn : it.classpath = nonNeXus
        · refine .inl ⟨hn, ?_⟩
          rw [validateGroup, if_pos hn, lines_record]
        · refine .inr ⟨hn, ?_⟩
          obtain ⟨g, hg⟩ := Item.isGroup_iff.1 hgr
          obtain ⟨ha, hcl⟩ := catalogued_group hc (hm it (by simp)) hg
          obtain ⟨cc, h1, h2⟩ := validateGroup_lines hA ha hg hn hit
          exact ⟨g, g.name, cc, hg, ha, hcl _ h1, h2⟩
      · have hgr' : ¬ (isHdf5Group it.obj || isHdf5File it.obj) = true := hgr
        rw [if_neg hgr, if_neg hgr']
        exact ⟨parts, rfl, hp⟩
  exact key _ (fun it hi => mem_addressed hi) hok

/-- All group findings of a completed run, in order: for each group that the address table
holds, the report on that group, and nothing else.  (The application definition check also
uses the test name "known NXDL".) -/
theorem group_findings_run {env : Env} {mgr : Manager} {mins : Dict (Str × Str) Int} {f : H5File}
    (h : (validateOpen env mgr mins f).res = .ok ()) :
    ∃ A S B, findings (validateOpen env mgr mins f).log = A ++ S ++ B ∧
      (∀ x ∈ A, ¬ GroupTest x.test) ∧
      (∀ x ∈ B, GroupTest x.test → x.test = s%"known NXDL") ∧
      ∃ parts, S.map lineOf = parts.flatten ∧
        List.Forall₂ (ReportOn env mgr f) ((addressed env f).filter Item.isGroup) parts := by
  have c := completed h
  obtain ⟨m, hlog, _, _⟩ := c.log
  refine ⟨findings ((step1Items (catalog env f).log).flatMap
      (fun it => (nameAndAttribute (mkCtx env mgr mins f) [] it).log)),
    findings (step2 (mkCtx env mgr mins f)).log,
    findings (step3 (mkCtx env mgr mins f)).log ++
      findings (defaultPlotVerify (mkCtx env mgr mins f) m).log, ?_, ?_, ?_, ?_⟩
  · rw [hlog, findings_append, findings_append, findings_append, List.append_assoc]
  · intro x hx
    rw [findings_flatMap, List.mem_flatMap] at hx
    obtain ⟨it, _, hx⟩ := hx
    obtain ⟨i, _, hk | hk⟩ := emits_findings (emits_nameAndAttribute _ [] it) hx
    · rw [hk]; exact name_not_group
    · exact hk.not_group
  · intro x hx hg
    rcases List.mem_append.1 hx with hx | hx
    · obtain ⟨i, hk⟩ := emits_findings (emits_step3 _) hx
      exact hk.group hg
    · obtain ⟨i, hk⟩ := emits_findings (emits_defaultPlot _ _) hx
      exact absurd hg hk.2.not_group
  · exact step2_lines c.catalog c.step2

/-- In a well named file step 2 looks at every group of the catalogue once, in order. -/
theorem addressed_groups {env : Env} {f : H5File} (h : (catalog env f).res = .ok ())
    (hw : WellNamedFile f) :
    (addressed env f).filter Item.isGroup = (catalog env f).log.filter Item.isGroup := by
  refine filter_addressTable _ ?_
  have hn := catalog_addresses_nodup_partial h hw
  rw [List.Nodup, List.pairwise_filterMap] at hn
  refine List.Pairwise.imp_of_mem ?_ hn
  intro i j hi hj hij e
  have key : ∀ x ∈ (catalog env f).log, x.isGroup = true → ∃ a, x.addr = some a := by
    intro x hx hg
    obtain ⟨g, hg⟩ := Item.isGroup_iff.1 hg
    exact ⟨_, (catalogued_group h hx hg).1⟩
  constructor
  · by_contra hg
    obtain ⟨a, ha⟩ := key i hi (by simpa using hg)
    exact hij a ha a (e ▸ ha) rfl
  · by_contra hg
    obtain ⟨a, ha⟩ := key j hj (by simpa using hg)
    exact hij a (e ▸ ha) a ha rfl

end Punx

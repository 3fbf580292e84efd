import Verif.Props.Completes

/-!
# C77: when the group checks raise no exception
-/

namespace Punx
open Spec

theorem unit_bind_ok_iff {β : Type} {x : W Eff Unit} {k : Unit → W Eff β} {b : β} :
    (x >>= k).res = .ok b ↔ x.res = .ok () ∧ (k ()).res = .ok b := by
  rw [W.bind_ok_iff]
  exact ⟨fun ⟨_, h1, h2⟩ => ⟨h1, h2⟩, fun ⟨h1, h2⟩ => ⟨(), h1, h2⟩⟩

theorem usedAsBaseClass_ok_iff {mgr : Manager} {c : Str} {d : ClassDef}
    (hd : Dict.get? mgr.classes c = some d) :
    (∃ b, usedAsBaseClass mgr c = .ok b) ↔
      ¬ (d.category = .contributed ∧ d.fields = [] ∧ d.links = [] ∧ d.groups.length = 1) := by
  rw [usedAsBaseClass, hd]
  cases hcat : d.category with
  | applications => simp [hcat]
  | baseClasses => simp [hcat]
  | contributed =>
    simp only [hcat, List.length_eq_zero_iff, true_and]
    by_cases h : d.fields = [] ∧ d.links = [] ∧ d.groups.length = 1
    · rw [if_pos h]; simp [h]
    · rw [if_neg h]; simp only [h, not_false_eq_true, iff_true]; exact ⟨_, rfl⟩

theorem nxClassAttribute_ok_iff {ctx : Ctx} {it : Item} {c : Str} {d : ClassDef}
    (hd : Dict.get? ctx.mgr.classes c = some d) :
    (nxClassAttribute ctx it c).res = .ok () ↔
      ¬ (d.category = .contributed ∧ d.fields = [] ∧ d.links = [] ∧ d.groups.length = 1) := by
  rw [← usedAsBaseClass_ok_iff hd]
  simp only [nxClassAttribute, record_bind_res, hd]
  rw [W.bind_ok_iff]
  constructor
  · rintro ⟨b, h, _⟩; exact ⟨b, h⟩
  · rintro ⟨b, h⟩; exact ⟨b, h, rfl⟩

theorem groupMinOccurs_ok_iff (env : Env) (g : GroupSpec) :
    (∃ n, groupMinOccurs env g = .ok n) ↔ ∃ n, MinOccursIs env g n := by
  unfold groupMinOccurs MinOccursIs
  cases Dict.get? g.attrs s%"minOccurs" with
  | none => simp
  | some r =>
    cases r with
    | raw s => cases h : env.int s <;> simp [h]
    | spec x => simp

theorem baseItems_ok_iff {ctx : Ctx} {it : Item} {a : Str} {g : Node} (ha : it.addr = some a)
    (hg : it.obj.asGroup = some g) (c : Str) (d : ClassDef) :
    (baseItems ctx it c d).res = .ok () ↔ ∀ x ∈ d.groups, ∃ n, MinOccursIs ctx.env x.2 n := by
  have hcont : ∀ s, objContains ctx it.obj (.str s) = .ok (h5contains ctx.file g s) := by
    intro s; simp only [objContains, hg]
  have hf : ∀ x, (baseFieldCheck ctx it x).res = .ok () := by
    intro x
    simp only [baseFieldCheck, hcont, W.lift_ok_bind, addrStr, ha]
    split <;> rfl
  have hgr : ∀ x, (baseGroupCheck ctx it c x).res = .ok () ↔ ∃ n, MinOccursIs ctx.env x.2 n := by
    intro x
    rw [← groupMinOccurs_ok_iff]
    simp only [baseGroupCheck, hcont, W.lift_ok_bind, addrStr, ha]
    have key : ∀ w : W Eff Unit, w.res = .ok () →
        ((w >>= fun _ => W.lift (groupMinOccurs ctx.env x.2) >>= fun n =>
          W.tell (.setMin c x.1 n)).res = .ok () ↔ ∃ n, groupMinOccurs ctx.env x.2 = .ok n) := by
      intro w hw
      rw [W.bind_ok_iff]
      constructor
      · rintro ⟨_, _, h⟩
        rw [W.bind_ok_iff] at h
        obtain ⟨n, h, _⟩ := h
        exact ⟨n, h⟩
      · rintro ⟨n, h⟩
        refine ⟨(), hw, ?_⟩
        rw [W.bind_ok_iff]
        exact ⟨n, h, rfl⟩
    split
    · exact key _ rfl
    · exact key _ rfl
  rw [baseItems, W.bind_ok_iff]
  constructor
  · rintro ⟨_, _, h⟩ x hx
    rw [W.forEach_ok_iff] at h
    exact (hgr x).1 (h x ((sortBy_perm d.groups).mem_iff.2 hx))
  · intro h
    refine ⟨(), W.forEach_ok_iff.2 (fun x _ => hf x), W.forEach_ok_iff.2 (fun x hx => ?_)⟩
    exact (hgr x).2 (h x ((sortBy_perm d.groups).mem_iff.1 hx))

theorem enumCheck_ok_iff {spec : AttrSpec} {v : Val} {aIt : Item} :
    (enumCheck spec v aIt).res = .ok () ↔ (spec.enums ≠ [] → ∃ s, v = .str s) := by
  unfold enumCheck
  by_cases h : spec.enums = []
  · simp [h]
  · have hl : spec.enums.length > 0 := List.length_pos_iff.2 h
    rw [if_pos hl]
    simp only [ne_eq, h, not_false_eq_true, true_implies]
    cases v with
    | str s => simp only [Val.str.injEq, exists_eq', iff_true]; split <;> rfl
    | _ => simp

theorem childExists_ok_iff {ctx : Ctx} {test : Str} {v : Val} {it aIt : Item} {a : Str} {g : Node}
    (ha : it.addr = some a) (hg : it.obj.asGroup = some g) :
    (childExists ctx test v it aIt).res = .ok () ↔ ∃ s, v = .str s := by
  rw [childExists, W.bind_ok_iff]
  constructor
  · rintro ⟨b, h, _⟩
    rw [W.lift_res] at h
    unfold objContains at h
    cases v with
    | str s => exact ⟨s, rfl⟩
    | _ => simp at h
  · rintro ⟨s, rfl⟩
    refine ⟨h5contains ctx.file g s, ?_, ?_⟩
    · rw [W.lift_res, objContains]; simp only [hg]
    · simp only [addrStr, ha, W.lift_ok_bind]
      split <;> rfl

/-- One attribute of a group is compared without exception exactly if ... -/
theorem groupAttrCheck_ok_iff {ctx : Ctx} {it aIt : Item} {a : Str} {g : Node} {d : ClassDef}
    {ka : Str × Val} (ha : it.addr = some a) (hg : it.obj.asGroup = some g)
    (hat : Dict.get? ctx.addresses (some (a ++ s%"@" ++ ka.1)) = some aIt) :
    (groupAttrCheck ctx it d ka).res = .ok () ↔
      classReadable ctx.env (some ka.2) ∧
      (∀ spec, Dict.get? d.attrs ka.1 = some spec →
        spec.enums ≠ [] ∨ PointsInside it.classpath ka.1 → ∃ s, TextOf ctx.env ka.2 s) ∧
      (ka.1 = s%"target" → Dict.get? d.attrs ka.1 = none) := by
  simp only [groupAttrCheck, addrStr, ha, W.lift_ok_bind, hat]
  rw [W.bind_ok_iff, ← decode_ok_iff]
  have dec : ∀ {v}, decodeByteString ctx.env ka.2 = .ok v →
      ((∃ s, v = .str s) ↔ ∃ s, TextOf ctx.env ka.2 s) := by
    intro v hv
    constructor
    · rintro ⟨s, rfl⟩; exact ⟨s, decode_text hv⟩
    · rintro ⟨s, hs⟩
      rw [decode_of_text hs] at hv
      injection hv with hv
      exact ⟨s, hv.symm⟩
  cases hspec : Dict.get? d.attrs ka.1 with
  | none =>
    simp only [record_bind_res, reduceCtorEq, false_implies, implies_true, and_true]
    constructor
    · rintro ⟨v, hv, _⟩; exact ⟨v, hv⟩
    · rintro ⟨v, hv⟩; exact ⟨v, hv, rfl⟩
  | some spec =>
    simp only [record_bind_res, Option.some.injEq, forall_eq', reduceCtorEq]
    have key : ∀ {v}, decodeByteString ctx.env ka.2 = .ok v →
        ((enumCheck spec v aIt >>= fun _ =>
          if ka.1 = s%"default" ∧ it.classpath ∈ defaultClasspaths then
            childExists ctx s%"value of @default" v it aIt
          else if ka.1 = s%"signal" then
            childExists ctx s%"value of @signal" v it aIt
          else if ka.1 = s%"target" then
            W.fail .attributeError
          else if ka.1 = s%"axes" then pure ()
          else
            record aIt (s%"value of @" ++ ka.1) .todo
              (s%"TODO: need to validate: @" ++ ka.1 ++ s%" = " ++ pyStr ctx.env v) : W Eff Unit).res
          = .ok () ↔
        (spec.enums ≠ [] ∨ PointsInside it.classpath ka.1 → ∃ s, TextOf ctx.env ka.2 s) ∧
          (ka.1 = s%"target" → False)) := by
      intro v hv
      have hdm : it.classpath ∈ defaultClasspaths ↔ DefaultMatters it.classpath := by
        simp [defaultClasspaths, DefaultMatters]
      rw [unit_bind_ok_iff]
      by_cases h1 : ka.1 = s%"default" ∧ it.classpath ∈ defaultClasspaths
      · have hp : PointsInside it.classpath ka.1 := .inr ⟨h1.1, hdm.1 h1.2⟩
        have hnt : ka.1 ≠ s%"target" := by rw [h1.1]; decide
        simp only [if_pos h1, enumCheck_ok_iff, childExists_ok_iff ha hg, dec hv]
        constructor
        · rintro ⟨_, h⟩; exact ⟨fun _ => h, hnt⟩
        · rintro ⟨h, _⟩; exact ⟨fun _ => h (.inr hp), h (.inr hp)⟩
      simp only [if_neg h1]
      by_cases h2 : ka.1 = s%"signal"
      · have hp : PointsInside it.classpath ka.1 := .inl h2
        have hnt : ka.1 ≠ s%"target" := by rw [h2]; decide
        simp only [if_pos h2, enumCheck_ok_iff, childExists_ok_iff ha hg, dec hv]
        constructor
        · rintro ⟨_, h⟩; exact ⟨fun _ => h, hnt⟩
        · rintro ⟨h, _⟩; exact ⟨fun _ => h (.inr hp), h (.inr hp)⟩
      have hp : ¬ PointsInside it.classpath ka.1 := by
        rintro (h | h)
        · exact h2 h
        · exact h1 ⟨h.1, hdm.2 h.2⟩
      simp only [if_neg h2, hp, or_false]
      by_cases h3 : ka.1 = s%"target"
      · rw [if_pos h3]; simp [h3]
      rw [if_neg h3]
      simp only [h3, false_implies, and_true, enumCheck_ok_iff, dec hv]
      constructor
      · rintro ⟨h, _⟩; exact h
      · intro h
        refine ⟨h, ?_⟩
        split <;> rfl
    constructor
    · rintro ⟨v, hv, h⟩
      rw [W.lift_res] at hv
      exact ⟨⟨v, hv⟩, (key hv).1 h⟩
    · rintro ⟨⟨v, hv⟩, h⟩
      exact ⟨v, hv, (key hv).2 h⟩

/-! ## the class of a group -/

/-- The class path of a group: not NeXus, the root, or below a NeXus class. -/
def GroupPath (cp : Str) : Prop := cp = nonNeXus ∨ cp = [] ∨ s%"/NX" <+: cp

theorem cpOf_groupPath {env : Env} {p : Item} (hp : GroupPath p.classpath) {n : Str}
    {a : List (Str × Val)} {ks : Kids} :
    GroupPath (cpOf env (some p) (.node (.group n a ks)) n).1 := by
  rw [cpOf]
  cases hd : determineClasspath env (some p) (isHdf5Group (.node (.group n a ks))) (objName n)
      ((H5Obj.node (.group n a ks)).attrs?.getD []) with
  | error e => exact .inr (.inl rfl)
  | ok r =>
    show GroupPath r.1
    rw [determineClasspath] at hd
    split at hd
    · injection hd with hd; rw [← hd]; exact .inr (.inl rfl)
    · split at hd
      · injection hd with hd; rw [← hd]; exact .inl rfl
      · rename_i hnn
        split at hd
        · injection hd with hd; rw [← hd]; exact hp
        · rw [if_pos (by rfl)] at hd
          cases hdec : decodeByteString env ((attrGet ((H5Obj.node (.group n a ks)).attrs?.getD [])
              s%"NX_class").getD .none) with
          | error e => rw [hdec] at hd; cases hd
          | ok v =>
            rw [hdec] at hd
            cases v with
            | str t =>
              by_cases hs : startsWith t s%"NX" = true
              · simp only [bind, Except.bind, hs, if_true, Except.ok.injEq] at hd
                rw [← hd]
                right; right
                rcases hp with hp | hp | hp
                · exact absurd hp hnn
                · rw [hp]
                  obtain ⟨x, rfl⟩ := startsWith_iff.1 hs
                  exact ⟨x, rfl⟩
                · obtain ⟨x, hx⟩ := hp
                  rw [← hx]
                  exact ⟨x ++ s%"/" ++ t, by simp⟩
              · simp only [bind, Except.bind, hs] at hd
                injection hd with hd; rw [← hd]; exact .inl rfl
            | _ => injection hd with hd; rw [← hd]; exact .inl rfl

mutual
theorem nodeItems_groupPath (env : Env) (parent : Item) (oid : List Nat)
    (hp : GroupPath parent.classpath) {it : Item} {g : Node} (hg : it.obj.asGroup = some g) :
    (n : Node) → it ∈ nodeItems env parent oid n → GroupPath it.classpath
  | .group n a kids, h => by
    rw [nodeItems] at h
    rcases List.mem_append.1 h with h | h
    · rcases List.mem_cons.1 h with rfl | h
      · exact cpOf_groupPath hp
      · obtain ⟨i, kb, _, _, _, rfl⟩ := mem_attrItemsOf h
        rw [attrItem_obj] at hg; cases hg
    · refine kidsItems_groupPath env _ oid 0 ?_ hg kids h
      rw [parentFor_classpath]
      exact cpOf_groupPath hp
  | .dataset n a d, h => by
    rw [nodeItems] at h
    rcases List.mem_cons.1 h with rfl | h
    · cases hg
    · obtain ⟨i, kb, _, _, _, rfl⟩ := mem_attrItemsOf h
      rw [attrItem_obj] at hg; cases hg
  | .datatype n a, h => by
    rw [nodeItems] at h
    rcases List.mem_cons.1 h with rfl | h
    · cases hg
    · obtain ⟨i, kb, _, _, _, rfl⟩ := mem_attrItemsOf h
      rw [attrItem_obj] at hg; cases hg
theorem kidsItems_groupPath (env : Env) (parent : Item) (oid : List Nat) (i : Nat)
    (hp : GroupPath parent.classpath) {it : Item} {g : Node} (hg : it.obj.asGroup = some g) :
    (ks : Kids) → it ∈ kidsItems env parent oid i ks → GroupPath it.classpath
  | .nil, h => by simp [kidsItems] at h
  | .cons l k n rest, h => by
    rw [kidsItems] at h
    rcases List.mem_append.1 h with h | h
    · exact nodeItems_groupPath env parent _ hp hg n h
    · exact kidsItems_groupPath env parent oid (i + 1) hp hg rest h
  | .broken l k rest, h => by simp [kidsItems] at h
end

theorem catalog_groupPath {env : Env} {f : H5File} (h : (catalog env f).res = .ok ()) {it : Item}
    (hit : it ∈ (catalog env f).log) {g : Node} (hg : it.obj.asGroup = some g) :
    GroupPath it.classpath := by
  rw [catalog_log h, fileItems] at hit
  rcases List.mem_append.1 hit with hit | hit
  · rcases List.mem_cons.1 hit with rfl | hit
    · exact .inr (.inl rfl)
    · obtain ⟨i, kb, _, _, _, rfl⟩ := mem_attrItemsOf hit
      rw [attrItem_obj] at hg; cases hg
  · exact kidsItems_groupPath env _ [] 0 (.inr (.inl rfl)) hg f.kids hit

theorem made_here {env : Env} {parent : Option Item} {obj : H5Obj} {n : Str}
    {attrs : List (Str × Val)} {oid : List Nat} {r : Item × List Item} (hn : obj.name? = some n)
    (h : (getSubject env parent obj attrs oid).res = .ok r) {it : Item}
    (hit : it ∈ (getSubject env parent obj attrs oid).log) {m : Node} (hm : it.obj = .node m) :
    mkItem env parent obj none oid = .ok it ∧ obj = .node m := by
  obtain ⟨_, e2, e3⟩ := getSubject_ok hn h
  rw [e2] at hit
  rcases List.mem_cons.1 hit with rfl | hit
  · exact ⟨e3, hm⟩
  · obtain ⟨i, kb, _, _, _, rfl⟩ := mem_attrItemsOf hit
    rw [attrItem_obj] at hm; cases hm

mutual
theorem catalogNode_made (env : Env) (parent : Item) (oid : List Nat) {it : Item} {m : Node}
    (hm : it.obj = .node m) : (n : Node) → (catalogNode env parent oid n).res = .ok () →
    it ∈ (catalogNode env parent oid n).log →
    ∃ p o, mkItem env (some p) (.node m) none o = .ok it
  | .group n a kids, h, hit => by
    rw [catalogNode, W.bind_ok_iff] at h
    obtain ⟨⟨v, avs⟩, h1, h2⟩ := h
    rw [catalogNode, W.bind_log_of_ok h1] at hit
    rcases List.mem_append.1 hit with hit | hit
    · obtain ⟨e1, e2⟩ := made_here rfl h1 hit hm
      exact ⟨parent, oid, e2 ▸ e1⟩
    · exact catalogKids_made env _ oid 0 hm kids h2 hit
  | .dataset n a d, h, hit => by
    rw [catalogNode, W.bind_ok_iff] at h
    obtain ⟨r, h1, _⟩ := h
    rw [catalogNode, W.bind_log_of_ok h1] at hit
    simp only [W.pure_log, List.append_nil] at hit
    obtain ⟨e1, e2⟩ := made_here rfl h1 hit hm
    exact ⟨parent, oid, e2 ▸ e1⟩
  | .datatype n a, h, hit => by
    rw [catalogNode, W.bind_ok_iff] at h
    obtain ⟨r, h1, _⟩ := h
    rw [catalogNode, W.bind_log_of_ok h1] at hit
    simp only [W.pure_log, List.append_nil] at hit
    obtain ⟨e1, e2⟩ := made_here rfl h1 hit hm
    exact ⟨parent, oid, e2 ▸ e1⟩
theorem catalogKids_made (env : Env) (parent : Item) (oid : List Nat) (i : Nat) {it : Item}
    {m : Node} (hm : it.obj = .node m) : (ks : Kids) →
    (catalogKids env parent oid i ks).res = .ok () →
    it ∈ (catalogKids env parent oid i ks).log →
    ∃ p o, mkItem env (some p) (.node m) none o = .ok it
  | .nil, _, hit => by rw [catalogKids] at hit; simp at hit
  | .cons l k n rest, h, hit => by
    rw [catalogKids, W.bind_ok_iff] at h
    obtain ⟨⟨⟩, h1, h2⟩ := h
    rw [catalogKids, W.bind_log_of_ok h1] at hit
    rcases List.mem_append.1 hit with hit | hit
    · exact catalogNode_made env parent _ hm n h1 hit
    · exact catalogKids_made env parent oid (i + 1) hm rest h2 hit
  | .broken l k rest, h, _ => by
    rw [catalogKids] at h; simp at h
end

/-- Every catalogued object got its item from `ValidationItem(parent, obj)`. -/
theorem catalog_made {env : Env} {f : H5File} (h : (catalog env f).res = .ok ()) {it : Item}
    (hit : it ∈ (catalog env f).log) {m : Node} (hm : it.obj = .node m) :
    ∃ p o, it.parent = some p ∧ mkItem env (some p) (.node m) none o = .ok it := by
  have : ∃ p o, mkItem env (some p) (.node m) none o = .ok it := by
    rw [catalog, W.bind_ok_iff] at h
    obtain ⟨⟨v, avs⟩, h1, h2⟩ := h
    rw [catalog, W.bind_log_of_ok h1] at hit
    rcases List.mem_append.1 hit with hit | hit
    · obtain ⟨_, e2⟩ := made_here (n := s%"/") rfl h1 hit hm
      cases e2
    · exact catalogKids_made env _ [] 0 hm f.kids h2 hit
  obtain ⟨p, o, h⟩ := this
  refine ⟨p, o, ?_, h⟩
  obtain ⟨e, _, _⟩ := mkItem_ok rfl h
  rw [e, objItem_parent]

mutual
theorem wellNamed_ne (path : Str) (hp : path ≠ s%"/") : (n : Node) → WellNamed path n →
    AllNodes (fun m => m.name ≠ s%"/") n
  | .group n a kids, h => by
    rw [WellNamed] at h
    rw [AllNodes]
    exact ⟨by simpa [Node.name, h.1] using hp, wellNamedKids_ne path kids h.2.2.2⟩
  | .dataset n a d, h => by
    rw [WellNamed] at h
    rw [AllNodes]
    simpa [Node.name, h.1] using hp
  | .datatype n a, h => by
    rw [WellNamed] at h
    rw [AllNodes]
    simpa [Node.name, h.1] using hp
theorem wellNamedKids_ne (path : Str) : (ks : Kids) → WellNamedKids path ks →
    AllKids (fun m => m.name ≠ s%"/") ks
  | .nil, _ => by rw [AllKids]; trivial
  | .cons l k n rest, h => by
    rw [WellNamedKids] at h
    rw [AllKids]
    refine ⟨wellNamed_ne (path ++ '/' :: l) ?_ n h.2.2.2.1, wellNamedKids_ne path rest h.2.2.2.2⟩
    intro he
    have := congrArg List.length he
    have hl : 0 < l.length := List.length_pos_iff.2 h.1
    simp at this
    omega
  | .broken l k rest, h => by
    rw [WellNamedKids] at h
    rw [AllKids]
    exact wellNamedKids_ne path rest h
end

theorem node_name_ne {env : Env} {f : H5File} (hc : (catalog env f).res = .ok ())
    (hw : WellNamedFile f) {it : Item} (hit : it ∈ (catalog env f).log) {n : Node}
    (hn : it.obj = .node n) : n.name ≠ s%"/" :=
  catalog_all hc (wellNamedKids_ne [] f.kids hw.2.2) hit hn

/-- How the class of a catalogued group below the root is found. -/
theorem group_class {env : Env} {f : H5File} (hc : (catalog env f).res = .ok ())
    (hw : WellNamedFile f) {it : Item} (hit : it ∈ (catalog env f).log) {n : Str}
    {a : List (Str × Val)} {ks : Kids} (hn : it.obj = .node (.group n a ks))
    (hcp : it.classpath ≠ nonNeXus) :
    ∃ p, it.parent = some p ∧ it.classpath ≠ [] ∧
      ((s%"/" <:+ p.classpath ∧ it.nxClass = none) ∨
       (¬ s%"/" <:+ p.classpath ∧ ∃ c, it.nxClass = some c ∧ nxClassOf env a = some c)) := by
  obtain ⟨p, o, hp, hmk⟩ := catalog_made hc hit hn
  obtain ⟨e, hd, _⟩ := mkItem_ok rfl hmk
  refine ⟨p, hp, ?_⟩
  have hname : objName n ≠ s%"/" := fun h => node_name_ne hc hw hit hn (objName_slash h)
  have hcls : ∀ c, it.nxClass = some c → nxClassOf env a = some c := by
    intro c h
    rw [e] at h
    exact objItem_class (n := .group n a ks) h
  have e1 : it.classpath = (cpOf env (some p) (.node (.group n a ks)) n).1 := by rw [e]; rfl
  have e2 : it.nxClass = (cpOf env (some p) (.node (.group n a ks)) n).2 := by rw [e]; rfl
  change determineClasspath env (some p) true (objName n) a =
    .ok (cpOf env (some p) (.node (.group n a ks)) n) at hd
  generalize cpOf env (some p) (.node (.group n a ks)) n = r at hd e1 e2
  rw [determineClasspath, if_neg hname] at hd
  simp only [] at hd
  split at hd
  · injection hd with hd; rw [← hd] at e1; exact absurd e1 hcp
  · split at hd
    · rename_i hs
      injection hd with hd
      rw [← hd] at e1 e2
      refine ⟨?_, .inl ⟨endsWith_iff.1 hs, e2⟩⟩
      rw [e1]
      intro h0
      rw [show p.classpath = [] from h0] at hs
      simp [endsWith] at hs
    · rename_i hs
      rw [if_pos trivial] at hd
      cases hdec : decodeByteString env ((attrGet a s%"NX_class").getD .none) with
      | error e => rw [hdec] at hd; cases hd
      | ok v =>
        rw [hdec] at hd
        cases v with
        | str t =>
          by_cases hs' : startsWith t s%"NX" = true
          · simp only [bind, Except.bind, hs', if_true, Except.ok.injEq] at hd
            rw [← hd] at e1 e2
            refine ⟨by rw [e1]; simp, .inr ⟨fun h => hs (endsWith_iff.2 h), t, e2, hcls t e2⟩⟩
          · simp only [bind, Except.bind, hs'] at hd
            injection hd with hd; rw [← hd] at e1; exact absurd e1 hcp
        | _ => injection hd with hd; rw [← hd] at e1; exact absurd e1 hcp

theorem asGroup_attrs {o : H5Obj} {g : Node} (h : o.asGroup = some g) : o.attrs? = some g.attrs := by
  cases o with
  | none => cases h
  | file f => simp only [H5Obj.asGroup, Option.some.injEq] at h; subst h; rfl
  | val v => cases h
  | node n =>
    cases n with
    | group m a k => simp only [H5Obj.asGroup, Option.some.injEq] at h; subst h; rfl
    | dataset m a d => cases h
    | datatype m a => cases h

theorem file_is_root {env : Env} {f f' : H5File} (hc : (catalog env f).res = .ok ()) {it : Item}
    (hit : it ∈ (catalog env f).log) (h : it.obj = .file f') : it = rootItem f := by
  have hcat := catalogued hc hit
  generalize it = x at hcat h
  cases hcat with
  | root => rfl
  | attr j h1 h2 h3 h4 => rw [attrItem_obj] at h; cases h
  | node h1 h2 => cases h

/-- The object of a group is the file or a group in it. -/
theorem asGroup_cases {env : Env} {f : H5File} (hc : (catalog env f).res = .ok ()) {it : Item}
    (hit : it ∈ (catalog env f).log) {g : Node} (hg : it.obj.asGroup = some g) :
    (it = rootItem f ∧ g = f.root) ∨ ∃ n a ks, g = .group n a ks ∧ it.obj = .node g := by
  cases hv : it.obj with
  | none => rw [hv] at hg; cases hg
  | val v => rw [hv] at hg; cases hg
  | file f' =>
    have := file_is_root hc hit hv
    subst this
    injection hg with hg
    exact .inl ⟨rfl, hg.symm⟩
  | node m =>
    rw [hv] at hg
    cases m with
    | group m a k => injection hg with hg; exact .inr ⟨m, a, k, hg.symm, by rw [hg]⟩
    | dataset m a d => cases hg
    | datatype m a => cases hg

mutual
theorem intact_members : (n : Node) → Intact n →
    AllNodes (fun m => ∀ kid ∈ groupKids (.node m), kid.2 ≠ none) n
  | .group n a kids, h => by
    rw [Intact] at h
    rw [AllNodes]
    exact intactKids_members kids h
  | .dataset n a d, _ => by rw [AllNodes]; simp [groupKids]
  | .datatype n a, _ => by rw [AllNodes]; simp [groupKids]
theorem intactKids_members : (ks : Kids) → IntactKids ks →
    (∀ kid ∈ ks.toList, kid.2 ≠ none) ∧
      AllKids (fun m => ∀ kid ∈ groupKids (.node m), kid.2 ≠ none) ks
  | .nil, _ => by rw [AllKids]; simp [Kids.toList]
  | .cons l k n rest, h => by
    rw [IntactKids] at h
    rw [AllKids]
    have hr := intactKids_members rest h.2
    refine ⟨?_, intact_members n h.1, hr.2⟩
    intro kid hk
    rw [Kids.toList, List.mem_cons] at hk
    rcases hk with rfl | hk
    · simp
    · exact hr.1 kid hk
  | .broken l k rest, h => by rw [IntactKids] at h; exact h.elim
end

theorem address_of_mem {env : Env} {mgr : Manager} {mins : Dict (Str × Str) Int} {f : H5File}
    {it : Item} (hit : it ∈ (catalog env f).log) :
    ∃ x, Dict.get? (mkCtx env mgr mins f).addresses it.addr = some x := by
  have : it.addr ∈ Dict.keys (addressTable (catalog env f).log) :=
    (keys_addressTable _ _).2 ⟨it, hit, rfl⟩
  cases h : Dict.get? (addressTable (catalog env f).log) it.addr with
  | none => exact absurd this (Dict.get?_eq_none.1 h)
  | some x => exact ⟨x, h⟩

theorem groupAttributes_ok_iff {env : Env} {mgr : Manager} {mins : Dict (Str × Str) Int}
    {f : H5File} (hc : (catalog env f).res = .ok ()) {it : Item} (hit : it ∈ (catalog env f).log)
    {g : Node} (hg : it.obj.asGroup = some g) (hn : it.classpath ≠ nonNeXus) (d : ClassDef) :
    (groupAttributes (mkCtx env mgr mins f) it d).res = .ok () ↔ ∀ ka ∈ g.attrs,
      classReadable env (some ka.2) ∧
      (∀ spec, Dict.get? d.attrs ka.1 = some spec →
        spec.enums ≠ [] ∨ PointsInside it.classpath ka.1 → ∃ s, TextOf env ka.2 s) ∧
      (ka.1 = s%"target" → Dict.get? d.attrs ka.1 = none) := by
  have hattrs : it.obj.attrs? = some g.attrs := asGroup_attrs hg
  have ha := (catalogued_group hc hit hg).1
  generalize g.name = a at ha
  have one : ∀ ka ∈ g.attrs, (groupAttrCheck (mkCtx env mgr mins f) it d ka).res = .ok () ↔
      classReadable env (some ka.2) ∧
      (∀ spec, Dict.get? d.attrs ka.1 = some spec →
        spec.enums ≠ [] ∨ PointsInside it.classpath ka.1 → ∃ s, TextOf env ka.2 s) ∧
      (ka.1 = s%"target" → Dict.get? d.attrs ka.1 = none) := by
    intro ka hka
    obtain ⟨j, hj⟩ := attrs_catalogued hc hit hattrs hka
    obtain ⟨x, hx⟩ := address_of_mem (mgr := mgr) (mins := mins) hj
    have hx' : Dict.get? (mkCtx env mgr mins f).addresses (some (a ++ s%"@" ++ ka.1)) = some x := by
      rw [← hx]
      simp [attrItem, hn, ha]
    exact groupAttrCheck_ok_iff ha hg hx'
  rw [groupAttributes, hattrs]
  simp only []
  rw [W.forEach_ok_iff]
  have hs : ∀ ka, ka ∈ sortAttrs g.attrs ↔ ka ∈ g.attrs := fun ka => (sortBy_perm g.attrs).mem_iff
  exact ⟨fun h ka hka => (one ka hka).1 (h ka ((hs ka).2 hka)),
    fun h ka hka => (one ka ((hs ka).1 hka)).2 (h ka ((hs ka).1 hka))⟩

theorem groupChildren_ok {env : Env} {mgr : Manager} {mins : Dict (Str × Str) Int}
    {f : H5File} (hc : (catalog env f).res = .ok ()) {it : Item} (hit : it ∈ (catalog env f).log)
    {g : Node} (hg : it.obj.asGroup = some g) (d : ClassDef) :
    (groupChildren (mkCtx env mgr mins f) it d).res = .ok () := by
  rw [groupChildren, W.forEach_ok_iff]
  intro kid hk
  have hsome : kid.2 ≠ none := by
    have hi := intactKids_members f.kids (catalog_intact hc)
    rcases asGroup_cases hc hit hg with ⟨rfl, rfl⟩ | ⟨m, a, ks, rfl, hv⟩
    · exact hi.1 kid hk
    · rw [hv] at hk; exact catalog_all hc hi.2 hit hv kid hk
  obtain ⟨n, hn⟩ := Option.ne_none_iff_exists'.1 hsome
  have hmem : n ∈ members g := by
    rcases asGroup_cases hc hit hg with ⟨rfl, rfl⟩ | ⟨m, a, ks, rfl, hv⟩
    · exact List.mem_filterMap.2 ⟨kid, hk, hn⟩
    · rw [hv] at hk; exact List.mem_filterMap.2 ⟨kid, hk, hn⟩
  obtain ⟨sub, hs, _, hsa⟩ := member_catalogued hc hit hg hmem
  obtain ⟨x, hx⟩ := address_of_mem (mgr := mgr) (mins := mins) hs
  rw [hsa] at hx
  unfold childCheck
  simp only [hn, hx]
  cases n <;> rfl

/-- Step 2 for one group of the catalogue. -/
theorem validateGroup_ok_iff {env : Env} {mgr : Manager} {mins : Dict (Str × Str) Int}
    {f : H5File} (hc : (catalog env f).res = .ok ()) (hw : WellNamedFile f) {it : Item}
    (hit : it ∈ (catalog env f).log) {g : Node} (hg : it.obj.asGroup = some g) :
    (validateGroup (mkCtx env mgr mins f) it).res = .ok () ↔
      (it.classpath ≠ nonNeXus → (∀ p, it.parent = some p → ¬ s%"/" <:+ p.classpath) ∧
        ∀ c d, GroupClass env it.classpath g.attrs c → Dict.get? mgr.classes c = some d →
          GroupCheckable env it.classpath g.attrs d) := by
  unfold validateGroup
  by_cases hn : it.classpath = nonNeXus
  · rw [if_pos hn]
    simp [hn]
    rfl
  rw [if_neg hn]
  simp only [ne_eq, hn, not_false_eq_true, true_implies]
  -- the rest of the check, once the class is known
  have rest : ∀ c, ((nxClassAttribute (mkCtx env mgr mins f) it c >>= fun _ =>
      match Dict.get? (mkCtx env mgr mins f).mgr.classes c with
      | none => record it s%"NeXus base class" .error (s%"unknown NeXus base class: " ++ c)
      | some cls => do
        groupAttributes (mkCtx env mgr mins f) it cls
        groupChildren (mkCtx env mgr mins f) it cls
        baseItems (mkCtx env mgr mins f) it c cls
        record it s%"NeXus base class" .todo (c ++ s%": more validations needed")) :
          W Eff Unit).res = .ok () ↔
      ∀ d, Dict.get? mgr.classes c = some d → GroupCheckable env it.classpath g.attrs d := by
    intro c
    cases hd : Dict.get? mgr.classes c with
    | none =>
      have hd' : Dict.get? (mkCtx env mgr mins f).mgr.classes c = none := hd
      simp only [nxClassAttribute, hd']
      simp
      rfl
    | some d =>
      have hd' : Dict.get? (mkCtx env mgr mins f).mgr.classes c = some d := hd
      rw [unit_bind_ok_iff, nxClassAttribute_ok_iff hd', hd']
      simp only []
      rw [unit_bind_ok_iff, unit_bind_ok_iff, unit_bind_ok_iff, groupAttributes_ok_iff hc hit hg hn]
      have hgc := groupChildren_ok (mgr := mgr) (mins := mins) hc hit hg d
      rw [baseItems_ok_iff (catalogued_group hc hit hg).1 hg]
      constructor
      · rintro ⟨h1, h2, _, h3, _⟩ d' hd''
        injection hd'' with hd''
        subst hd''
        exact ⟨h1, fun ka hk => (h2 ka hk).1, fun ka hk => (h2 ka hk).2.1,
          fun ka hk => (h2 ka hk).2.2, h3⟩
      · intro h
        have h := h d rfl
        exact ⟨h.single, fun ka hk => ⟨h.decode ka hk, h.text ka hk, h.target ka hk⟩, hgc,
          h.occurs, rfl⟩
  have hpath := catalog_groupPath hc hit (g := g) hg
  rcases asGroup_cases hc hit hg with ⟨rfl, rfl⟩ | ⟨m, a, ks, rfl, hv⟩
  · -- the root
    have hroot : (rootItem f).classpath = [] := rfl
    have hp : (rootItem f).parent = none := rfl
    have : ¬ startsWith (rootItem f).classpath s%"/NX" = true := by rw [hroot]; decide
    rw [if_neg this, if_pos hroot, W.lift_ok_bind]
    refine (rest _).trans ?_
    constructor
    · intro h
      refine ⟨fun p h' => (by rw [hp] at h'; cases h'), fun c d hcl hd => ?_⟩
      rcases hcl with ⟨_, rfl⟩ | ⟨h', _⟩
      · exact h d hd
      · exact absurd hroot h'
    · rintro ⟨_, h⟩ d hd
      exact h _ d (.inl ⟨hroot, rfl⟩) hd
  · obtain ⟨p, hp, hroot, h⟩ := group_class hc hw hit hv hn
    have hs : startsWith it.classpath s%"/NX" = true := by
      rcases hpath with h | h | h
      · exact absurd h hn
      · exact absurd h hroot
      · exact startsWith_iff.2 h
    rw [if_pos hs, hp]
    rcases h with ⟨h1, h2⟩ | ⟨h1, c, h2, h3⟩
    · rw [h2]
      simp [h1]
    · simp only [h2, W.lift_ok_bind]
      refine (rest _).trans ?_
      constructor
      · intro h
        refine ⟨fun p' h' => by injection h' with h'; rw [← h']; exact h1, fun c' d hcl hd => ?_⟩
        rcases hcl with ⟨h', _⟩ | ⟨_, h'⟩
        · exact absurd h' hroot
        · rw [show nxClassOf env a = some c' from h'] at h3
          injection h3 with h3
          exact h d (h3 ▸ hd)
      · rintro ⟨_, h⟩ d hd
        exact h c d (.inr ⟨hroot, h3⟩) hd

/-- Step 2 raises no exception exactly if all NeXus groups can be compared with their
definitions. -/
theorem groups_completes_iff {env : Env} {mgr : Manager} {mins : Dict (Str × Str) Int} {f : H5File}
    (hc : (catalog env f).res = .ok ()) (hw : WellNamedFile f) :
    (step2 (mkCtx env mgr mins f)).res = .ok () ↔
      GroupsCheckable env mgr.classes (catalog env f).log := by
  have hgroup : ∀ it : Item, (isHdf5Group it.obj || isHdf5File it.obj) = true ↔
      ∃ g, it.obj.asGroup = some g := by
    intro it
    cases it.obj with
    | none => simp [isHdf5Group, isHdf5File, H5Obj.asGroup]
    | val v => simp [isHdf5Group, isHdf5File, H5Obj.asGroup]
    | file f' => simp [isHdf5Group, isHdf5File, H5Obj.asGroup]
    | node m => cases m <;> simp [isHdf5Group, isHdf5File, H5Obj.asGroup]
  have hadr : ∀ it g, it.obj.asGroup = some g →
      (it ∈ Dict.values (mkCtx env mgr mins f).addresses ↔ it ∈ (catalog env f).log) := by
    intro it g hg
    have hb : it.isGroup = true := (Item.isGroup_iff).2 ⟨g, hg⟩
    have := addressed_groups hc hw
    have e : ∀ l : List Item, it ∈ l ↔ it ∈ l.filter Item.isGroup := by
      intro l; rw [List.mem_filter]; simp [hb]
    rw [e, e (catalog env f).log, ← this]
    rfl
  rw [step2, W.forEach_ok_iff]
  constructor
  · intro h it hit g hg
    have := h it ((hadr it g hg).2 hit)
    rw [if_pos ((hgroup it).2 ⟨g, hg⟩)] at this
    exact (validateGroup_ok_iff hc hw hit hg).1 this
  · intro h it hit
    by_cases hg : ∃ g, it.obj.asGroup = some g
    · obtain ⟨g, hg⟩ := hg
      rw [if_pos ((hgroup it).2 ⟨g, hg⟩)]
      have hit := (hadr it g hg).1 hit
      exact (validateGroup_ok_iff hc hw hit hg).2 (h it hit g hg)
    · rw [if_neg (fun h => hg ((hgroup it).1 h))]
      rfl

end Punx

import Verif.Model.Validator
import Verif.Lemmas.Basic

/-! Auxiliary lemmas about the catalogue: the items emitted by a successful run as a
plain function of the tree. -/

namespace Punx

/-- The item of attribute `ka` of the object `v`. -/
def attrItem (v : Item) (j : Nat) (ka : Str × Val) : Item :=
  if v.classpath = nonNeXus then
    ⟨⟨(2 * j + 1) :: v.oid, .val ka.2, ka.1, none, nonNeXus, none⟩, v.chain⟩
  else
    ⟨⟨(2 * j + 1) :: v.oid, .val ka.2, ka.1, some ((v.addr.getD s%"None") ++ '@' :: ka.1),
      v.classpath ++ '@' :: ka.1, none⟩, v.chain⟩

/-- The items of the attributes of `v`. -/
def attrItemsOf (v : Item) (j : Nat) : List (Str × Val) → List Item
  | [] => []
  | ka :: rest => attrItem v j ka :: attrItemsOf v (j + 1) rest

theorem mkItem_attr (env : Env) (v : Item) (j : Nat) (k : Str) (a : Val) :
    mkItem env (some v) (.val a) (some k) ((2 * j + 1) :: v.oid) = .ok (attrItem v j (k, a)) := by
  simp only [mkItem, H5Obj.name?, attrItem]
  by_cases h : v.classpath = nonNeXus <;> simp [h]

theorem attrItems_eq (env : Env) (v : Item) (j : Nat) (l : List (Str × Val)) :
    attrItems env v j l = ⟨attrItemsOf v j l, .ok (attrItemsOf v j l)⟩ := by
  induction l generalizing j with
  | nil => rfl
  | cons ka rest ih =>
    obtain ⟨k, a⟩ := ka
    rw [attrItems, mkItem_attr, ih]
    simp [W.bind_def, W.bind, W.lift, W.tell, W.pure_def, attrItemsOf]

/-- Class path and class of an item for an object, as far as they can be computed. -/
def cpOf (env : Env) (parent : Option Item) (obj : H5Obj) (n : Str) : Str × Option Str :=
  (determineClasspath env parent (isHdf5Group obj) (objName n) (obj.attrs?.getD [])).toOption.getD
    ([], none)

/-- The item of an object. -/
def objItem (env : Env) (parent : Option Item) (obj : H5Obj) (n : Str) (oid : List Nat) : Item :=
  ⟨⟨oid, obj, objName n, some n, (cpOf env parent obj n).1, (cpOf env parent obj n).2⟩,
    (parent.map Item.chain).getD []⟩

theorem mkItem_ok {env : Env} {parent : Option Item} {obj : H5Obj} {n : Str} {oid : List Nat}
    {it : Item} (hn : obj.name? = some n) (h : mkItem env parent obj none oid = .ok it) :
    it = objItem env parent obj n oid ∧
    determineClasspath env parent (isHdf5Group obj) (objName n) (obj.attrs?.getD []) =
      .ok (cpOf env parent obj n) ∧
    objectTypeCheck env obj = .ok () := by
  simp only [mkItem, hn] at h
  cases hd : determineClasspath env parent (isHdf5Group obj) (objName n) (obj.attrs?.getD []) with
  | error e => rw [hd] at h; exact absurd h (by intro h; cases h)
  | ok r =>
    rw [hd] at h
    cases ht : objectTypeCheck env obj with
    | error e => rw [ht] at h; exact absurd h (by intro h; cases h)
    | ok u =>
      rw [ht] at h
      injection h with h
      have : cpOf env parent obj n = r := by simp [cpOf, hd]; rfl
      refine ⟨?_, by rw [this], rfl⟩
      rw [objItem, this, ← h]

theorem mkItem_of_ok {env : Env} {parent : Option Item} {obj : H5Obj} {n : Str} {oid : List Nat}
    (hn : obj.name? = some n)
    (hd : determineClasspath env parent (isHdf5Group obj) (objName n) (obj.attrs?.getD []) =
      .ok (cpOf env parent obj n))
    (ht : objectTypeCheck env obj = .ok ()) :
    mkItem env parent obj none oid = .ok (objItem env parent obj n oid) := by
  simp only [mkItem, hn, hd, ht]
  rfl

theorem getSubject_eq (env : Env) (parent : Option Item) (obj : H5Obj) (attrs : List (Str × Val))
    (oid : List Nat) :
    getSubject env parent obj attrs oid =
      match mkItem env parent obj none oid with
      | .error e => W.fail e
      | .ok v => ⟨v :: attrItemsOf v 0 (sortAttrs attrs), .ok (v, attrItemsOf v 0 (sortAttrs attrs))⟩ := by
  rw [getSubject]
  cases h : mkItem env parent obj none oid with
  | error e => rfl
  | ok v =>
    simp [W.bind_def, W.bind, W.lift, W.tell, W.pure_def, attrItems_eq]

theorem attrItem_classpath (v : Item) (j : Nat) (ka : Str × Val) :
    (attrItem v j ka).classpath = v.classpath ↔ v.classpath = nonNeXus := by
  rw [attrItem]
  split
  · rename_i h; simp [h]
  · rename_i h
    simp only [h, iff_false]
    intro e
    have := congrArg List.length e
    simp at this

theorem mem_attrItemsOf {v it : Item} {j : Nat} {l : List (Str × Val)}
    (h : it ∈ attrItemsOf v j l) : ∃ i ka, ka ∈ l ∧ j ≤ i ∧ i < j + l.length ∧ it = attrItem v i ka := by
  induction l generalizing j with
  | nil => simp [attrItemsOf] at h
  | cons ka rest ih =>
    rw [attrItemsOf] at h
    rcases List.mem_cons.1 h with rfl | h
    · exact ⟨j, ka, by simp, le_refl _, by simp, rfl⟩
    · obtain ⟨i, ka', h1, h2, h3, h4⟩ := ih h
      exact ⟨i, ka', by simp [h1], by omega, by simp; omega, h4⟩

/-- The item that members of the group `v` get as parent. -/
def parentFor (v : Item) (attrs : List (Str × Val)) : Item :=
  childParent v (attrItemsOf v 0 (sortAttrs attrs))

theorem parentFor_of_nexus {v : Item} (h : v.classpath ≠ nonNeXus) (attrs : List (Str × Val)) :
    parentFor v attrs = v := by
  have : (attrItemsOf v 0 (sortAttrs attrs)).filter (fun a => a.classpath = v.classpath) = [] := by
    rw [List.filter_eq_nil_iff]
    intro a ha
    obtain ⟨i, ka, _, _, _, rfl⟩ := mem_attrItemsOf ha
    simp [attrItem_classpath, h]
  rw [parentFor, childParent, this]
  rfl

theorem parentFor_nil (v : Item) : parentFor v [] = v := rfl

theorem parentFor_of_nonNexus {v : Item} (h : v.classpath = nonNeXus) (attrs : List (Str × Val)) :
    parentFor v attrs = (attrItemsOf v 0 (sortAttrs attrs)).getLast?.getD v := by
  have : (attrItemsOf v 0 (sortAttrs attrs)).filter (fun a => a.classpath = v.classpath) =
      attrItemsOf v 0 (sortAttrs attrs) := by
    rw [List.filter_eq_self]
    intro a ha
    obtain ⟨i, ka, _, _, _, rfl⟩ := mem_attrItemsOf ha
    simp [(attrItem_classpath v i ka).2 h]
  rw [parentFor, childParent, this]

theorem parentFor_classpath (v : Item) (attrs : List (Str × Val)) :
    (parentFor v attrs).classpath = v.classpath := by
  by_cases h : v.classpath = nonNeXus
  · rw [parentFor_of_nonNexus h]
    cases hl : (attrItemsOf v 0 (sortAttrs attrs)).getLast? with
    | none => rfl
    | some a =>
      obtain ⟨i, ka, _, _, _, e⟩ := mem_attrItemsOf (List.mem_of_getLast? hl)
      show a.classpath = _
      rw [e, (attrItem_classpath v i ka).2 h]
  · rw [parentFor_of_nexus h]

mutual
/-- Items emitted for one member of a group. -/
def nodeItems (env : Env) (parent : Item) (oid : List Nat) : Node → List Item
  | .group n a kids =>
    let v := objItem env (some parent) (.node (.group n a kids)) n oid
    v :: attrItemsOf v 0 (sortAttrs a) ++ kidsItems env (parentFor v a) oid 0 kids
  | .dataset n a d =>
    let v := objItem env (some parent) (.node (.dataset n a d)) n oid
    v :: attrItemsOf v 0 (sortAttrs a)
  | .datatype n a =>
    let v := objItem env (some parent) (.node (.datatype n a)) n oid
    v :: attrItemsOf v 0 (sortAttrs a)
/-- Items emitted for the members of a group. -/
def kidsItems (env : Env) (parent : Item) (oid : List Nat) : Nat → Kids → List Item
  | _, .nil => []
  | i, .cons _ _ n rest =>
    nodeItems env parent ((2 * i + 2) :: oid) n ++ kidsItems env parent oid (i + 1) rest
  | _, .broken _ _ _ => []
end

/-- The item of the root of a file. -/
def rootItem (f : H5File) : Item := ⟨⟨[], .file f, s%"/", some s%"/", [], none⟩, []⟩

/-- Items of a whole file. -/
def fileItems (env : Env) (f : H5File) : List Item :=
  rootItem f :: attrItemsOf (rootItem f) 0 (sortAttrs f.attrs) ++
    kidsItems env (rootItem f) [] 0 f.kids

theorem getSubject_ok {env : Env} {parent : Option Item} {obj : H5Obj} {n : Str}
    {attrs : List (Str × Val)} {oid : List Nat} {r : Item × List Item} (hn : obj.name? = some n)
    (h : (getSubject env parent obj attrs oid).res = .ok r) :
    r = (objItem env parent obj n oid,
      attrItemsOf (objItem env parent obj n oid) 0 (sortAttrs attrs)) ∧
    (getSubject env parent obj attrs oid).log = objItem env parent obj n oid ::
      attrItemsOf (objItem env parent obj n oid) 0 (sortAttrs attrs) ∧
    mkItem env parent obj none oid = .ok (objItem env parent obj n oid) := by
  rw [getSubject_eq] at h ⊢
  cases hm : mkItem env parent obj none oid with
  | error e => rw [hm] at h; simp at h
  | ok v =>
    rw [hm] at h
    obtain ⟨e, _, _⟩ := mkItem_ok hn hm
    subst e
    simp only [Except.ok.injEq] at h
    exact ⟨h.symm, rfl, rfl⟩

mutual
theorem catalogNode_log (env : Env) (parent : Item) (oid : List Nat) : (n : Node) →
    (catalogNode env parent oid n).res = .ok () →
    (catalogNode env parent oid n).log = nodeItems env parent oid n
  | .group n a kids, h => by
    rw [catalogNode, W.bind_ok_iff] at h
    obtain ⟨⟨v, avs⟩, h1, h2⟩ := h
    obtain ⟨e1, e2, _⟩ := getSubject_ok rfl h1
    simp only [Prod.mk.injEq] at e1
    obtain ⟨rfl, rfl⟩ := e1
    rw [catalogNode, W.bind_log_of_ok h1, e2, nodeItems, catalogKids_log env _ oid 0 kids h2]
    rfl
  | .dataset n a d, h => by
    rw [catalogNode, W.bind_ok_iff] at h
    obtain ⟨r, h1, _⟩ := h
    obtain ⟨_, e2, _⟩ := getSubject_ok rfl h1
    rw [catalogNode, W.bind_log_of_ok h1, e2, nodeItems, W.pure_log, List.append_nil]
    rfl
  | .datatype n a, h => by
    rw [catalogNode, W.bind_ok_iff] at h
    obtain ⟨r, h1, _⟩ := h
    obtain ⟨_, e2, _⟩ := getSubject_ok rfl h1
    rw [catalogNode, W.bind_log_of_ok h1, e2, nodeItems, W.pure_log, List.append_nil]
    rfl
theorem catalogKids_log (env : Env) (parent : Item) (oid : List Nat) (i : Nat) : (ks : Kids) →
    (catalogKids env parent oid i ks).res = .ok () →
    (catalogKids env parent oid i ks).log = kidsItems env parent oid i ks
  | .nil, _ => by rw [catalogKids, kidsItems]; rfl
  | .cons l k n rest, h => by
    rw [catalogKids, W.bind_ok_iff] at h
    obtain ⟨⟨⟩, h1, h2⟩ := h
    rw [catalogKids, W.bind_log_of_ok h1, kidsItems, catalogNode_log env _ _ n h1,
      catalogKids_log env _ _ (i + 1) rest h2]
  | .broken l k rest, h => by
    rw [catalogKids] at h; simp at h
end

theorem objItem_root (env : Env) (f : H5File) :
    objItem env none (.file f) s%"/" [] = rootItem f := by
  simp [objItem, rootItem, cpOf, determineClasspath, objName]
  exact ⟨rfl, rfl⟩

/-- A successful run emits exactly `fileItems`. -/
theorem catalog_log {env : Env} {f : H5File} (h : (catalog env f).res = .ok ()) :
    (catalog env f).log = fileItems env f := by
  rw [catalog, W.bind_ok_iff] at h
  obtain ⟨⟨v, avs⟩, h1, h2⟩ := h
  obtain ⟨e1, e2, _⟩ := getSubject_ok (n := s%"/") rfl h1
  simp only [Prod.mk.injEq] at e1
  obtain ⟨rfl, rfl⟩ := e1
  rw [catalog, W.bind_log_of_ok h1, e2, fileItems, catalogKids_log env _ [] 0 f.kids h2]
  rw [objItem_root]
  have : childParent (rootItem f) (attrItemsOf (rootItem f) 0 (sortAttrs f.attrs)) = rootItem f :=
    parentFor_of_nexus (v := rootItem f) (by show ([] : Str) ≠ nonNeXus; decide) f.attrs
  rw [this]

end Punx

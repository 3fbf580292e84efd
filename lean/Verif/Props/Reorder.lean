import Verif.Props.Expected3
import Verif.Spec.Reorder

/-!
# C107: the order of members and attributes
-/

namespace Punx
open Spec

/-! ## permutations up to a relation -/

/-- `l'` is a permutation of `l`, up to the relation. -/
def PermBy {α : Type} (R : α → α → Prop) (l l' : List α) : Prop :=
  ∃ m, l.Perm m ∧ List.Forall₂ R m l'

namespace PermBy
variable {α : Type} {R : α → α → Prop}

theorem of_forall₂ {l l' : List α} (h : List.Forall₂ R l l') : PermBy R l l' := ⟨l, .refl _, h⟩

theorem append {a b a' b' : List α} (h1 : PermBy R a a') (h2 : PermBy R b b') :
    PermBy R (a ++ b) (a' ++ b') := by
  obtain ⟨m1, p1, f1⟩ := h1
  obtain ⟨m2, p2, f2⟩ := h2
  exact ⟨m1 ++ m2, p1.append p2, List.rel_append f1 f2⟩

theorem cons {x y : α} {a b : List α} (h : R x y) (h2 : PermBy R a b) :
    PermBy R (x :: a) (y :: b) := by
  obtain ⟨m, p, f⟩ := h2
  exact ⟨x :: m, p.cons x, .cons h f⟩

theorem perm_left {a b c : List α} (h : a.Perm b) (h2 : PermBy R b c) : PermBy R a c := by
  obtain ⟨m, p, f⟩ := h2
  exact ⟨m, h.trans p, f⟩

theorem perm_right {a b c : List α} (h2 : PermBy R a b) (h : b.Perm c) : PermBy R a c := by
  obtain ⟨m, p, f⟩ := h2
  obtain ⟨k, h3, h4⟩ := List.perm_comp_forall₂ h.symm f.flip
  exact ⟨k, p.trans h4.symm, h3.flip⟩

theorem trans (hR : ∀ x y z, R x y → R y z → R x z) {a b c : List α} (h1 : PermBy R a b)
    (h2 : PermBy R b c) : PermBy R a c := by
  obtain ⟨m, p, f⟩ := h2
  obtain ⟨k, p1, f1⟩ := perm_right h1 p
  refine ⟨k, p1, ?_⟩
  clear p p1 h1
  induction f1 generalizing c with
  | nil => cases f; exact .nil
  | cons h _ ih => cases f with
    | cons h' f' => exact .cons (hR _ _ _ h h') (ih f')

theorem mem {a b : List α} (h : PermBy R a b) {x : α} (hx : x ∈ a) : ∃ y ∈ b, R x y := by
  obtain ⟨m, p, f⟩ := h
  obtain ⟨i, hi, rfl⟩ := List.getElem_of_mem (p.mem_iff.1 hx)
  exact ⟨b[i]'(f.length_eq ▸ hi), List.getElem_mem _, List.forall₂_iff_get.1 f |>.2 i hi _⟩

theorem length {a b : List α} (h : PermBy R a b) : a.length = b.length := by
  obtain ⟨m, p, f⟩ := h
  exact p.length_eq.trans f.length_eq

theorem filter {P Q : α → Bool} (hPQ : ∀ x y, R x y → P x = Q y) {a b : List α} (h : PermBy R a b) :
    PermBy R (a.filter P) (b.filter Q) := by
  obtain ⟨m, p, f⟩ := h
  refine ⟨m.filter P, p.filter P, ?_⟩
  clear p
  induction f with
  | nil => exact .nil
  | cons hxy _ ih =>
    rw [List.filter_cons, List.filter_cons, hPQ _ _ hxy]
    split
    · exact .cons hxy ih
    · exact ih

theorem map {β : Type} {g : α → β} (hg : ∀ x y, R x y → g x = g y) {a b : List α}
    (h : PermBy R a b) : (a.map g).Perm (b.map g) := by
  obtain ⟨m, p, f⟩ := h
  refine (p.map g).trans ?_
  have : m.map g = b.map g := by
    clear p
    induction f with
    | nil => rfl
    | cons hxy _ ih => rw [List.map_cons, List.map_cons, hg _ _ hxy, ih]
  rw [this]

theorem symm {S : α → α → Prop} (hRS : ∀ x y, R x y → S y x) {a b : List α} (h : PermBy R a b) :
    PermBy S b a := by
  obtain ⟨m, p, f⟩ := h
  exact (of_forall₂ (R := S) (f.imp hRS).flip).perm_right p.symm

end PermBy

/-! ## objects -/

theorem linkTo_toList (l : Str) (k : LinkKind) (o : Option Node) (r : Kids) :
    (linkTo l k o r).toList = (l, o) :: r.toList := by
  cases o <;> rfl

mutual
theorem Spec.SameNode.refl : (n : Node) → SameNode n n
  | .dataset .. => .dataset (.refl _)
  | .datatype .. => .datatype (.refl _)
  | .group _ _ ks => .group (.refl _) (Spec.SameKids.refl ks)
theorem Spec.SameKids.refl : (ks : Kids) → SameKids ks ks
  | .nil => .nil
  | .cons _ _ n r => .cons (Spec.SameNode.refl n) (Spec.SameKids.refl r)
  | .broken _ _ r => .broken (Spec.SameKids.refl r)
end

mutual
theorem Spec.SameNode.symm : {n n' : Node} → SameNode n n' → SameNode n' n
  | _, _, .dataset h => .dataset h.symm
  | _, _, .datatype h => .datatype h.symm
  | _, _, .group h k => .group h.symm (Spec.SameKids.symm k)
theorem Spec.SameKids.symm : {ks ks' : Kids} → SameKids ks ks' → SameKids ks' ks
  | _, _, .nil => .nil
  | _, _, .cons h k => .cons (Spec.SameNode.symm h) (Spec.SameKids.symm k)
  | _, _, .broken k => .broken (Spec.SameKids.symm k)
  | _, _, .swap => .swap
  | _, _, .trans h k => .trans (Spec.SameKids.symm k) (Spec.SameKids.symm h)
end

theorem Spec.SameNode.trans {a b c : Node} (h : SameNode a b) (k : SameNode b c) : SameNode a c := by
  cases h with
  | dataset h => cases k with
    | dataset k => exact .dataset (h.trans k)
  | datatype h => cases k with
    | datatype k => exact .datatype (h.trans k)
  | group h h2 => cases k with
    | group k k2 => exact .group (h.trans k) (.trans h2 k2)

/-- Related members, if both links lead somewhere. -/
def SameLink (x y : Str × Option Node) : Prop := x.1 = y.1 ∧ Option.Rel SameNode x.2 y.2

theorem SameLink.refl (x : Str × Option Node) : SameLink x x :=
  ⟨rfl, by cases x.2 with
    | none => exact .none
    | some n => exact .some (Spec.SameNode.refl n)⟩

theorem SameLink.trans {x y z : Str × Option Node} (h : SameLink x y) (k : SameLink y z) :
    SameLink x z := by
  obtain ⟨h1, h2⟩ := h
  obtain ⟨k1, k2⟩ := k
  refine ⟨h1.trans k1, ?_⟩
  generalize x.2 = a at *
  generalize y.2 = b at *
  generalize z.2 = c at *
  cases h2 with
  | none => cases k2; exact .none
  | some h2 => cases k2 with
    | some k2 => exact .some (h2.trans k2)

theorem Spec.SameKids.links {ks ks' : Kids} (h : SameKids ks ks') :
    PermBy SameLink ks.toList ks'.toList := by
  match h with
  | .nil => exact .of_forall₂ .nil
  | .cons h k => exact .cons ⟨rfl, .some h⟩ (Spec.SameKids.links k)
  | .broken k => exact .cons ⟨rfl, .none⟩ (Spec.SameKids.links k)
  | .swap =>
    rw [linkTo_toList, linkTo_toList, linkTo_toList, linkTo_toList]
    exact .perm_left (.swap _ _ _) (.of_forall₂ (List.forall₂_same.2 fun x _ => SameLink.refl x))
  | .trans h k => exact PermBy.trans (R := SameLink) (fun _ _ _ h k => h.trans k) (Spec.SameKids.links h) (Spec.SameKids.links k)

theorem Spec.SameKids.names {ks ks' : Kids} (h : SameKids ks ks') :
    (ks.toList.map (·.1)).Perm (ks'.toList.map (·.1)) :=
  h.links.map fun _ _ h => h.1

mutual
/-- The members of a group and the attributes of an object have different names. -/
def Distinct : Node → Prop
  | .group _ a kids => (a.map (·.1)).Nodup ∧ (kids.toList.map (·.1)).Nodup ∧ DistinctKids kids
  | .dataset _ a _ => (a.map (·.1)).Nodup
  | .datatype _ a => (a.map (·.1)).Nodup
def DistinctKids : Kids → Prop
  | .nil => True
  | .cons _ _ n rest => Distinct n ∧ DistinctKids rest
  | .broken _ _ rest => DistinctKids rest
end

mutual
theorem Spec.WellNamed.distinct {p : Str} : (n : Node) → WellNamed p n → Distinct n
  | .group .., h => by
    rw [WellNamed] at h
    rw [Distinct]
    exact ⟨h.2.1, h.2.2.1, Spec.WellNamedKids.distinct _ h.2.2.2⟩
  | .dataset .., h => by rw [WellNamed] at h; rw [Distinct]; exact h.2
  | .datatype .., h => by rw [WellNamed] at h; rw [Distinct]; exact h.2
theorem Spec.WellNamedKids.distinct {p : Str} : (ks : Kids) → WellNamedKids p ks → DistinctKids ks
  | .nil, _ => by rw [DistinctKids]; trivial
  | .cons .., h => by
    rw [WellNamedKids] at h
    rw [DistinctKids]
    exact ⟨Spec.WellNamed.distinct _ h.2.2.2.1, Spec.WellNamedKids.distinct _ h.2.2.2.2⟩
  | .broken .., h => by
    rw [WellNamedKids] at h
    rw [DistinctKids]
    exact Spec.WellNamedKids.distinct _ h
end

theorem distinctKids_linkTo {l : Str} {k : LinkKind} {o : Option Node} {r : Kids} :
    DistinctKids (linkTo l k o r) ↔ (∀ n, o = some n → Distinct n) ∧ DistinctKids r := by
  cases o with
  | none => simp [linkTo, DistinctKids]
  | some n => simp [linkTo, DistinctKids]

mutual
theorem Spec.SameNode.distinct : {n n' : Node} → SameNode n n' → Distinct n → Distinct n'
  | _, _, .dataset h, d => by
    rw [Distinct] at d ⊢
    exact (h.map _).nodup_iff.1 d
  | _, _, .datatype h, d => by
    rw [Distinct] at d ⊢
    exact (h.map _).nodup_iff.1 d
  | _, _, .group h k, d => by
    rw [Distinct] at d ⊢
    exact ⟨(h.map _).nodup_iff.1 d.1, k.names.nodup_iff.1 d.2.1, Spec.SameKids.distinct k d.2.2⟩
theorem Spec.SameKids.distinct : {ks ks' : Kids} → SameKids ks ks' → DistinctKids ks → DistinctKids ks'
  | _, _, .nil, d => d
  | _, _, .cons h k, d => by
    rw [DistinctKids] at d ⊢
    exact ⟨Spec.SameNode.distinct h d.1, Spec.SameKids.distinct k d.2⟩
  | _, _, .broken k, d => by
    rw [DistinctKids] at d ⊢
    exact Spec.SameKids.distinct k d
  | _, _, .swap, d => by
    rw [distinctKids_linkTo, distinctKids_linkTo] at d ⊢
    exact ⟨d.2.1, d.1, d.2.2⟩
  | _, _, .trans h k, d => Spec.SameKids.distinct k (Spec.SameKids.distinct h d)
end

/-- Objects that differ in the order of members and attributes only, all with different names. -/
structure Like (n n' : Node) : Prop where
  same : SameNode n n'
  distinct : Distinct n

theorem Like.refl {n : Node} (h : Distinct n) : Like n n := ⟨Spec.SameNode.refl n, h⟩

theorem Like.symm {n n' : Node} (h : Like n n') : Like n' n := ⟨h.same.symm, h.same.distinct h.distinct⟩

theorem Like.trans {a b c : Node} (h : Like a b) (k : Like b c) : Like a c :=
  ⟨h.same.trans k.same, h.distinct⟩

theorem Like.name {n n' : Node} (h : Like n n') : n.name = n'.name := by
  cases h.same <;> rfl

theorem Like.attrs {n n' : Node} (h : Like n n') : n.attrs.Perm n'.attrs := by
  cases h.same with
  | dataset k => exact k
  | datatype k => exact k
  | group k _ => exact k

theorem Distinct.attrs {n : Node} (h : Distinct n) : (n.attrs.map (·.1)).Nodup := by
  cases n with
  | group => rw [Distinct] at h; exact h.1
  | dataset => rw [Distinct] at h; exact h
  | datatype => rw [Distinct] at h; exact h

theorem eq_of_fst {α : Type} {l : List (Str × α)} (h : (l.map (·.1)).Nodup) {x y : Str × α}
    (hx : x ∈ l) (hy : y ∈ l) (e : x.1 = y.1) : x = y :=
  List.inj_on_of_nodup_map h hx hy e

theorem lookup_of_mem {α : Type} {l : List (Str × α)} (h : (l.map (·.1)).Nodup) {k : Str} {v : α}
    (hm : (k, v) ∈ l) : l.lookup k = some v := by
  induction l with
  | nil => cases hm
  | cons x l ih =>
    obtain ⟨a, b⟩ := x
    rw [List.map_cons, List.nodup_cons] at h
    rw [List.lookup_cons]
    rcases List.mem_cons.1 hm with e | hm
    · cases e; simp
    · have : k ≠ a := fun e => h.1 (List.mem_map.2 ⟨_, hm, e⟩)
      rw [beq_eq_false_iff_ne.2 this]
      exact ih h.2 hm

theorem mem_of_lookup {α : Type} {l : List (Str × α)} {k : Str} {v : α}
    (h : l.lookup k = some v) : (k, v) ∈ l := by
  induction l with
  | nil => cases h
  | cons x l ih =>
    obtain ⟨a, b⟩ := x
    rw [List.lookup_cons] at h
    split at h
    · rename_i e
      rw [beq_iff_eq] at e
      cases h; subst e; simp
    · exact List.mem_cons_of_mem _ (ih h)

theorem lookup_none_iff {α : Type} {l : List (Str × α)} {k : Str} :
    l.lookup k = none ↔ ∀ v, (k, v) ∉ l := by
  constructor
  · intro h v hv
    induction l with
    | nil => cases hv
    | cons x l ih =>
      obtain ⟨a, b⟩ := x
      rw [List.lookup_cons] at h
      split at h
      · cases h
      · rename_i e
        rcases List.mem_cons.1 hv with e' | hv
        · cases e'; simp at e
        · exact ih h hv
  · intro h
    cases e : l.lookup k with
    | none => rfl
    | some v => exact absurd (mem_of_lookup e) (h v)

theorem lookup_perm {α : Type} {a a' : List (Str × α)} (h : a.Perm a') (d : (a.map (·.1)).Nodup)
    (k : Str) : a.lookup k = a'.lookup k := by
  cases e : a.lookup k with
  | none =>
    exact (lookup_none_iff.2 fun v hv => lookup_none_iff.1 e v (h.mem_iff.2 hv)).symm
  | some v =>
    exact (lookup_of_mem ((h.map _).nodup_iff.1 d) (h.mem_iff.1 (mem_of_lookup e))).symm

theorem sortByName_perm {a a' : List (Str × Val)} (h : a.Perm a') (d : (a.map (·.1)).Nodup) :
    sortByName a = sortByName a' := by
  obtain ⟨p, s⟩ := sortByName_spec a
  obtain ⟨p', s'⟩ := sortByName_spec a'
  refine List.Perm.eq_of_pairwise (fun x y hx hy h1 h2 => ?_) s s' ((p.trans h).trans p'.symm)
  exact eq_of_fst d (p.mem_iff.1 hx) (h.mem_iff.2 (p'.mem_iff.1 hy)) (strLe_antisymm h1 h2)

theorem Like.lookup {n n' : Node} (h : Like n n') (k : Str) :
    n.attrs.lookup k = n'.attrs.lookup k := lookup_perm h.attrs h.distinct.attrs k

theorem Like.sorted {n n' : Node} (h : Like n n') : sortByName n.attrs = sortByName n'.attrs :=
  sortByName_perm h.attrs h.distinct.attrs

/-! ## items -/

/-- Objects of items that correspond to one another. -/
inductive LikeObj : H5Obj → H5Obj → Prop
  | file {f f' : H5File} : Like f.root f'.root → LikeObj (.file f) (.file f')
  | node {n n' : Node} : Like n n' → LikeObj (.node n) (.node n')
  | val {v : Val} : LikeObj (.val v) (.val v)
  | none : LikeObj .none .none

theorem LikeObj.symm {a b : H5Obj} (h : LikeObj a b) : LikeObj b a := by
  cases h with
  | file h => exact .file h.symm
  | node h => exact .node h.symm
  | val => exact .val
  | none => exact .none

theorem LikeObj.trans {a b c : H5Obj} (h : LikeObj a b) (k : LikeObj b c) : LikeObj a c := by
  cases h with
  | file h => cases k with
    | file k => exact .file (h.trans k)
  | node h => cases k with
    | node k => exact .node (h.trans k)
  | val => exact k
  | none => exact k

/-- Items that correspond to one another, without their containers. -/
structure LikeCore (c c' : Core) : Prop where
  obj : LikeObj c.obj c'.obj
  name : c.name = c'.name
  addr : c.addr = c'.addr
  classpath : c.classpath = c'.classpath
  nxClass : c.nxClass = c'.nxClass
  there : ∀ n, c.obj = .node n → c.addr = some n.name

theorem LikeCore.symm {a b : Core} (h : LikeCore a b) : LikeCore b a :=
  ⟨h.obj.symm, h.name.symm, h.addr.symm, h.classpath.symm, h.nxClass.symm, fun n e => by
    have := h.obj
    rw [e] at this
    generalize ha : a.obj = o at this
    cases this with
    | node hn => rw [← h.addr, h.there _ ha, hn.name]⟩

theorem LikeCore.trans {a b c : Core} (h : LikeCore a b) (k : LikeCore b c) : LikeCore a c :=
  ⟨h.obj.trans k.obj, h.name.trans k.name, h.addr.trans k.addr, h.classpath.trans k.classpath,
    h.nxClass.trans k.nxClass, h.there⟩

/-- Items that correspond to one another. -/
structure LikeItem (it it' : Item) : Prop where
  core : LikeCore it.toCore it'.toCore
  ancestors : List.Forall₂ LikeCore it.ancestors it'.ancestors

theorem LikeItem.symm {a b : Item} (h : LikeItem a b) : LikeItem b a :=
  ⟨h.core.symm, (h.ancestors.imp fun _ _ => LikeCore.symm).flip⟩

theorem LikeItem.trans {a b c : Item} (h : LikeItem a b) (k : LikeItem b c) : LikeItem a c := by
  refine ⟨h.core.trans k.core, ?_⟩
  have h2 := h.ancestors
  have k2 := k.ancestors
  generalize a.ancestors = la at *
  generalize b.ancestors = lb at *
  generalize c.ancestors = lc at *
  induction h2 generalizing lc with
  | nil => cases k2; exact .nil
  | cons x _ ih => cases k2 with
    | cons y k2 => exact .cons (x.trans y) (ih _ k2)

theorem LikeItem.parent {it it' p : Item} (h : LikeItem it it') (e : it.parent = some p) :
    ∃ p', it'.parent = some p' ∧ LikeItem p p' := by
  have h2 := h.ancestors
  rw [Item.parent] at e ⊢
  generalize it.ancestors = l at *
  generalize it'.ancestors = l' at *
  cases h2 with
  | nil => cases e
  | cons x k => cases e; exact ⟨_, rfl, ⟨x, k⟩⟩

theorem nxClassOf_like {env : Env} {n n' : Node} (h : Like n n') :
    nxClassOf env n.attrs = nxClassOf env n'.attrs := by
  rw [nxClassOf, nxClassOf, h.lookup]

theorem memberItem_like {env : Env} {c c' : Item} (hc : LikeItem c c') {pos pos' : List Nat}
    {n n' : Node} (h : Like n n') : LikeItem (memberItem env c pos n) (memberItem env c' pos' n') := by
  have hx := nxClassOf_like (env := env) h
  refine ⟨⟨.node h, ?_, ?_, ?_, ?_, ?_⟩, .cons hc.core hc.ancestors⟩
  · show baseName n.name = baseName n'.name
    rw [h.name]
  · show some n.name = some n'.name
    rw [h.name]
  · show classpathIn env c.classpath n = classpathIn env c'.classpath n'
    rw [hc.core.classpath]
    cases h.same with
    | dataset => rfl
    | datatype => rfl
    | group => rw [classpathIn, classpathIn]; simp only [Node.attrs] at hx; rw [hx]
  · show classIn env c.classpath n = classIn env c'.classpath n'
    rw [hc.core.classpath]
    cases h.same with
    | dataset => rfl
    | datatype => rfl
    | group => rw [classIn, classIn]; simp only [Node.attrs] at hx; rw [hx]
  · intro m e
    cases e
    rfl

theorem attributeItem_like {o o' : Item} (h : LikeItem o o') (j j' : Nat) (ka : Str × Val) :
    LikeItem (attributeItem o j ka) (attributeItem o' j' ka) := by
  refine ⟨⟨.val, rfl, ?_, ?_, rfl, fun n e => by cases e⟩, .cons h.core h.ancestors⟩
  · rw [attributeItem, attributeItem]
    simp only [h.core.addr, h.core.classpath]
  · rw [attributeItem, attributeItem]
    simp only [h.core.classpath]

theorem attributeItems_like {o o' : Item} (h : LikeItem o o') (l : List (Str × Val)) :
    ∀ j j', List.Forall₂ LikeItem (attributeItems o j l) (attributeItems o' j' l) := by
  induction l with
  | nil => intros; exact .nil
  | cons ka l ih =>
    intro j j'
    rw [attributeItems, attributeItems]
    exact .cons (attributeItem_like h j j' ka) (ih _ _)

theorem forall₂_getLast? {α : Type} {R : α → α → Prop} {l l' : List α} (h : List.Forall₂ R l l') :
    Option.Rel R l.getLast? l'.getLast? := by
  induction h with
  | nil => exact .none
  | cons x k ih =>
    rw [List.getLast?_cons, List.getLast?_cons]
    generalize List.getLast? _ = a at ih
    generalize List.getLast? _ = b at ih
    cases ih with
    | none => exact .some x
    | some y => exact .some y

theorem containerOf_like {o o' : Item} (h : LikeItem o o') {a a' : List (Str × Val)}
    (ha : sortByName a = sortByName a') : LikeItem (containerOf o a) (containerOf o' a') := by
  rw [containerOf, containerOf, h.core.classpath, ha]
  split
  · have := forall₂_getLast? (attributeItems_like h (sortByName a') 0 0)
    generalize (attributeItems o 0 (sortByName a')).getLast? = x at *
    generalize (attributeItems o' 0 (sortByName a')).getLast? = y at *
    cases this with
    | none => exact h
    | some k => exact k
  · exact h

mutual
theorem contentsNode_refl {env : Env} : (n : Node) → Distinct n → ∀ {c c' : Item}, LikeItem c c' →
    ∀ pos pos', PermBy LikeItem (contentsNode env c pos n) (contentsNode env c' pos' n)
  | .group n a ks, d, c, c', hc, pos, pos' => by
    have ho := memberItem_like (env := env) hc (pos := pos) (pos' := pos') (Like.refl d)
    rw [contentsNode, contentsNode]
    rw [Distinct] at d
    exact .cons ho (.append (.of_forall₂ (attributeItems_like ho _ _ _))
      (contentsKids_refl ks d.2.2 (containerOf_like ho rfl) _ _ _ _))
  | .dataset n a v, d, c, c', hc, pos, pos' => by
    have ho := memberItem_like (env := env) hc (pos := pos) (pos' := pos') (Like.refl d)
    rw [contentsNode, contentsNode]
    exact .cons ho (.of_forall₂ (attributeItems_like ho _ _ _))
  | .datatype n a, d, c, c', hc, pos, pos' => by
    have ho := memberItem_like (env := env) hc (pos := pos) (pos' := pos') (Like.refl d)
    rw [contentsNode, contentsNode]
    exact .cons ho (.of_forall₂ (attributeItems_like ho _ _ _))
theorem contentsKids_refl {env : Env} : (ks : Kids) → DistinctKids ks → ∀ {c c' : Item},
    LikeItem c c' → ∀ pos pos' i i',
    PermBy LikeItem (contentsKids env c pos i ks) (contentsKids env c' pos' i' ks)
  | .nil, _, _, _, _, _, _, _, _ => by
    rw [contentsKids, contentsKids]; exact .of_forall₂ .nil
  | .cons _ _ n r, d, _, _, hc, _, _, _, _ => by
    rw [DistinctKids] at d
    rw [contentsKids, contentsKids]
    exact .append (contentsNode_refl n d.1 hc _ _) (contentsKids_refl r d.2 hc _ _ _ _)
  | .broken _ _ r, d, _, _, hc, _, _, _, _ => by
    rw [DistinctKids] at d
    rw [contentsKids, contentsKids]
    exact contentsKids_refl r d hc _ _ _ _
end

/-- What a link of a group contributes. -/
def contentsLink (env : Env) (c : Item) (pos : List Nat) (i : Nat) : Option Node → List Item
  | some n => contentsNode env c ((2 * i + 2) :: pos) n
  | none => []

theorem contentsKids_linkTo {env : Env} {c : Item} {pos : List Nat} {i : Nat} {l : Str}
    {k : LinkKind} {o : Option Node} {r : Kids} :
    contentsKids env c pos i (linkTo l k o r) =
      contentsLink env c pos i o ++ contentsKids env c pos (i + 1) r := by
  cases o with
  | none => rw [linkTo, contentsKids, contentsLink]; rfl
  | some n => rw [linkTo, contentsKids, contentsLink]

theorem contentsLink_refl {env : Env} {o : Option Node} (d : ∀ n, o = some n → Distinct n)
    {c c' : Item} (hc : LikeItem c c') (pos pos' : List Nat) (i i' : Nat) :
    PermBy LikeItem (contentsLink env c pos i o) (contentsLink env c' pos' i' o) := by
  cases o with
  | none => exact .of_forall₂ .nil
  | some n => exact contentsNode_refl n (d n rfl) hc _ _

mutual
theorem contentsNode_like {env : Env} : {n n' : Node} → SameNode n n' → Distinct n →
    ∀ {c c' : Item}, LikeItem c c' →
    ∀ pos pos', PermBy LikeItem (contentsNode env c pos n) (contentsNode env c' pos' n')
  | _, _, .group (ks := ks) (ks' := ks') h k, d, c, c', hc, pos, pos' => by
    have hl : Like _ _ := ⟨.group h k, d⟩
    have ho := memberItem_like (env := env) hc (pos := pos) (pos' := pos') hl
    have hs := hl.sorted
    simp only [Node.attrs] at hs
    rw [contentsNode, contentsNode]
    rw [Distinct] at d
    refine .cons ho (.append ?_
      (contentsKids_like k d.2.2 (containerOf_like ho hs) _ _ _ _))
    rw [hs]
    exact .of_forall₂ (attributeItems_like ho _ _ _)
  | _, _, .dataset h, d, c, c', hc, pos, pos' => by
    have hl : Like _ _ := ⟨.dataset h, d⟩
    have ho := memberItem_like (env := env) hc (pos := pos) (pos' := pos') hl
    have hs := hl.sorted
    simp only [Node.attrs] at hs
    rw [contentsNode, contentsNode, hs]
    exact .cons ho (.of_forall₂ (attributeItems_like ho _ _ _))
  | _, _, .datatype h, d, c, c', hc, pos, pos' => by
    have hl : Like _ _ := ⟨.datatype h, d⟩
    have ho := memberItem_like (env := env) hc (pos := pos) (pos' := pos') hl
    have hs := hl.sorted
    simp only [Node.attrs] at hs
    rw [contentsNode, contentsNode, hs]
    exact .cons ho (.of_forall₂ (attributeItems_like ho _ _ _))
theorem contentsKids_like {env : Env} : {ks ks' : Kids} → SameKids ks ks' → DistinctKids ks →
    ∀ {c c' : Item}, LikeItem c c' → ∀ pos pos' i i',
    PermBy LikeItem (contentsKids env c pos i ks) (contentsKids env c' pos' i' ks')
  | _, _, .nil, _, _, _, _, _, _, _, _ => by
    rw [contentsKids, contentsKids]; exact .of_forall₂ .nil
  | _, _, .cons h k, d, _, _, hc, _, _, _, _ => by
    rw [DistinctKids] at d
    rw [contentsKids, contentsKids]
    exact .append (contentsNode_like h d.1 hc _ _) (contentsKids_like k d.2 hc _ _ _ _)
  | _, _, .broken k, d, _, _, hc, _, _, _, _ => by
    rw [DistinctKids] at d
    rw [contentsKids, contentsKids]
    exact contentsKids_like k d hc _ _ _ _
  | _, _, .swap, d, _, _, hc, _, _, _, _ => by
    rw [distinctKids_linkTo, distinctKids_linkTo] at d
    rw [contentsKids_linkTo, contentsKids_linkTo, contentsKids_linkTo, contentsKids_linkTo,
      ← List.append_assoc, ← List.append_assoc]
    exact .append (.perm_left List.perm_append_comm
      (.append (contentsLink_refl d.2.1 hc _ _ _ _) (contentsLink_refl d.1 hc _ _ _ _)))
      (contentsKids_refl _ d.2.2 hc _ _ _ _)
  | _, _, .trans h k, d, c, c', hc, pos, pos', i, i' =>
    PermBy.trans (R := LikeItem) (fun _ _ _ h k => h.trans k) (contentsKids_like h d hc pos pos' i i')
      (contentsKids_like k (h.distinct d)
        (LikeItem.trans hc.symm hc) pos' pos' i' i')
end

theorem Spec.SameFile.root {f f' : H5File} (h : SameFile f f') (hw : WellNamedFile f) :
    Like f.root f'.root :=
  ⟨.group h.attrs h.kids, by
    rw [H5File.root, Distinct]
    exact ⟨hw.1, hw.2.1, hw.2.2.distinct⟩⟩

theorem contents_like {env : Env} {f f' : H5File} (h : SameFile f f') (hw : WellNamedFile f) :
    PermBy LikeItem (contents env f) (contents env f') := by
  have hr := h.root hw
  have ho : LikeItem (rootOf f) (rootOf f') :=
    ⟨⟨.file hr, rfl, rfl, rfl, rfl, fun n e => by cases e⟩, .nil⟩
  have hs := hr.sorted
  simp only [H5File.root, Node.attrs] at hs
  rw [contents, contents, hs]
  exact .cons ho (.append (.of_forall₂ (attributeItems_like ho _ _ _))
    (contentsKids_like h.kids hw.2.2.distinct ho _ _ _ _))

end Punx

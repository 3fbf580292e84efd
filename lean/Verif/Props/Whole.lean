import Verif.Spec.Whole
import Verif.Props.Extras3
import Verif.Props.Part2

/-!
# C130: the items of a file and of its parts
-/

namespace Punx
open Spec

variable {env : Env} {mgr : Manager} {f g : H5File}

/-! ## corresponding items -/

/-- The same object, or the root of `g` and that of `f`. -/
def SameObj (g f : H5File) (o o' : H5Obj) : Prop := o = o' ∨ (o = .file g ∧ o' = .file f)

/-- Corresponding items of two files, up to their positions. -/
structure SameCore (g f : H5File) (c c' : Core) : Prop where
  obj : SameObj g f c.obj c'.obj
  name : c.name = c'.name
  addr : c.addr = c'.addr
  classpath : c.classpath = c'.classpath
  nxClass : c.nxClass = c'.nxClass

/-- The same with containers. -/
structure SameItem (g f : H5File) (x y : Item) : Prop where
  core : SameCore g f x.toCore y.toCore
  ancestors : List.Forall₂ (SameCore g f) x.ancestors y.ancestors

theorem SameCore.flip {c c' : Core} (h : SameCore g f c c') : SameCore f g c' c :=
  ⟨h.obj.imp Eq.symm And.symm, h.name.symm, h.addr.symm, h.classpath.symm, h.nxClass.symm⟩

theorem SameItem.flip {x y : Item} (h : SameItem g f x y) : SameItem f g y x :=
  ⟨h.core.flip, h.ancestors.flip.imp fun _ _ h => h.flip⟩

theorem same_member {c c' : Item} (h : SameItem g f c c') (pos pos' : List Nat) (n : Node) :
    SameItem g f (memberItem env c pos n) (memberItem env c' pos' n) := by
  refine ⟨⟨.inl rfl, rfl, rfl, ?_, ?_⟩, .cons h.core h.ancestors⟩
  · simp only [memberItem, h.core.classpath]
  · simp only [memberItem, h.core.classpath]

theorem same_attribute {o o' : Item} (h : SameItem g f o o') (j j' : Nat) (ka : Str × Val) :
    SameItem g f (attributeItem o j ka) (attributeItem o' j' ka) := by
  refine ⟨⟨.inl rfl, rfl, ?_, ?_, rfl⟩, .cons h.core h.ancestors⟩
  · simp only [attributeItem, h.core.classpath, h.core.addr]
  · simp only [attributeItem, h.core.classpath]

theorem same_attributes {o o' : Item} (h : SameItem g f o o') : (l : List (Str × Val)) → (j j' : Nat) →
    List.Forall₂ (SameItem g f) (attributeItems o j l) (attributeItems o' j' l)
  | [], _, _ => .nil
  | ka :: l, j, j' => .cons (same_attribute h j j' ka) (same_attributes h l (j + 1) (j' + 1))

theorem forall₂_last {α β : Type} {R : α → β → Prop} {l : List α} {l' : List β}
    (h : List.Forall₂ R l l') {a : α} {b : β} (hab : R a b) :
    R (l.getLast?.getD a) (l'.getLast?.getD b) := by
  induction h generalizing a b with
  | nil => exact hab
  | cons h _ ih =>
    rw [List.getLast?_cons, List.getLast?_cons]
    exact ih h

theorem same_container {o o' : Item} (h : SameItem g f o o') (a : List (Str × Val)) :
    SameItem g f (containerOf o a) (containerOf o' a) := by
  rw [containerOf, containerOf, h.core.classpath]
  split
  · exact forall₂_last (same_attributes h _ 0 0) h
  · exact h

mutual
theorem same_contentsNode : (n : Node) → ∀ {c c' : Item} (pos pos' : List Nat), SameItem g f c c' →
    List.Forall₂ (SameItem g f) (contentsNode env c pos n) (contentsNode env c' pos' n)
  | .group n a ks, c, c', pos, pos', h => by
    rw [contentsNode, contentsNode]
    have hm := same_member (env := env) h pos pos' (.group n a ks)
    exact .cons hm (List.rel_append (same_attributes hm _ 0 0)
      (same_contentsKids ks pos pos' 0 0 (same_container hm a)))
  | .dataset n a d, c, c', pos, pos', h => by
    rw [contentsNode, contentsNode]
    have hm := same_member (env := env) h pos pos' (.dataset n a d)
    exact .cons hm (same_attributes hm _ 0 0)
  | .datatype n a, c, c', pos, pos', h => by
    rw [contentsNode, contentsNode]
    have hm := same_member (env := env) h pos pos' (.datatype n a)
    exact .cons hm (same_attributes hm _ 0 0)
theorem same_contentsKids : (ks : Kids) → ∀ {c c' : Item} (pos pos' : List Nat) (i i' : Nat),
    SameItem g f c c' →
    List.Forall₂ (SameItem g f) (contentsKids env c pos i ks) (contentsKids env c' pos' i' ks)
  | .nil, _, _, _, _, _, _, _ => by rw [contentsKids, contentsKids]; exact .nil
  | .cons l k n r, _, _, pos, pos', i, i', h => by
    rw [contentsKids, contentsKids]
    exact List.rel_append (same_contentsNode n _ _ h) (same_contentsKids r _ _ _ _ h)
  | .broken l k r, _, _, pos, pos', i, i', h => by
    rw [contentsKids, contentsKids]
    exact same_contentsKids r _ _ _ _ h
end

theorem same_root (g f : H5File) : SameItem g f (rootOf g) (rootOf f) :=
  ⟨⟨.inr ⟨rfl, rfl⟩, rfl, rfl, rfl, rfl⟩, .nil⟩

/-! ## the items of a file -/

/-- An item of a file is the root, an attribute of the root, or in a member of the root. -/
theorem contents_cases {x : Item} (hx : x ∈ contents env f) :
    x = rootOf f ∨ (∃ i, ∃ ka ∈ f.attrs, x = attributeItem (rootOf f) i ka) ∨
      ∃ j l m, f.kids.toList[j]? = some (l, some m) ∧
        x ∈ contentsNode env (rootOf f) [2 * j + 2] m := by
  rw [contents] at hx
  rcases List.mem_cons.1 hx with rfl | hx
  · exact .inl rfl
  rcases List.mem_append.1 hx with hx | hx
  · obtain ⟨i, ka, hk, e⟩ := mem_attributeItems hx
    exact .inr (.inl ⟨i, ka, ((sortByName_spec _).1.mem_iff).1 hk, e⟩)
  · obtain ⟨j, l, m, hj, s, hs, h⟩ := mem_contentsKids f.kids (rootOf f) [] 0 [] hx
    refine .inr (.inr ⟨j, l, m, hj, ?_⟩)
    rw [Nat.zero_add] at hs
    exact hs.mem (t := ⟨rootOf f, [2 * j + 2], [] ++ '/' :: l, m⟩) (by
      rcases h with rfl | h
      · exact contentsNode_self ..
      · cases e : s.node <;> rw [contentsNode] <;> rw [Site.item, e] at h
        · exact List.mem_cons_of_mem _ h
        · exact List.mem_cons_of_mem _ h
        · exact List.mem_cons_of_mem _ (List.mem_append_left _ h))

theorem attributeItems_there {o : Item} {ka : Str × Val} : {l : List (Str × Val)} → (j : Nat) →
    ka ∈ l → ∃ i, attributeItem o i ka ∈ attributeItems o j l
  | ka' :: l, j, h => by
    rw [attributeItems]
    rcases List.mem_cons.1 h with rfl | h
    · exact ⟨j, by simp⟩
    · obtain ⟨i, hi⟩ := attributeItems_there (j + 1) h
      exact ⟨i, List.mem_cons_of_mem _ hi⟩

theorem contents_attr {ka : Str × Val} (h : ka ∈ f.attrs) :
    ∃ i, attributeItem (rootOf f) i ka ∈ contents env f := by
  obtain ⟨i, hi⟩ := attributeItems_there (o := rootOf f) 0 (((sortByName_spec f.attrs).1.mem_iff).2 h)
  refine ⟨i, ?_⟩
  rw [contents]
  exact List.mem_cons_of_mem _ (List.mem_append_left _ hi)

theorem contents_member {j : Nat} {l : Str} {m : Node} (h : f.kids.toList[j]? = some (l, some m))
    {x : Item} (hx : x ∈ contentsNode env (rootOf f) [2 * j + 2] m) : x ∈ contents env f := by
  rw [contents]
  refine List.mem_cons_of_mem _ (List.mem_append_right _ ?_)
  exact contentsKids_get f.kids (rootOf f) [] 0 j h (by rwa [Nat.zero_add])

theorem contents_root (f : H5File) : rootOf f ∈ contents env f := by
  rw [contents]
  exact List.mem_cons_self

/-- What is in a common member of the root is in both files. -/
theorem member_same {j : Nat} {l : Str} {m : Node} (hm : (l, some m) ∈ f.kids.toList) {x : Item}
    (hx : x ∈ contentsNode env (rootOf g) [2 * j + 2] m) :
    ∃ y ∈ contents env f, SameItem g f x y := by
  obtain ⟨j', hj⟩ := List.getElem?_of_mem hm
  obtain ⟨y, hy, hs⟩ := forall₂_mem
    (same_contentsNode m [2 * j + 2] [2 * j' + 2] (same_root g f)) hx
  exact ⟨y, contents_member hj hy, hs⟩

/-- The items of an excerpt are items of the file. -/
theorem Spec.Excerpt.up (h : Excerpt g f) {x : Item} (hx : x ∈ contents env g) :
    ∃ y ∈ contents env f, SameItem g f x y := by
  rcases contents_cases hx with rfl | ⟨i, ka, hk, rfl⟩ | ⟨j, l, m, hj, hm⟩
  · exact ⟨_, contents_root f, same_root g f⟩
  · obtain ⟨i', hi⟩ := contents_attr (env := env) (h.attrs ka hk)
    exact ⟨_, hi, same_attribute (same_root g f) i i' ka⟩
  · exact member_same (h.kids _ (List.mem_of_getElem? hj)) hm

theorem Spec.MadeOf.down {parts : List H5File} (h : MadeOf f parts) {y : Item}
    (hy : y ∈ contents env f) : ∃ g ∈ parts, ∃ x ∈ contents env g, SameItem g f x y := by
  rcases contents_cases hy with rfl | ⟨i, ka, hk, rfl⟩ | ⟨j, l, m, hj, hm⟩
  · obtain ⟨g, hg⟩ := List.exists_mem_of_ne_nil _ h.nonempty
    exact ⟨g, hg, _, contents_root g, same_root g f⟩
  · obtain ⟨g, hg, hk⟩ := h.attrs ka hk
    obtain ⟨i', hi⟩ := contents_attr (env := env) hk
    exact ⟨g, hg, _, hi, same_attribute (same_root g f) i' i ka⟩
  · obtain ⟨g, hg, hk⟩ := h.kids _ (List.mem_of_getElem? hj)
    obtain ⟨x, hx, hs⟩ := member_same (g := f) (f := g) hk hm
    exact ⟨g, hg, x, hx, hs.flip⟩

/-- Items with the same object, except for the root. -/
theorem file_root {x : Item} {k : H5File} (hx : x ∈ contents env g) (e : x.obj = .file k) :
    x = rootOf g ∧ k = g := by
  rcases object_site hx (by rw [e]; simp [H5Obj.attrs?]) with rfl | ⟨s, hs, rfl⟩
  · cases e; exact ⟨rfl, rfl⟩
  · cases e

/-- The attributes of an object of the file, one by one. -/
theorem Spec.MadeOf.attr {parts : List H5File} (h : MadeOf f parts) {y : Item}
    (hy : y ∈ contents env f) {attrs : List (Str × Val)} (ha : y.obj.attrs? = some attrs)
    {ka : Str × Val} (hk : ka ∈ attrs) : ∃ g ∈ parts, ∃ x ∈ contents env g, SameItem g f x y ∧
      ∃ attrs', x.obj.attrs? = some attrs' ∧ ka ∈ attrs' := by
  obtain ⟨g, hg, x, hx, hs⟩ := h.down hy
  rcases hs.core.obj with e | ⟨e, e'⟩
  · exact ⟨g, hg, x, hx, hs, attrs, by rw [e]; exact ha, hk⟩
  · rw [e'] at ha
    cases ha
    obtain ⟨rfl, _⟩ := file_root hy e'
    obtain ⟨g', hg', hk'⟩ := h.attrs ka hk
    exact ⟨g', hg', _, contents_root g', same_root g' f, _, rfl, hk'⟩

end Punx

import Verif.Lemmas.Run

/-! What the items of a catalogue look like. -/

namespace Punx
open Spec

/-- The item of a file or of a node (not of an attribute). -/
def IsObject (f : H5File) (v : Item) : Prop :=
  v = rootItem f ∨ ∃ env p n oid, v = objItem env (some p) (.node n) n.name oid

theorem IsObject.attrs {f : H5File} {v : Item} (h : IsObject f v) :
    ∃ a, v.obj.attrs? = some a := by
  rcases h with rfl | ⟨env, p, n, oid, rfl⟩
  · exact ⟨_, rfl⟩
  · exact ⟨_, rfl⟩

theorem IsObject.not_val {f : H5File} {v : Item} (h : IsObject f v) (x : Val) :
    v.obj ≠ .val x := by
  rcases h with rfl | ⟨env, p, n, oid, rfl⟩
  · intro h; cases h
  · intro h; cases h

theorem IsObject.addr {f : H5File} {v : Item} (h : IsObject f v) :
    ∃ a, v.addr = some a ∧ v.obj.name? = some a := by
  rcases h with rfl | ⟨env, p, n, oid, rfl⟩
  · exact ⟨_, rfl, rfl⟩
  · exact ⟨_, rfl, rfl⟩

/-- An item of a catalogue `L` of the file `f`. -/
inductive Catalogued (env : Env) (f : H5File) (L : List Item) : Item → Prop
  | root : Catalogued env f L (rootItem f)
  | attr {v : Item} {attrs : List (Str × Val)} {ka : Str × Val} (j : Nat) :
      v ∈ L → IsObject f v → v.obj.attrs? = some attrs → ka ∈ attrs →
      Catalogued env f L (attrItem v j ka)
  | node {p : Item} {n : Node} {oid : List Nat} :
      p ∈ L → (IsObject f p ∨ p.classpath = nonNeXus) →
      Catalogued env f L (objItem env (some p) (.node n) n.name oid)

theorem Catalogued.mono {env : Env} {f : H5File} {L L' : List Item} (h : ∀ x ∈ L, x ∈ L')
    {it : Item} (hc : Catalogued env f L it) : Catalogued env f L' it := by
  cases hc with
  | root => exact .root
  | attr j h1 h2 h3 h4 => exact .attr j (h _ h1) h2 h3 h4
  | node h1 h2 => exact .node (h _ h1) h2

theorem attrItemsOf_catalogued {env : Env} {f : H5File} {L : List Item} {v it : Item} {j : Nat}
    {attrs : List (Str × Val)} (hv : v ∈ L) (ho : IsObject f v) (ha : v.obj.attrs? = some attrs)
    (h : it ∈ attrItemsOf v j (sortAttrs attrs)) : Catalogued env f L it := by
  obtain ⟨i, ka, hka, _, _, rfl⟩ := mem_attrItemsOf h
  exact .attr i hv ho ha ((sortBy_perm attrs).mem_iff.1 hka)

theorem parentFor_mem {v : Item} {a : List (Str × Val)} {L : List Item} (hv : v ∈ L)
    (ha : ∀ x ∈ attrItemsOf v 0 (sortAttrs a), x ∈ L) : parentFor v a ∈ L := by
  rcases parentFor_cases v a with h | ⟨_, _, h⟩
  · rw [h]; exact hv
  · exact ha _ h

theorem parentFor_object {f : H5File} {v : Item} (h : IsObject f v) (a : List (Str × Val)) :
    IsObject f (parentFor v a) ∨ (parentFor v a).classpath = nonNeXus := by
  by_cases hc : v.classpath = nonNeXus
  · right; rw [parentFor_classpath, hc]
  · left; rw [parentFor_of_nexus hc]; exact h

mutual
theorem nodeItems_catalogued (env : Env) (f : H5File) (L : List Item) (parent : Item)
    (oid : List Nat) (hp : parent ∈ L) (ho : IsObject f parent ∨ parent.classpath = nonNeXus) :
    (n : Node) →
    (∀ x ∈ nodeItems env parent oid n, x ∈ L) →
    ∀ it ∈ nodeItems env parent oid n, Catalogued env f L it
  | .group n a kids, hL, it, h => by
    rw [nodeItems] at h hL
    have hv : objItem env (some parent) (.node (.group n a kids)) n oid ∈ L := hL _ (by simp)
    rw [List.mem_append, List.mem_cons] at h
    rcases h with (rfl | h) | h
    · exact .node (n := .group n a kids) hp ho
    · exact attrItemsOf_catalogued hv (.inr ⟨env, parent, .group n a kids, oid, rfl⟩) rfl h
    · refine kidsItems_catalogued env f L _ oid 0 (parentFor_mem hv ?_) ?_ kids ?_ it h
      · intro x hx; exact hL x (by simp [hx])
      · exact parentFor_object (.inr ⟨env, parent, .group n a kids, oid, rfl⟩) a
      · intro x hx; exact hL x (by simp [hx])
  | .dataset n a d, hL, it, h => by
    rw [nodeItems] at h hL
    have hv : objItem env (some parent) (.node (.dataset n a d)) n oid ∈ L := hL _ (by simp)
    rw [List.mem_cons] at h
    rcases h with rfl | h
    · exact .node (n := .dataset n a d) hp ho
    · exact attrItemsOf_catalogued hv (.inr ⟨env, parent, .dataset n a d, oid, rfl⟩) rfl h
  | .datatype n a, hL, it, h => by
    rw [nodeItems] at h hL
    have hv : objItem env (some parent) (.node (.datatype n a)) n oid ∈ L := hL _ (by simp)
    rw [List.mem_cons] at h
    rcases h with rfl | h
    · exact .node (n := .datatype n a) hp ho
    · exact attrItemsOf_catalogued hv (.inr ⟨env, parent, .datatype n a, oid, rfl⟩) rfl h
theorem kidsItems_catalogued (env : Env) (f : H5File) (L : List Item) (parent : Item)
    (oid : List Nat) (i : Nat) (hp : parent ∈ L)
    (ho : IsObject f parent ∨ parent.classpath = nonNeXus) : (ks : Kids) →
    (∀ x ∈ kidsItems env parent oid i ks, x ∈ L) →
    ∀ it ∈ kidsItems env parent oid i ks, Catalogued env f L it
  | .nil, _, it, h => by simp [kidsItems] at h
  | .cons l k n rest, hL, it, h => by
    rw [kidsItems] at h hL
    rcases List.mem_append.1 h with h | h
    · exact nodeItems_catalogued env f L parent _ hp ho n (fun x hx => hL x (by simp [hx])) it h
    · exact kidsItems_catalogued env f L parent oid (i + 1) hp ho rest
        (fun x hx => hL x (by simp [hx])) it h
  | .broken l k rest, _, it, h => by simp [kidsItems] at h
end

mutual
theorem nodeItems_all (env : Env) {P : Node → Prop} (parent : Item) (oid : List Nat) : (n : Node) →
    AllNodes P n → ∀ it ∈ nodeItems env parent oid n, ∀ m, it.obj = .node m → P m
  | .group n a kids, hP, it, h, m, hm => by
    rw [AllNodes] at hP
    rw [nodeItems, List.mem_append, List.mem_cons] at h
    rcases h with (rfl | h) | h
    · injection hm with hm; subst hm; exact hP.1
    · obtain ⟨i, ka, _, _, _, rfl⟩ := mem_attrItemsOf h
      rw [attrItem_obj] at hm; cases hm
    · exact kidsItems_all env _ oid 0 kids hP.2 it h m hm
  | .dataset n a d, hP, it, h, m, hm => by
    rw [AllNodes] at hP
    rw [nodeItems, List.mem_cons] at h
    rcases h with rfl | h
    · injection hm with hm; subst hm; exact hP
    · obtain ⟨i, ka, _, _, _, rfl⟩ := mem_attrItemsOf h
      rw [attrItem_obj] at hm; cases hm
  | .datatype n a, hP, it, h, m, hm => by
    rw [AllNodes] at hP
    rw [nodeItems, List.mem_cons] at h
    rcases h with rfl | h
    · injection hm with hm; subst hm; exact hP
    · obtain ⟨i, ka, _, _, _, rfl⟩ := mem_attrItemsOf h
      rw [attrItem_obj] at hm; cases hm
theorem kidsItems_all (env : Env) {P : Node → Prop} (parent : Item) (oid : List Nat) (i : Nat) :
    (ks : Kids) → AllKids P ks → ∀ it ∈ kidsItems env parent oid i ks, ∀ m, it.obj = .node m → P m
  | .nil, _, it, h, _, _ => by simp [kidsItems] at h
  | .cons l k n rest, hP, it, h, m, hm => by
    rw [AllKids] at hP
    rw [kidsItems] at h
    rcases List.mem_append.1 h with h | h
    · exact nodeItems_all env parent _ n hP.1 it h m hm
    · exact kidsItems_all env parent oid (i + 1) rest hP.2 it h m hm
  | .broken l k rest, _, it, h, _, _ => by simp [kidsItems] at h
end

/-- The objects in the catalogue are objects of the file. -/
theorem catalog_all {env : Env} {f : H5File} (h : (catalog env f).res = .ok ()) {P : Node → Prop}
    (hP : AllKids P f.kids) {it : Item} (hit : it ∈ (catalog env f).log) {m : Node}
    (hm : it.obj = .node m) : P m := by
  rw [catalog_log h, fileItems, List.mem_append, List.mem_cons] at hit
  rcases hit with (rfl | hit) | hit
  · cases hm
  · obtain ⟨i, ka, _, _, _, rfl⟩ := mem_attrItemsOf hit
    rw [attrItem_obj] at hm; cases hm
  · exact kidsItems_all env _ [] 0 f.kids hP it hit m hm

theorem catalogued {env : Env} {f : H5File} (h : (catalog env f).res = .ok ()) {it : Item}
    (hit : it ∈ (catalog env f).log) : Catalogued env f (catalog env f).log it := by
  rw [catalog_log h] at hit ⊢
  have hroot : rootItem f ∈ fileItems env f := by simp [fileItems]
  have hL := fun x (hx : x ∈ fileItems env f) => hx
  rw [fileItems, List.mem_append, List.mem_cons] at hit
  rcases hit with (rfl | hit) | hit
  · exact .root
  · exact attrItemsOf_catalogued hroot (.inl rfl) rfl hit
  · refine kidsItems_catalogued env f _ _ [] 0 hroot (.inl (.inl rfl)) f.kids ?_ it hit
    intro x hx
    rw [fileItems]
    exact List.mem_append_right _ hx

end Punx

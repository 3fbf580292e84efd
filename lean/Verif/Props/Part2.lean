import Verif.Props.Part
import Verif.Props.Reorder

/-!
# C113: a group is judged by its own content, corresponding items
-/

namespace Punx
open Spec

/-- Items that agree in everything but the containers. -/
structure Alike (x y : Item) : Prop where
  obj : x.obj = y.obj
  name : x.name = y.name
  addr : x.addr = y.addr
  classpath : x.classpath = y.classpath

theorem Alike.symm {x y : Item} (h : Alike x y) : Alike y x :=
  ⟨h.obj.symm, h.name.symm, h.addr.symm, h.classpath.symm⟩

theorem alike_member {env : Env} {c c' : Item} (h : c.classpath = c'.classpath) (pos pos' : List Nat)
    (n : Node) : Alike (memberItem env c pos n) (memberItem env c' pos' n) := by
  refine ⟨rfl, rfl, rfl, ?_⟩
  simp only [memberItem, h]

theorem alike_attribute {o o' : Item} (h : Alike o o') (j : Nat) (ka : Str × Val) :
    Alike (attributeItem o j ka) (attributeItem o' j ka) := by
  refine ⟨rfl, rfl, ?_, ?_⟩
  · simp only [attributeItem, h.classpath, h.addr]
  · simp only [attributeItem, h.classpath]

theorem alike_last {o o' : Item} (h : Alike o o') : (l : List (Str × Val)) → (j : Nat) →
    Option.Rel Alike (attributeItems o j l).getLast? (attributeItems o' j l).getLast?
  | [], j => by rw [attributeItems, attributeItems]; exact .none
  | [ka], j => by
    rw [attributeItems, attributeItems, attributeItems, attributeItems]
    exact .some (alike_attribute h j ka)
  | ka :: kb :: l, j => by
    have := alike_last h (kb :: l) (j + 1)
    rw [attributeItems, attributeItems] at this
    rw [attributeItems, attributeItems, attributeItems, attributeItems, List.getLast?_cons_cons,
      List.getLast?_cons_cons]
    exact this

theorem alike_container {o o' : Item} (h : Alike o o') (a : List (Str × Val)) :
    Alike (containerOf o a) (containerOf o' a) := by
  rw [containerOf, containerOf, h.classpath]
  split
  · have := alike_last h (sortByName a) 0
    generalize (attributeItems o 0 (sortByName a)).getLast? = x at this
    generalize (attributeItems o' 0 (sortByName a)).getLast? = y at this
    cases this with
    | none => exact h
    | some k => exact k
  · exact h

/-- Corresponding positions in two files. -/
theorem under_alike {env : Env} {t t' : Site} (hn : t.node = t'.node) (hp : t.path = t'.path)
    (hc : t.box.classpath = t'.box.classpath) {s : Site} (h : Under env t s) :
    ∃ s', Under env t' s' ∧ s.node = s'.node ∧ s.path = s'.path ∧
      s.box.classpath = s'.box.classpath ∧ (s = t ∨ Alike s.box s'.box) := by
  induction h with
  | refl => exact ⟨t', .refl, hn, hp, hc, .inl rfl⟩
  | @step s j n l a ks m _ h2 h3 ih =>
    obtain ⟨s', hu, e1, e2, e3, _⟩ := ih
    have hb : Alike (s.kid env j l m).box (s'.kid env j l m).box := by
      rw [Site.kid, Site.kid, Site.item, Site.item, e1]
      exact alike_container (alike_member e3 _ _ _) _
    exact ⟨s'.kid env j l m, .step hu (e1 ▸ h2) h3, rfl, by rw [Site.kid, Site.kid, e2],
      hb.classpath, .inr hb⟩

/-- An object that stands in the file has a position. -/
theorem Spec.Stands.site {env : Env} {f : H5File} {cp : Str} {n : Node} (h : Stands env f cp n) :
    ∃ s, InFile env f s ∧ s.node = n ∧ s.box.classpath = cp := by
  induction h with
  | @top l n hm =>
    obtain ⟨j, hj⟩ := List.getElem?_of_mem hm
    exact ⟨rootKid f j l n, ⟨j, l, n, hj, .refl⟩, rfl, rfl⟩
  | @inner cp m l a ks n _ hm ih =>
    obtain ⟨s, hs, e1, e2⟩ := ih
    obtain ⟨j, hj⟩ := List.getElem?_of_mem hm
    refine ⟨s.kid env j l n, hs.kid e1 hj, rfl, ?_⟩
    have h1 : (s.item env).classpath = classpathIn env cp (.group m a ks) := by
      rw [Site.item, e1, ← e2]; rfl
    rw [Site.kid, e1]
    show (containerOf (s.item env) a).classpath = _
    rw [containerOf]
    split
    · rename_i hc
      cases hl : (attributeItems (s.item env) 0 (sortByName a)).getLast? with
      | none => exact h1
      | some x =>
        obtain ⟨i, ka, _, rfl⟩ := mem_attributeItems (List.mem_of_getLast? hl)
        show (attributeItem (s.item env) i ka).classpath = _
        rw [attributeItem]
        simp only [hc, if_true, ← h1]
    · exact h1

/-! ## relative paths -/

theorem startNode_relative {f : H5File} {g : Node} {p : Str} (h : ¬ s%"/" <+: p) :
    startNode f g p = g := by
  rw [startNode, if_neg]
  rw [startsWith]
  intro hc
  exact h (List.isPrefixOf_iff_prefix.1 hc)

theorem h5contains_relative {f f' : H5File} {g : Node} {p : Str} (h : ¬ s%"/" <+: p) :
    h5contains f g p = h5contains f' g p := by
  rw [h5contains, h5contains, startNode_relative h, startNode_relative h]

theorem h5get_relative {f f' : H5File} {g : Node} {p : Str} (h : ¬ s%"/" <+: p) :
    h5get f g p = h5get f' g p := by
  rw [h5get, h5get, startNode_relative h, startNode_relative h]

theorem not_absolute {p : Str} (h : '/' ∉ p) : ¬ s%"/" <+: p := by
  rintro ⟨t, rfl⟩
  exact h (by simp)

/-- What a name without slash leads to is the group itself or a member of it. -/
theorem h5get_member {f : H5File} {g m : Node} {p : Str} (hp : '/' ∉ p)
    (h : h5get f g p = .ok (some m)) :
    m = g ∨ ∃ n a ks l, g = .group n a ks ∧ (l, some m) ∈ ks.toList := by
  rw [h5get] at h
  split at h
  · cases h
  · rw [startNode_relative (not_absolute hp), pathParts, split_noSep hp] at h
    injection h with h
    rw [List.filter_cons] at h
    split at h
    · rw [List.filter_nil] at h
      cases g with
      | group n a ks =>
        rw [resolve] at h
        split at h
        · rename_i x hx
          rw [resolve] at h
          cases h
          rw [Kids.find] at hx
          exact .inr ⟨n, a, ks, p, rfl, mem_of_lookup hx⟩
        · cases h
      | dataset => simp [resolve] at h
      | datatype => simp [resolve] at h
    · rw [List.filter_nil, resolve] at h
      cases h
      exact .inl rfl

end Punx

import Verif.Props.Extras
import Verif.Props.Notes3

/-!
# C129: additional content, all items, and the parts of the report
-/

namespace Punx
open Spec

variable {env : Env} {mgr : Manager} {X : Node → Bool} {f : H5File} {items items' : List Item}

/-! ## lists with additional elements -/

/-- The second list has elements related to those of the first, in the same order, and between them
elements that satisfy `E`. -/
inductive Woven {α β : Type} (R : α → β → Prop) (E : β → Prop) : List α → List β → Prop
  | nil : Woven R E [] []
  | cons {a : α} {b : β} {l : List α} {l' : List β} : R a b → Woven R E l l' →
      Woven R E (a :: l) (b :: l')
  | extra {b : β} {l : List α} {l' : List β} : E b → Woven R E l l' → Woven R E l (b :: l')

section
variable {α β : Type} {R : α → β → Prop} {E : β → Prop} {l m : List α} {l' m' : List β}

theorem Woven.append (h : Woven R E l l') (k : Woven R E m m') : Woven R E (l ++ m) (l' ++ m') := by
  induction h with
  | nil => exact k
  | cons h _ ih => exact .cons h ih
  | extra h _ ih => exact .extra h ih

theorem Woven.extras : ∀ {l' : List β}, (∀ x ∈ l', E x) → Woven R E [] l'
  | [], _ => .nil
  | _ :: _, h => .extra (h _ (by simp)) (Woven.extras fun x hx => h x (List.mem_cons_of_mem _ hx))

theorem Woven.up (h : Woven R E l l') {x : α} (hx : x ∈ l) : ∃ y ∈ l', R x y := by
  induction h with
  | nil => cases hx
  | cons h _ ih =>
    rcases List.mem_cons.1 hx with rfl | hx
    · exact ⟨_, by simp, h⟩
    · obtain ⟨y, hy, hr⟩ := ih hx
      exact ⟨y, List.mem_cons_of_mem _ hy, hr⟩
  | extra _ _ ih =>
    obtain ⟨y, hy, hr⟩ := ih hx
    exact ⟨y, List.mem_cons_of_mem _ hy, hr⟩

theorem Woven.down (h : Woven R E l l') {y : β} (hy : y ∈ l') : (∃ x ∈ l, R x y) ∨ E y := by
  induction h with
  | nil => cases hy
  | cons h _ ih =>
    rcases List.mem_cons.1 hy with rfl | hy
    · exact .inl ⟨_, by simp, h⟩
    · exact (ih hy).imp_left fun ⟨x, hx, hr⟩ => ⟨x, List.mem_cons_of_mem _ hx, hr⟩
  | extra h _ ih =>
    rcases List.mem_cons.1 hy with rfl | hy
    · exact .inr h
    · exact ih hy

/-- Elements that are selected, if no additional element is. -/
theorem Woven.filter {P : α → Bool} {Q : β → Bool} (h : Woven R E l l')
    (hR : ∀ x y, R x y → P x = Q y) (hE : ∀ y, E y → Q y = false) :
    List.Forall₂ R (l.filter P) (l'.filter Q) := by
  induction h with
  | nil => exact .nil
  | cons h _ ih =>
    rw [List.filter_cons, List.filter_cons, hR _ _ h]
    split
    · exact .cons h ih
    · exact ih
  | extra h _ ih =>
    rw [List.filter_cons, hE _ h]
    exact ih

theorem Woven.filterMap_sublist {γ : Type} {p : α → Option γ} {q : β → Option γ} (h : Woven R E l l')
    (hR : ∀ x y, R x y → p x = q y) : (l.filterMap p).Sublist (l'.filterMap q) := by
  induction h with
  | nil => exact .slnil
  | cons h _ ih =>
    rw [List.filterMap_cons, List.filterMap_cons, hR _ _ h]
    split
    · exact ih
    · exact ih.cons_cons _
  | @extra b _ _ h _ ih =>
    rw [List.filterMap_cons]
    split
    · exact ih
    · exact ih.cons _
end

/-! ## all items -/

/-- No NeXus group (but the root) has a class that ends with a slash. -/
def NoSlash (env : Env) (items : List Item) : Prop :=
  ∀ x ∈ items, ∀ g, x.obj.asGroup = some g → x.classpath ≠ s%"non-NeXus content" →
    x.classpath ≠ [] → ∀ c, nxClassOf env g.attrs = some c → ¬ s%"/" <:+ c

theorem NoSlash.left {l m : List Item} (h : NoSlash env (l ++ m)) : NoSlash env l :=
  fun x hx => h x (List.mem_append_left _ hx)

theorem NoSlash.right {l m : List Item} (h : NoSlash env (l ++ m)) : NoSlash env m :=
  fun x hx => h x (List.mem_append_right _ hx)

theorem memberItem_slash {c : Item} (hs : ¬ s%"/" <:+ c.classpath) {pos : List Nat} {n : Str}
    {a : List (Str × Val)} {ks : Kids}
    (h : (memberItem env c pos (.group n a ks)).classpath ≠ s%"non-NeXus content" →
      (memberItem env c pos (.group n a ks)).classpath ≠ [] →
      ∀ k, nxClassOf env a = some k → ¬ s%"/" <:+ k) :
    ¬ s%"/" <:+ (memberItem env c pos (.group n a ks)).classpath := by
  have e : (memberItem env c pos (.group n a ks)).classpath =
      classpathIn env c.classpath (.group n a ks) := rfl
  rw [e] at h ⊢
  simp only [classpathIn, if_neg hs] at h ⊢
  by_cases hc : c.classpath = s%"non-NeXus content"
  · rw [if_pos hc, hc]; decide
  · rw [if_neg hc] at h ⊢
    cases hk : nxClassOf env a with
    | none => simp only []; decide
    | some k =>
      simp only [hk] at h ⊢
      intro hx
      have hp := nxClassOf_prefix hk
      have hne : k ≠ [] := by rintro rfl; exact absurd hp (by decide)
      have hx' := slash_suffix hne hx
      refine h ?_ (by simp) k rfl hx'
      intro e
      have : '/' ∈ c.classpath ++ '/' :: k := by simp
      rw [e] at this
      exact absurd this (by decide)

theorem containerOf_slash {o : Item} {a : List (Str × Val)} (h : ¬ s%"/" <:+ o.classpath) :
    ¬ s%"/" <:+ (containerOf o a).classpath := by
  by_cases hc : o.classpath = s%"non-NeXus content"
  · rw [containerOf_outside hc]; decide
  · rwa [containerOf, if_neg hc]

theorem attributeItems_trim {o o' : Item} (h : TrimRel X o o') (l : List (Str × Val)) :
    ∀ j j', Woven (TrimRel X) (ExtraItem env mgr) (attributeItems o j l) (attributeItems o' j' l) := by
  induction l with
  | nil => intros; exact .nil
  | cons ka l ih =>
    intro j j'
    exact .cons (attributeItem_trim h _ _ _) (ih _ _)

mutual
theorem contentsNode_trim : (n : Node) → ∀ {path : Str}, WellNamed path n →
    AllNodes (fun n => X n = true → Extra env mgr n) n → ∀ {c c' : Item},
    TrimBox X c c' → ¬ s%"/" <:+ c.classpath → ∀ pos pos',
    NoSlash env (contentsNode env c pos (trimNode X n)) →
    Woven (TrimRel X) (ExtraItem env mgr) (contentsNode env c pos (trimNode X n))
      (contentsNode env c' pos' n)
  | .group n a ks, path, w, hx, c, c', hc, hs, pos, pos', hn => by
    have ho := memberItem_trim (env := env) hc pos pos' (Spec.WellNamed.distinct _ w)
    rw [WellNamed] at w
    rw [AllNodes] at hx
    simp only [trimNode] at ho
    rw [trimNode, contentsNode] at hn ⊢
    rw [contentsNode]
    have hs' := memberItem_slash (pos := pos) (n := n) (a := a) (ks := trimKids X ks) hs
      (hn _ (List.mem_cons_self ..) (.group n a (trimKids X ks)) rfl)
    refine .cons ho ((attributeItems_trim ho _ _ _).append ?_)
    exact contentsKids_trim ks w.2.2.2 hx.2 (containerOf_trim ho _ _) (containerOf_slash hs') _ _ _ _
      (NoSlash.right (l := attributeItems _ 0 (sortByName a))
        fun x hx => hn x (List.mem_cons_of_mem _ hx))
  | .dataset n a v, path, w, hx, c, c', hc, hs, pos, pos', hn => by
    have ho := memberItem_trim (env := env) hc pos pos' (Spec.WellNamed.distinct _ w)
    simp only [trimNode] at ho
    rw [trimNode, contentsNode, contentsNode]
    exact .cons ho (attributeItems_trim ho _ _ _)
  | .datatype n a, path, w, hx, c, c', hc, hs, pos, pos', hn => by
    have ho := memberItem_trim (env := env) hc pos pos' (Spec.WellNamed.distinct _ w)
    simp only [trimNode] at ho
    rw [trimNode, contentsNode, contentsNode]
    exact .cons ho (attributeItems_trim ho _ _ _)
theorem contentsKids_trim : (ks : Kids) → ∀ {path : Str}, WellNamedKids path ks →
    AllKids (fun n => X n = true → Extra env mgr n) ks → ∀ {c c' : Item},
    TrimBox X c c' → ¬ s%"/" <:+ c.classpath → ∀ pos pos' i i',
    NoSlash env (contentsKids env c pos i (trimKids X ks)) →
    Woven (TrimRel X) (ExtraItem env mgr) (contentsKids env c pos i (trimKids X ks))
      (contentsKids env c' pos' i' ks)
  | .nil, _, _, _, _, _, _, _, _, _, _, _, _ => by
    rw [trimKids, contentsKids, contentsKids]; exact .nil
  | .cons l _ n r, path, w, hx, c, c', hc, hs, pos, pos', i, i', hn => by
    rw [WellNamedKids] at w
    rw [AllKids] at hx
    rw [contentsKids]
    by_cases hX : X n = true
    · rw [trimKids, if_pos hX] at hn ⊢
      have hE : Extra env mgr n := by
        have := hx.1
        cases n <;> rw [AllNodes] at this
        · exact this hX
        · exact this hX
        · exact this.1 hX
      have k := contentsKids_trim r w.2.2.2.2 hx.2 hc hs pos pos' i (i' + 1) hn
      refine Woven.append (l := []) (Woven.extras ?_) k
      exact contentsNode_extra (hc.classpath ▸ hs) w.2.1 w.2.2.1 _ w.2.2.2.1 hE
    · rw [trimKids, if_neg hX, contentsKids] at hn ⊢
      exact (contentsNode_trim n w.2.2.2.1 hx.1 hc hs _ _ hn.left).append
        (contentsKids_trim r w.2.2.2.2 hx.2 hc hs _ _ _ _ hn.right)
  | .broken _ _ r, path, w, hx, c, c', hc, hs, pos, pos', i, i', hn => by
    rw [WellNamedKids] at w
    rw [AllKids] at hx
    rw [trimKids, contentsKids] at hn ⊢
    rw [contentsKids]
    exact contentsKids_trim r w hx hc hs _ _ _ _ hn
end

/-- The items of a file are those of the file without additional content, and additional ones. -/
theorem contents_trim (w : WellNamedFile f) (hx : OnlyExtras env mgr X f)
    (hn : NoSlash env (contents env (trim X f))) :
    Woven (TrimRel X) (ExtraItem env mgr) (contents env (trim X f)) (contents env f) := by
  have ho : TrimRel X (rootOf (trim X f)) (rootOf f) :=
    ⟨⟨rfl, rfl, rfl, rfl, rfl, fun n e => (by cases e), fun g e => by
      have : g = f.root := (Option.some.inj e).symm
      rw [this]
      exact w.root⟩, fun _ => .nil, fun _ c hc => by cases hc⟩
  rw [contents] at hn ⊢
  rw [contents]
  refine .cons ho ((attributeItems_trim ho _ _ _).append ?_)
  refine contentsKids_trim f.kids w.2.2 hx ho.box (by simp [rootOf]) _ _ _ _ ?_
  exact NoSlash.right (l := attributeItems (rootOf (trim X f)) 0 (sortByName f.attrs))
    fun x hx => hn x (List.mem_cons_of_mem _ hx)

/-! ## two files -/

/-- The items of a file without additional content, and of the file. -/
structure TrimFile (env : Env) (mgr : Manager) (X : Node → Bool) (f : H5File)
    (items items' : List Item) : Prop where
  rel : Woven (TrimRel X) (ExtraItem env mgr) items items'
  once : (items'.filterMap (·.addr)).Nodup
  named : WellNamedFile f

theorem TrimFile.once' (S : TrimFile env mgr X f items items') : (items.filterMap (·.addr)).Nodup :=
  S.once.sublist (S.rel.filterMap_sublist fun _ _ h => h.core.addr)

/-! ## objects of items -/

theorem trimObj_attrs (o : H5Obj) : (trimObj X o).attrs? = o.attrs? := by
  cases o with
  | file f => rfl
  | node n => exact congrArg some (trimNode_attrs n)
  | val => rfl
  | none => rfl

theorem trimObj_name (o : H5Obj) : (trimObj X o).name? = o.name? := by
  cases o with
  | file f => rfl
  | node n => exact congrArg some (trimNode_name n)
  | val => rfl
  | none => rfl

theorem trimObj_asGroup (o : H5Obj) : (trimObj X o).asGroup = o.asGroup.map (trimNode X) := by
  cases o with
  | file f => exact congrArg some (trim_root f)
  | node n => cases n <;> simp [trimObj, trimNode, H5Obj.asGroup]
  | val => rfl
  | none => rfl

theorem trimObj_isGroup (o : H5Obj) : isHdf5Group (trimObj X o) = isHdf5Group o := by
  cases o with
  | file f => rfl
  | node n => cases n <;> simp [trimObj, trimNode, isHdf5Group]
  | val => rfl
  | none => rfl

theorem trimObj_node {o : H5Obj} {m : Node} (h : trimObj X o = .node m) :
    ∃ n, o = .node n ∧ m = trimNode X n := by
  cases o with
  | node n => cases h; exact ⟨n, rfl, rfl⟩
  | file => cases h
  | val => cases h
  | none => cases h

theorem TrimRel.attrs {x y : Item} (h : TrimRel X x y) : x.obj.attrs? = y.obj.attrs? := by
  rw [h.core.obj, trimObj_attrs]

theorem TrimRel.group {x y : Item} (h : TrimRel X x y) {g : Node}
    (e : y.obj.asGroup = some g) : x.obj.asGroup = some (trimNode X g) ∧ Distinct g := by
  refine ⟨?_, h.core.distinct g e⟩
  rw [h.core.obj, trimObj_asGroup, e]
  rfl

theorem TrimRel.group' {x y : Item} (h : TrimRel X x y) {g : Node}
    (e : x.obj.asGroup = some g) :
    ∃ g', y.obj.asGroup = some g' ∧ g = trimNode X g' ∧ Distinct g' := by
  rw [h.core.obj, trimObj_asGroup] at e
  obtain ⟨b, e1, rfl⟩ := Option.map_eq_some_iff.1 e
  exact ⟨b, e1, rfl, h.core.distinct b e1⟩

theorem TrimRel.node {x y : Item} (h : TrimRel X x y) {n : Node} (e : y.obj = .node n) :
    x.obj = .node (trimNode X n) := by
  rw [h.core.obj, e]
  rfl

theorem TrimRel.node' {x y : Item} (h : TrimRel X x y) {m : Node} (e : x.obj = .node m) :
    ∃ n, y.obj = .node n ∧ m = trimNode X n := trimObj_node (h.core.obj ▸ e)

theorem TrimRel.dataset {x y : Item} (h : TrimRel X x y) :
    (∃ n a v, x.obj = .node (.dataset n a v)) ↔ ∃ n a v, y.obj = .node (.dataset n a v) := by
  constructor
  · rintro ⟨n, a, v, e⟩
    obtain ⟨m, e', e''⟩ := h.node' e
    cases m with
    | dataset => exact ⟨_, _, _, e'⟩
    | datatype => simp [trimNode] at e''
    | group => simp [trimNode] at e''
  · rintro ⟨n, a, v, e⟩
    exact ⟨n, a, v, by rw [h.node e, trimNode]⟩

theorem TrimRel.outside {x y : Item} (h : TrimRel X x y) :
    x.classpath = s%"non-NeXus content" ↔ y.classpath = s%"non-NeXus content" := by
  rw [h.core.classpath]

theorem linked_trim {x y : Item} (h : TrimRel X x y) : Linked env x ↔ Linked env y := by
  rw [Linked, Linked, h.attrs, h.core.addr]

/-- Attributes with a meaning belong to objects that are not additional. -/
theorem CarriesAttr.trim (S : TrimFile env mgr X f items items') {y : Item} {a k : Str} {v : Val}
    (h : CarriesAttr items' y a k v) :
    (∃ x, CarriesAttr items x a k v ∧ TrimRel X x y) ∨ (IsNote k ∧ NameOk env mgr k) := by
  obtain ⟨attrs, h1, h2⟩ := h.attr
  rcases S.rel.down h.mem with ⟨x, hx, hl⟩ | hE
  · exact .inl ⟨x, ⟨hx, fun e => h.nexus (hl.outside.1 e), hl.core.addr.trans h.addr, attrs,
      hl.attrs.trans h1, h2⟩, hl⟩
  · exact .inr (hE.attrs h.nexus attrs h1 _ h2)

theorem note_other {k : Str} (h : IsNote k)
    (hk : k ∈ [s%"NX_class", s%"target", s%"signal", s%"axes", s%"default"]) : False := h.2 hk

theorem note_class {k : Str} (h : IsNote k) (hk : NamesClass k) : False := by
  rcases hk with rfl | ⟨p, rfl⟩
  · exact h.2 (by simp)
  · exact h.1 (by simp)

theorem groupClass_trim {cp c : Str} (g : Node) :
    GroupClass env cp (trimNode X g).attrs c ↔ GroupClass env cp g.attrs c := by
  rw [trimNode_attrs]

theorem targetOk_trim (w : WellNamedFile f) {t : Str} (h : TargetOk env mgr (trim X f) t) :
    TargetOk env mgr f t := by
  obtain ⟨u, e, h1, h2⟩ := h
  refine ⟨u, e, fun pre p post ep => ?_, trim_contains_root w h2⟩
  obtain ⟨k1, k2⟩ := h1 pre p post ep
  exact ⟨k1, trim_contains_root w k2⟩

/-! ## definitions -/

theorem hasOneOf_trim (n : Node) (ts : List (Option Str)) :
    HasOneOf env (trimNode X n) ts ↔ HasOneOf env n ts := by
  constructor
  · rintro ⟨m, a, d, e, ht⟩
    cases n with
    | dataset => simp only [trimNode] at e; exact ⟨_, _, _, e, ht⟩
    | datatype => simp [trimNode] at e
    | group => simp [trimNode] at e
  · rintro ⟨m, a, d, rfl, ht⟩
    exact ⟨m, a, d, by simp only [trimNode], ht⟩

theorem declares_trim (w : WellNamedFile f) {g : Node} (d : Distinct g) {name : Str}
    (h : Declares env (trim X f) (trimNode X g) name) : Declares env f g name := by
  obtain ⟨n, a, v, e, hv⟩ := h
  obtain ⟨m, e', e''⟩ := trim_get w d e
  cases m with
  | dataset => simp only [trimNode] at e''; cases e''; exact ⟨_, _, _, e', hv⟩
  | datatype => simp [trimNode] at e''
  | group => simp [trimNode] at e''

end Punx

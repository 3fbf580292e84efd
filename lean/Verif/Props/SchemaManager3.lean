import Verif.Props.SchemaManager2

/-!
# C83: the attributes that a schema manager knows
-/

namespace Punx
open Spec

/-! ## one attribute -/

theorem mem_facetValues {n : XsNode} {tag v : Str} : v ∈ facetValues n tag ↔ HasFacet n tag v := by
  simp only [facetValues, List.mem_filterMap, List.mem_flatMap, HasFacet]
  constructor
  · rintro ⟨e, ⟨r, ⟨s, h1, h2⟩, h3⟩, h4⟩
    exact ⟨s, h1, r, h2, e, h3, h4⟩
  · rintro ⟨s, h1, r, h2, e, h3, h4⟩
    exact ⟨e, ⟨r, ⟨s, h1, h2⟩, h3⟩, h4⟩

theorem toLower_iff {c k : Char} (hk : 97 ≤ k.toNat ∧ k.toNat ≤ 122) :
    c.toLower = k ↔ c = k ∨ c.toNat + 32 = k.toNat := by
  unfold Char.toLower
  split
  · rename_i h
    have h1 : 65 ≤ c.toNat ∧ c.toNat ≤ 90 := h
    rw [← Char.toNat_inj (c := Char.mk _ _)]
    have h2 : (c.val + ('a'.val - 'A'.val)).toNat = c.toNat + 32 := by
      rw [UInt32.toNat_add]
      change (c.toNat + 32) % 2 ^ 32 = _
      omega
    change (c.val + ('a'.val - 'A'.val)).toNat = k.toNat ↔ _
    rw [h2]
    refine ⟨.inr, ?_⟩
    rintro (rfl | h3)
    · omega
    · exact h3
  · rename_i h
    have h1 : ¬ (65 ≤ c.toNat ∧ c.toNat ≤ 90) := h
    refine ⟨.inl, ?_⟩
    rintro (h2 | h2)
    · exact h2
    · omega

theorem lower_iff {v w : Str} (hw : ∀ k ∈ w, 97 ≤ k.toNat ∧ k.toNat ≤ 122) :
    v.map Char.toLower = w ↔ AnyCase v w := by
  unfold AnyCase
  induction w generalizing v with
  | nil => simp
  | cons k w ih =>
    cases v with
    | nil => simp
    | cons c v =>
      rw [List.map_cons, List.cons.injEq, List.forall₂_cons, ih fun x hx => hw x (List.mem_cons_of_mem _ hx),
        toLower_iff (hw k List.mem_cons_self)]

/-- C83: an attribute object says what its declaration says. -/
theorem attribute_describes {n : XsNode} {x : MAttr} (h : readAttr n = .ok x) : MeansAttr n x := by
  unfold readAttr at h
  by_cases ht : (Dict.get? n.attrib s%"type").getD s%"str" = s%"nx:NX_BOOLEAN"
  · cases hd : Dict.get? n.attrib s%"default" with
    | none => simp [ht, hd, bind, Except.bind] at h
    | some d =>
      simp only [ht, hd, bind, Except.bind, if_true] at h
      injection h with h
      subst h
      refine ⟨rfl, by simp, ht.symm, fun v => mem_facetValues, fun v => mem_facetValues, ?_, ?_, ?_⟩
      · intro v; simp
      · intro b hb
        injection hb with hb
        refine ⟨rfl, d, hd, ?_⟩
        rw [← hb, isYes, Bool.or_eq_true, decide_eq_true_eq, decide_eq_true_eq,
          lower_iff (by decide), lower_iff (by decide)]
      · simp [hd]
  · cases hd : Dict.get? n.attrib s%"default" with
    | none =>
      simp only [ht, hd, bind, Except.bind, if_false] at h
      injection h with h
      subst h
      exact ⟨rfl, by simp, rfl, fun v => mem_facetValues, fun v => mem_facetValues, by simp [hd],
        (by intro b hb; cases hb), by simp [hd]⟩
    | some d =>
      simp only [ht, hd, bind, Except.bind, if_false] at h
      injection h with h
      subst h
      refine ⟨rfl, by simp, rfl, fun v => mem_facetValues, fun v => mem_facetValues, ?_,
        (by intro b hb; cases hb), by simp [hd]⟩
      intro v
      simp only [hd, MDefault.text.injEq, Option.some.injEq]
      exact ⟨fun h => ⟨h, ht⟩, fun h => h.1⟩

/-- An attribute object is made unless it is a boolean without a default. -/
theorem attribute_read_iff (n : XsNode) : (∃ x, readAttr n = .ok x) ↔
    (Dict.get? n.attrib s%"type" = some s%"nx:NX_BOOLEAN" → HasAttr n s%"default") := by
  unfold readAttr HasAttr
  cases ht : Dict.get? n.attrib s%"type" with
  | none =>
    have : ¬ (s%"str" : Str) = s%"nx:NX_BOOLEAN" := by decide
    cases hd : Dict.get? n.attrib s%"default" <;> simp [this, bind, Except.bind]
  | some t =>
    by_cases h : t = s%"nx:NX_BOOLEAN" <;> cases hd : Dict.get? n.attrib s%"default" <;>
      simp [h, bind, Except.bind]

/-! ## kinds of nodes -/

theorem isXs_tag {n : XsNode} {a b : Str} (h : n.isXs a = true) (h' : n.isXs b = true) : a = b := by
  cases n with
  | comment => cases h
  | elem xs t l at' k =>
    simp only [XsNode.isXs, Bool.and_eq_true, decide_eq_true_eq] at h h'
    exact h.2.symm.trans h'.2

theorem namedNode_ok {root t : XsNode} {k : Str} (h : namedNode root k = .ok t) :
    t ∈ root.kids ∧ HasName t k ∧
      ∀ {tag : Str} {n : XsNode}, n ∈ root.select tag → HasName n k → n = t := by
  unfold namedNode at h
  split at h
  · rename_i n hf
    injection h with h
    subst h
    have hm := List.mem_filter.1 (hf ▸ List.mem_singleton_self n)
    refine ⟨hm.1, ?_, ?_⟩
    · have := hm.2
      cases n with
      | comment => cases this
      | elem xs t l a ks =>
        cases xs with
        | false => cases this
        | true =>
          have h : Dict.get? a s%"name" = some k := of_decide_eq_true this
          exact h
    · intro tag m hm hk
      obtain ⟨h1, h2⟩ := List.mem_filter.1 hm
      have : m ∈ [n] := by
        rw [← hf]
        refine List.mem_filter.2 ⟨h1, ?_⟩
        cases m with
        | comment => cases h2
        | elem xs t l a ks =>
          simp only [XsNode.isXs, Bool.and_eq_true, decide_eq_true_eq] at h2
          obtain ⟨rfl, _⟩ := h2
          exact decide_eq_true (show Dict.get? a s%"name" = some k from hk)
      exact List.mem_singleton.1 this
  · cases h

theorem ofType_node {root n : XsNode} {k : Str} (h : OfType root k n) :
    ∃ t ∈ root.select s%"complexType", HasName t k := by
  cases h <;> exact ⟨_, ‹_›, ‹_›⟩

theorem ofGroup_node {root n : XsNode} {k : Str} (h : OfGroup root k n) :
    ∃ t ∈ root.select s%"attributeGroup", HasName t k := by
  cases h <;> exact ⟨_, ‹_›, ‹_›⟩

theorem other_kind {root t n m : XsNode} {k a b : Str} (h : namedNode root k = .ok t)
    (hn : n ∈ root.select a) (hk : HasName n k) (hm : m ∈ root.select b) (hk' : HasName m k) :
    a = b := by
  have h1 := (namedNode_ok h).2.2 hn hk
  have h2 := (namedNode_ok h).2.2 hm hk'
  subst h1
  subst h2
  exact isXs_tag (List.mem_filter.1 hn).2 (List.mem_filter.1 hm).2

theorem attrOf_attrGroup {root t n : XsNode} {k : Str} (h : namedNode root k = .ok t)
    (hg : ∃ n ∈ root.select s%"attributeGroup", HasName n k) :
    AttrOf root k n ↔ OfGroup root k n := by
  obtain ⟨g, hg, hk⟩ := hg
  refine ⟨?_, .inr⟩
  rintro (h' | h')
  · obtain ⟨c, hc, hk'⟩ := ofType_node h'
    exact absurd (other_kind h hg hk hc hk') (by decide)
  · exact h'

theorem attrOf_type {root t n : XsNode} {k : Str} (h : namedNode root k = .ok t)
    (hg : ∃ n ∈ root.select s%"complexType", HasName n k) :
    AttrOf root k n ↔ OfType root k n := by
  obtain ⟨g, hg, hk⟩ := hg
  refine ⟨?_, .inl⟩
  rintro (h' | h')
  · exact h'
  · obtain ⟨c, hc, hk'⟩ := ofGroup_node h'
    exact absurd (other_kind h hg hk hc hk') (by decide)

theorem attrOf_group {root t n : XsNode} {k : Str} (h : namedNode root k = .ok t)
    (hg : ∃ n ∈ root.select s%"group", HasName n k) : ¬ AttrOf root k n := by
  obtain ⟨g, hg, hk⟩ := hg
  rintro (h' | h')
  · obtain ⟨c, hc, hk'⟩ := ofType_node h'
    exact absurd (other_kind h hg hk hc hk') (by decide)
  · obtain ⟨c, hc, hk'⟩ := ofGroup_node h'
    exact absurd (other_kind h hg hk hc hk') (by decide)

/-! ## what one step adds -/

/-- From `p` to `p'`, exactly the declarations `D` are added, and good elements. -/
structure Adds (root : XsNode) (D : XsNode → Prop) (p p' : Parts) : Prop where
  sound : ∀ kv ∈ p'.attrs, kv ∈ p.attrs ∨ ∃ n, D n ∧ nameAttr n = kv.1 ∧ MeansAttr n kv.2
  keep : ∀ k ∈ Dict.keys p.attrs, k ∈ Dict.keys p'.attrs
  complete : ∀ n, D n → nameAttr n ∈ Dict.keys p'.attrs
  elems : ∀ kv ∈ p'.children, kv ∈ p.children ∨ ∀ e, Within kv.2 e → AttrsOfType root e

theorem Adds.congr {root : XsNode} {D D' : XsNode → Prop} {p p' : Parts} (h : Adds root D p p')
    (hd : ∀ n, D n ↔ D' n) : Adds root D' p p' := by
  have : D = D' := funext fun n => propext (hd n)
  exact this ▸ h

theorem Adds.refl {root : XsNode} {D : XsNode → Prop} {p : Parts} (hd : ∀ n, ¬ D n) :
    Adds root D p p :=
  ⟨fun _ h => .inl h, fun _ h => h, fun n h => absurd h (hd n), fun _ h => .inl h⟩

theorem Adds.trans {root : XsNode} {D D' : XsNode → Prop} {p p' p'' : Parts}
    (h : Adds root D p p') (h' : Adds root D' p' p'') :
    Adds root (fun n => D n ∨ D' n) p p'' := by
  refine ⟨?_, fun k hk => h'.keep k (h.keep k hk), ?_, ?_⟩
  · intro kv hkv
    rcases h'.sound kv hkv with h1 | ⟨n, h1, h2⟩
    · rcases h.sound kv h1 with h1 | ⟨n, h1, h2⟩
      · exact .inl h1
      · exact .inr ⟨n, .inl h1, h2⟩
    · exact .inr ⟨n, .inr h1, h2⟩
  · rintro n (hn | hn)
    · exact h'.keep _ (h.complete n hn)
    · exact h'.complete n hn
  · intro kv hkv
    rcases h'.elems kv hkv with h1 | h1
    · exact h.elems kv h1
    · exact .inr h1

theorem adds_fold {root : XsNode} {f : Parts → XsNode → Mut Bool Parts}
    {D : XsNode → XsNode → Prop} : ∀ {l : List XsNode},
    (∀ n ∈ l, ∀ p s p' s', f p n s = (.ok p', s') → Adds root (D n) p p') →
    ∀ {p p' : Parts} {s s' : Bool}, Mut.fold f l p s = (.ok p', s') →
      Adds root (fun m => ∃ n ∈ l, D n m) p p'
  | [], _, p, p', s, s', h => by
    obtain ⟨rfl, _⟩ := Mut.pure_ok h
    exact Adds.refl (by simp)
  | n :: l, hf, p, p', s, s', h => by
    obtain ⟨q, s1, h1, h2⟩ := Mut.bind_ok h
    have a1 := hf n List.mem_cons_self p s q s1 h1
    have a2 := adds_fold (fun m hm => hf m (List.mem_cons_of_mem _ hm)) h2
    exact (a1.trans a2).congr (by simp)

theorem mem_keys_putAll {κ β : Type} [DecidableEq κ] {k : κ} : ∀ {d t : Dict κ β},
    k ∈ Dict.keys (Dict.putAll d t) ↔ k ∈ Dict.keys d ∨ k ∈ Dict.keys t
  | [], t => by simp [Dict.putAll, Dict.keys]
  | x :: d, t => by
    have : Dict.putAll (x :: d) t = Dict.putAll d (Dict.set t x.1 x.2) := rfl
    rw [this, mem_keys_putAll, Dict.mem_keys_set]
    simp only [Dict.keys, List.map_cons, List.mem_cons]
    tauto

theorem adds_copy {root : XsNode} {D : XsNode → Prop} {q p : Parts} (h : Adds root D {} q) :
    Adds root D p (q.copyTo p) := by
  refine ⟨?_, ?_, ?_, ?_⟩
  · intro kv hkv
    rcases mem_putAll hkv with h1 | h1
    · rcases h.sound kv h1 with h1 | h1
      · cases h1
      · exact .inr h1
    · exact .inl h1
  · intro k hk
    exact mem_keys_putAll.2 (.inr hk)
  · intro n hn
    exact mem_keys_putAll.2 (.inl (h.complete n hn))
  · intro kv hkv
    rcases mem_putAll hkv with h1 | h1
    · rcases h.elems kv h1 with h1 | h1
      · cases h1
      · exact .inr h1
    · exact .inl h1

theorem Adds.holds {root : XsNode} {D : XsNode → Prop} {p : Parts} (h : Adds root D {} p) :
    Holds D p.attrs := by
  refine ⟨?_, ?_⟩
  · intro a x hx
    rcases h.sound _ (Dict.mem_of_get? hx) with h1 | h1
    · cases h1
    · exact h1
  · intro n hn
    have := h.complete n hn
    cases hg : Dict.get? p.attrs (nameAttr n) with
    | none => exact absurd this (Dict.get?_eq_none.1 hg)
    | some x => exact ⟨x, rfl⟩

theorem adds_attr {root n : XsNode} {p p' : Parts} (h : addAttr p n = .ok p') :
    Adds root (· = n) p p' := by
  unfold addAttr at h
  cases hr : readAttr n with
  | error e => rw [hr] at h; cases h
  | ok x =>
    rw [hr] at h
    injection h with h
    subst h
    have hd := attribute_describes hr
    refine ⟨?_, ?_, ?_, fun _ h => .inl h⟩
    · intro kv hkv
      rcases mem_set_cases hkv with rfl | h1
      · exact .inr ⟨n, rfl, hd.name.symm, hd⟩
      · exact .inl h1
    · intro k hk
      exact Dict.mem_keys_set.2 (.inr hk)
    · rintro m rfl
      exact Dict.mem_keys_set.2 (.inl hd.name.symm)

/-! ## types -/

/-- What is to be shown of `Schema_Type`. -/
def TypeRight (root : XsNode) (ty : Option Str → Mut Bool Parts) : Prop :=
  (∀ s p s', ty none s ≠ (.ok p, s')) ∧
  ∀ ref s p s', ty (some ref) s = (.ok p, s') →
    (∃ t, namedNode root (stripNs ref) = .ok t) ∧ Adds root (AttrOf root (stripNs ref)) {} p

section
variable {root : XsNode} {ty : Option Str → Mut Bool Parts}

theorem typedElem_right (hty : TypeRight root ty) {x ref : Str} {s s' : Bool} {o : MElem}
    (h : typedElem ty x ref s = (.ok o, s')) : ∀ e, Within o e → AttrsOfType root e := by
  obtain ⟨p, s1, h1, h2⟩ := Mut.bind_ok h
  obtain ⟨rfl, _⟩ := Mut.pure_ok h2
  have ha := adds_copy (p := {}) (hty.2 ref s p s1 h1).2
  intro e he
  cases he with
  | self =>
    refine ⟨?_, fun y a c h => by cases h⟩
    intro y r a c h
    injection h with hx hr ha' _
    injection hr with hr
    subst hr
    subst ha'
    exact .inl ha.holds
  | child hk hc =>
    rcases ha.elems _ hk with h | h
    · cases h
    · exact h _ hc

theorem inlineAttrs_adds : ∀ {l : List XsNode} {d d' : Dict (Option Str) MAttr},
    inlineAttrs l d = .ok d' → Adds root (fun m => ∃ t ∈ l, t.isXs s%"complexType" = true ∧
      (t.select s%"attribute").head? = some m) ⟨d, []⟩ ⟨d', []⟩
  | [], d, d', h => by
    injection h with h
    subst h
    exact Adds.refl (by simp)
  | .comment :: _, _, _, h => by cases h
  | .elem xs t i a ks :: l, d, d', h => by
    simp only [inlineAttrs] at h
    generalize XsNode.elem xs t i a ks = n at h
    split at h
    · rename_i hx
      cases hs : n.select s%"attribute" with
      | nil => rw [hs] at h; cases h
      | cons m ms =>
        rw [hs] at h
        cases hr : readAttr m with
        | error e => simp only [hr] at h; cases h
        | ok o =>
          simp only [hr] at h
          have h1 : addAttr ⟨d, []⟩ m = .ok ⟨Dict.set d o.name o, []⟩ := by rw [addAttr, hr]; rfl
          refine ((adds_attr h1).trans (inlineAttrs_adds h)).congr fun k => ?_
          simp only [List.mem_cons, exists_eq_or_imp, hx, hs, List.head?_cons, Option.some.injEq,
            true_and]
          exact or_congr eq_comm Iff.rfl
    · rename_i hx
      split at h
      · refine (inlineAttrs_adds h).congr fun k => ?_
        simp only [List.mem_cons, exists_eq_or_imp, hx, false_and, false_or, Bool.false_eq_true]
      · cases h

theorem inlineAttrs_holds {n : XsNode} {d : Dict (Option Str) MAttr}
    (h : inlineAttrs n.kids [] = .ok d) : Holds (FirstInside n) d :=
  Adds.holds (root := n) ((inlineAttrs_adds h).congr fun m => by
    simp only [FirstInside, XsNode.select, List.mem_filter, and_assoc])

theorem readElem_right (hty : TypeRight root ty) {n : XsNode} (hnode : n ∈ root.nodes)
    {s s' : Bool} {o : MElem} (h : readElem ty n s = (.ok o, s')) : ∀ e, Within o e → AttrsOfType root e := by
  unfold readElem at h
  cases ht : Dict.get? n.attrib s%"type" with
  | none =>
    rw [ht] at h
    obtain ⟨d, s1, h1, h2⟩ := Mut.bind_ok h
    obtain ⟨rfl, _⟩ := Mut.pure_ok h2
    intro e he
    cases he with
    | self =>
      refine ⟨fun y r a c h => (by injection h with _ h; cases h), fun y a c h => ?_⟩
      injection h with h3 _ h4 h5
      subst h3
      subst h4
      exact ⟨h5.symm, n, hnode, rfl, ht, inlineAttrs_holds (Mut.lift_ok h1).1⟩
    | child h _ => cases h
  | some ref =>
   cases hn : Dict.get? n.attrib s%"name" with
   | none => rw [ht, hn] at h; exact (Mut.fail_ok h).elim
   | some x =>
    rw [ht, hn] at h
    dsimp only at h
    split at h
    · rename_i hx
      unfold groupElem at h
      split at h
      · injection h with h1 _
        injection h1 with h1
        subst h1
        intro e he
        cases he with
        | self =>
          refine ⟨?_, fun y a c h => by cases h⟩
          intro y r a c h
          injection h with h1 h2 h3
          injection h2 with h2
          exact .inr ⟨h1.symm.trans (congrArg some hx.1), h2.symm.trans hx.2, h3.symm⟩
        | child hk hc =>
          simp only [MElem.children, List.mem_singleton] at hk
          injection hk with _ hk
          subst hk
          rw [within_recursion hc]
          exact ⟨fun y r a c h => (by cases h), fun y a c h => (by cases h)⟩
      · exact typedElem_right hty h
    · exact typedElem_right hty h

theorem seqItem_adds (hty : TypeRight root ty) {n : XsNode} (hnode : n ∈ root.nodes) {p p' : Parts} {s s' : Bool}
    (h : readSeqItem ty p n s = (.ok p', s')) : Adds root (fun _ => False) p p' := by
  unfold readSeqItem at h
  split at h
  · exact (Mut.fail_ok h).elim
  · split at h
    · obtain ⟨o, s1, h1, h2⟩ := Mut.bind_ok h
      obtain ⟨rfl, _⟩ := Mut.pure_ok h2
      refine ⟨fun _ h => .inl h, fun _ h => h, fun _ h => h.elim, ?_⟩
      intro kv hkv
      rcases mem_set_cases hkv with rfl | h
      · exact .inr (readElem_right hty hnode h1)
      · exact .inl h
    · split at h
      · obtain ⟨rfl, _⟩ := Mut.pure_ok h
        exact Adds.refl (fun _ h => h)
      · exact (Mut.fail_ok h).elim

theorem seq_adds (hty : TypeRight root ty) {l : List XsNode} (hl : ∀ n ∈ l, n ∈ root.nodes) {p p' : Parts} {s s' : Bool}
    (h : Mut.fold (readSeqItem ty) l p s = (.ok p', s')) : Adds root (fun _ => False) p p' :=
  (adds_fold (D := fun _ _ => False) (fun n hn _ _ _ _ h => seqItem_adds hty (hl n hn) h) h).congr (by simp)

/-- The declarations that a child of an extension gives. -/
def OfExtItem (root n m : XsNode) : Prop :=
  (n.isXs s%"attribute" = true ∧ m = n) ∨
  (n.isXs s%"attributeGroup" = true ∧ ∃ r, Dict.get? n.attrib s%"ref" = some r ∧
    OfGroup root (stripNs r) m)

theorem extItem_adds (hty : TypeRight root ty) {n : XsNode} (hnode : n ∈ root.nodes) {p p' : Parts} {s s' : Bool}
    (h : readExtItem ty p n s = (.ok p', s')) : Adds root (OfExtItem root n) p p' := by
  unfold readExtItem at h
  split at h
  · exact (Mut.fail_ok h).elim
  · rename_i xs t l a ks
    generalize XsNode.elem xs t l a ks = n at h hnode
    split at h
    · rename_i hx
      obtain ⟨rfl, _⟩ := Mut.pure_ok h
      refine Adds.refl ?_
      rintro m (⟨h1, _⟩ | ⟨h1, _⟩) <;> exact absurd (isXs_tag hx h1) (by decide)
    · split at h
      · rename_i hx
        obtain ⟨h, _⟩ := Mut.lift_ok h
        refine (adds_attr h).congr fun m => ⟨fun e => .inl ⟨hx, e⟩, ?_⟩
        rintro (⟨_, h1⟩ | ⟨h1, _⟩)
        · exact h1
        · exact absurd (isXs_tag hx h1) (by decide)
      · split at h
        · rename_i hx
          refine (seq_adds hty (fun _ hk => nodes_kid root hnode hk) h).congr fun m => ⟨False.elim, ?_⟩
          rintro (⟨h1, _⟩ | ⟨h1, _⟩) <;> exact absurd (isXs_tag hx h1) (by decide)
        · exact (Mut.fail_ok h).elim

/-- The declarations that an extension gives. -/
def OfExtension (root e m : XsNode) : Prop :=
  e.isXs s%"extension" = true ∧
    ((∃ n ∈ e.kids, OfExtItem root n m) ∨
      ∃ b, Dict.get? e.attrib s%"base" = some b ∧ OfType root (stripNs b) m)

theorem contentItem_adds (hty : TypeRight root ty) {n : XsNode} (hnode : n ∈ root.nodes) {p p' : Parts} {s s' : Bool}
    (hb : n.isXs s%"extension" = true → ∀ b, Dict.get? n.attrib s%"base" = some b →
      ∃ n ∈ root.select s%"complexType", HasName n (stripNs b))
    (h : readContentItem ty p n s = (.ok p', s')) : Adds root (OfExtension root n) p p' := by
  unfold readContentItem at h
  split at h
  · exact (Mut.fail_ok h).elim
  · rename_i xs t l a ks
    generalize XsNode.elem xs t l a ks = n at h hb hnode
    split at h
    · rename_i hx
      cases hbase : Dict.get? n.attrib s%"base" with
      | none => rw [hbase] at h; exact (Mut.fail_ok h).elim
      | some b =>
        rw [hbase] at h
        dsimp only at h
        split at h
        · obtain ⟨q, s1, h1, h2⟩ := Mut.bind_ok h
          obtain ⟨⟨t, ht⟩, hq⟩ := hty.2 b s q s1 h1
          have a1 := adds_copy (p := p) hq
          have a2 := adds_fold (D := OfExtItem root)
            (fun i hi _ _ _ _ h => extItem_adds hty (nodes_kid root hnode hi) h) h2
          refine (a1.trans a2).congr fun m => ?_
          rw [attrOf_type ht (hb hx b hbase)]
          constructor
          · rintro (h | h)
            · exact ⟨hx, .inr ⟨b, hbase, h⟩⟩
            · exact ⟨hx, .inl h⟩
          · rintro ⟨_, h | ⟨b', hb', h⟩⟩
            · exact .inr h
            · rw [hbase] at hb'
              injection hb' with hb'
              subst hb'
              exact .inl h
        · exact (Mut.fail_ok h).elim
    · exact (Mut.fail_ok h).elim

/-- The declarations that a child of a type or an attribute group gives. -/
def OfItem (root n m : XsNode) : Prop :=
  (n.isXs s%"attribute" = true ∧ m = n) ∨
  (n.isXs s%"attributeGroup" = true ∧ ∃ r, Dict.get? n.attrib s%"ref" = some r ∧
    OfGroup root (stripNs r) m) ∨
  (n.isXs s%"complexContent" = true ∧ ∃ e ∈ n.kids, OfExtension root e m)

theorem no_item {n m : XsNode} {a : Str} (hx : n.isXs a = true) (h1 : a ≠ s%"attribute")
    (h2 : a ≠ s%"attributeGroup") (h3 : a ≠ s%"complexContent") : ¬ OfItem root n m := by
  rintro (⟨h, _⟩ | ⟨h, _⟩ | ⟨h, _⟩)
  · exact h1 (isXs_tag hx h)
  · exact h2 (isXs_tag hx h)
  · exact h3 (isXs_tag hx h)

theorem typeItem_adds (hty : TypeRight root ty) (hv : ValidRefs root) {t n : XsNode}
    (ht : t ∈ root.kids) (hn : n ∈ t.kids) {p p' : Parts} {s s' : Bool}
    (h : readTypeItem ty p n s = (.ok p', s')) : Adds root (OfItem root n) p p' := by
  have hnode : n ∈ root.nodes := nodes_kid root (nodes_kid root (mem_nodes_self root) ht) hn
  unfold readTypeItem at h
  split at h
  · obtain ⟨rfl, _⟩ := Mut.pure_ok h
    exact Adds.refl (by rintro m (⟨h, _⟩ | ⟨h, _⟩ | ⟨h, _⟩) <;> cases h)
  · rename_i xs t' l a ks
    generalize XsNode.elem xs t' l a ks = n at h hn hnode
    split at h
    · rename_i hx
      obtain ⟨rfl, _⟩ := Mut.pure_ok h
      exact Adds.refl fun m => no_item hx (by decide) (by decide) (by decide)
    · split at h
      · rename_i hx
        obtain ⟨h, _⟩ := Mut.lift_ok h
        refine (adds_attr h).congr fun m => ⟨fun e => .inl ⟨hx, e⟩, ?_⟩
        rintro (⟨_, h1⟩ | ⟨h1, _⟩ | ⟨h1, _⟩)
        · exact h1
        · exact absurd (isXs_tag hx h1) (by decide)
        · exact absurd (isXs_tag hx h1) (by decide)
      · split at h
        · rename_i hx
          obtain ⟨q, s1, h1, h2⟩ := Mut.bind_ok h
          obtain ⟨rfl, _⟩ := Mut.pure_ok h2
          cases hr : Dict.get? n.attrib s%"ref" with
          | none => rw [hr] at h1; exact absurd h1 (hty.1 _ _ _)
          | some r =>
            rw [hr] at h1
            obtain ⟨⟨u, hu⟩, hq⟩ := hty.2 r s q s1 h1
            refine (adds_copy hq).congr fun m => ?_
            by_cases hg : n.isXs s%"attributeGroup" = true
            · have := hv.attrGroups t ht n (List.mem_filter.2 ⟨hn, hg⟩) r hr
              rw [attrOf_attrGroup hu this]
              constructor
              · exact fun h => .inr (.inl ⟨hg, r, hr, h⟩)
              · rintro (⟨h1, _⟩ | ⟨_, r', hr', h⟩ | ⟨h1, _⟩)
                · exact absurd (isXs_tag hg h1) (by decide)
                · rw [hr] at hr'
                  injection hr' with hr'
                  subst hr'
                  exact h
                · exact absurd (isXs_tag hg h1) (by decide)
            · have hg' : n.isXs s%"group" = true := by simpa [hg] using hx
              have hroot : n ∈ root.everywhere s%"group" :=
                List.mem_filter.2 ⟨nodes_kid root (nodes_kid root (mem_nodes_self root) ht) hn, hg'⟩
              exact ⟨fun h => absurd h (attrOf_group hu (hv.groups n hroot r hr)),
                fun h => absurd h (no_item hg' (by decide) (by decide) (by decide))⟩
        · split at h
          · rename_i hx
            have hb : ∀ e ∈ n.kids, e.isXs s%"extension" = true →
                ∀ b, Dict.get? e.attrib s%"base" = some b →
                  ∃ n ∈ root.select s%"complexType", HasName n (stripNs b) := fun e he hxe =>
              hv.bases t ht e ⟨n, List.mem_filter.2 ⟨hn, hx⟩, List.mem_filter.2 ⟨he, hxe⟩⟩
            refine (adds_fold (D := OfExtension root)
              (fun e he _ _ _ _ h => contentItem_adds hty (nodes_kid root hnode he) (hb e he) h) h).congr fun m => ?_
            constructor
            · exact fun h => .inr (.inr ⟨hx, h⟩)
            · rintro (⟨h1, _⟩ | ⟨h1, _⟩ | ⟨_, h⟩)
              · exact absurd (isXs_tag hx h1) (by decide)
              · exact absurd (isXs_tag hx h1) (by decide)
              · exact h
          · split at h
            · rename_i hx
              exact (seq_adds hty (fun _ hk => nodes_kid root hnode hk) h).congr fun m =>
                ⟨False.elim, no_item hx (by decide) (by decide) (by decide)⟩
            · exact (Mut.fail_ok h).elim
end

/-! ## what XML Schema says -/

theorem ofType_items {root t m : XsNode} {k : Str} (ht : t ∈ root.select s%"complexType")
    (hk : HasName t k)
    (hu : ∀ u ∈ root.select s%"complexType", HasName u k → u = t) :
    OfType root k m ↔ ∃ n ∈ t.kids, OfItem root n m := by
  constructor
  · intro h
    cases h with
    | own h1 h2 h3 =>
      obtain rfl := hu _ h1 h2
      obtain ⟨h4, h5⟩ := List.mem_filter.1 h3
      exact ⟨_, h4, .inl ⟨h5, rfl⟩⟩
    | group h1 h2 h3 h6 h7 =>
      obtain rfl := hu _ h1 h2
      obtain ⟨h4, h5⟩ := List.mem_filter.1 h3
      exact ⟨_, h4, .inr (.inl ⟨h5, _, h6, h7⟩)⟩
    | extension h1 h2 h3 h6 =>
      obtain rfl := hu _ h1 h2
      obtain ⟨c, hc, he⟩ := h3
      obtain ⟨h4, h5⟩ := List.mem_filter.1 hc
      obtain ⟨h8, h9⟩ := List.mem_filter.1 he
      obtain ⟨h10, h11⟩ := List.mem_filter.1 h6
      exact ⟨c, h4, .inr (.inr ⟨h5, _, h8, h9, .inl ⟨_, h10, .inl ⟨h11, rfl⟩⟩⟩)⟩
    | extensionGroup h1 h2 h3 h6 h7 h12 =>
      obtain rfl := hu _ h1 h2
      obtain ⟨c, hc, he⟩ := h3
      obtain ⟨h4, h5⟩ := List.mem_filter.1 hc
      obtain ⟨h8, h9⟩ := List.mem_filter.1 he
      obtain ⟨h10, h11⟩ := List.mem_filter.1 h6
      exact ⟨c, h4, .inr (.inr ⟨h5, _, h8, h9, .inl ⟨_, h10, .inr ⟨h11, _, h7, h12⟩⟩⟩)⟩
    | base h1 h2 h3 h6 h7 =>
      obtain rfl := hu _ h1 h2
      obtain ⟨c, hc, he⟩ := h3
      obtain ⟨h4, h5⟩ := List.mem_filter.1 hc
      obtain ⟨h8, h9⟩ := List.mem_filter.1 he
      exact ⟨c, h4, .inr (.inr ⟨h5, _, h8, h9, .inr ⟨_, h6, h7⟩⟩)⟩
  · rintro ⟨n, hn, h⟩
    rcases h with ⟨h1, rfl⟩ | ⟨h1, r, h2, h3⟩ | ⟨h1, e, he, hx, h⟩
    · exact .own ht hk (List.mem_filter.2 ⟨hn, h1⟩)
    · exact .group ht hk (List.mem_filter.2 ⟨hn, h1⟩) h2 h3
    · have hext : Extends t e :=
        ⟨n, List.mem_filter.2 ⟨hn, h1⟩, List.mem_filter.2 ⟨he, hx⟩⟩
      rcases h with ⟨i, hi, ⟨h4, rfl⟩ | ⟨h4, r, h5, h6⟩⟩ | ⟨b, h4, h5⟩
      · exact .extension ht hk hext (List.mem_filter.2 ⟨hi, h4⟩)
      · exact .extensionGroup ht hk hext (List.mem_filter.2 ⟨hi, h4⟩) h5 h6
      · exact .base ht hk hext h4 h5

theorem ofGroup_items {root t m : XsNode} {k : Str} (ht : t ∈ root.select s%"attributeGroup")
    (hk : HasName t k)
    (hu : ∀ u ∈ root.select s%"attributeGroup", HasName u k → u = t)
    (hc : t.select s%"complexContent" = []) :
    OfGroup root k m ↔ ∃ n ∈ t.kids, OfItem root n m := by
  constructor
  · intro h
    cases h with
    | own h1 h2 h3 =>
      obtain rfl := hu _ h1 h2
      obtain ⟨h4, h5⟩ := List.mem_filter.1 h3
      exact ⟨_, h4, .inl ⟨h5, rfl⟩⟩
    | nested h1 h2 h3 h6 h7 =>
      obtain rfl := hu _ h1 h2
      obtain ⟨h4, h5⟩ := List.mem_filter.1 h3
      exact ⟨_, h4, .inr (.inl ⟨h5, _, h6, h7⟩)⟩
  · rintro ⟨n, hn, h⟩
    rcases h with ⟨h1, rfl⟩ | ⟨h1, r, h2, h3⟩ | ⟨h1, _⟩
    · exact .own ht hk (List.mem_filter.2 ⟨hn, h1⟩)
    · exact .nested ht hk (List.mem_filter.2 ⟨hn, h1⟩) h2 h3
    · have : n ∈ t.select s%"complexContent" := List.mem_filter.2 ⟨hn, h1⟩
      rw [hc] at this
      cases this

theorem attrOf_items {root t m : XsNode} {k : Str} (hv : ValidRefs root)
    (h : namedNode root k = .ok t) : AttrOf root k m ↔ ∃ n ∈ t.kids, OfItem root n m := by
  obtain ⟨ht, hk, hu⟩ := namedNode_ok h
  rcases hv.kinds t ht with hx | ⟨hc, _, hx | ⟨ha, hg⟩⟩
  · have hm : t ∈ root.select s%"complexType" := List.mem_filter.2 ⟨ht, hx⟩
    rw [attrOf_type h ⟨t, hm, hk⟩]
    exact ofType_items hm hk fun u h1 h2 => hu h1 h2
  · have hm : t ∈ root.select s%"attributeGroup" := List.mem_filter.2 ⟨ht, hx⟩
    rw [attrOf_attrGroup h ⟨t, hm, hk⟩]
    exact ofGroup_items hm hk (fun u h1 h2 => hu h1 h2) hc
  · have none : ∀ n ∈ t.kids, ¬ OfItem root n m := by
      rintro n hn (⟨h1, _⟩ | ⟨h1, _⟩ | ⟨h1, _⟩)
      · have : n ∈ t.select s%"attribute" := List.mem_filter.2 ⟨hn, h1⟩
        rw [ha] at this; cases this
      · have : n ∈ t.select s%"attributeGroup" := List.mem_filter.2 ⟨hn, h1⟩
        rw [hg] at this; cases this
      · have : n ∈ t.select s%"complexContent" := List.mem_filter.2 ⟨hn, h1⟩
        rw [hc] at this; cases this
    constructor
    · rintro (h' | h')
      · obtain ⟨u, h1, h2⟩ := ofType_node h'
        obtain rfl := hu h1 h2
        obtain ⟨n, hn, h3⟩ := (ofType_items h1 hk fun u h1 h2 => hu h1 h2).1 h'
        exact absurd h3 (none n hn)
      · obtain ⟨u, h1, h2⟩ := ofGroup_node h'
        obtain rfl := hu h1 h2
        obtain ⟨n, hn, h3⟩ := (ofGroup_items h1 hk (fun u h1 h2 => hu h1 h2) hc).1 h'
        exact absurd h3 (none n hn)
    · rintro ⟨n, hn, h3⟩
      exact absurd h3 (none n hn)

theorem readTypeOf_right {root : XsNode} (hv : ValidRefs root) : ∀ fuel,
    TypeRight root (readTypeOf root fuel)
  | 0 => ⟨fun _ _ _ h => Mut.fail_ok h, fun _ _ _ _ h => (Mut.fail_ok h).elim⟩
  | fuel + 1 => by
    refine ⟨fun _ _ _ h => Mut.fail_ok h, ?_⟩
    intro ref s p s' h
    obtain ⟨t, s1, h1, h2⟩ := Mut.bind_ok h
    obtain ⟨h1, _⟩ := Mut.lift_ok h1
    refine ⟨⟨t, h1⟩, ?_⟩
    refine (adds_fold (D := OfItem root) (fun n hn _ _ _ _ h => typeItem_adds
      (readTypeOf_right hv fuel) hv (namedNode_ok h1).1 hn h) h2).congr fun m => ?_
    exact (attrOf_items hv h1).symm

/-- C83: if a type or attribute group of a valid schema can be read, its attributes are exactly
those that XML Schema gives to it, and the same holds for all elements found in it. -/
theorem manager_type_attributes {root : XsNode} (hv : ValidRefs root) {fuel : Nat} {ref : Str}
    {s s' : Bool} {p : Parts} (h : readTypeOf root fuel (some ref) s = (.ok p, s')) :
    Holds (AttrOf root (stripNs ref)) p.attrs ∧
      ∀ k c, Dict.get? p.children k = some c → ∀ e, Within c e → AttrsOfType root e := by
  have := ((readTypeOf_right hv fuel).2 ref s p s' h).2
  refine ⟨this.holds, ?_⟩
  intro k c hc
  rcases this.elems _ (Dict.mem_of_get? hc) with h | h
  · cases h
  · exact h

/-! ## the root element -/

theorem addsShared_fold {root : XsNode} {f : XsNode → Mut Shared Unit}
    {D : XsNode → XsNode → Prop} : ∀ {l : List XsNode},
    (∀ n ∈ l, ∀ s u s', f n s = (.ok u, s') → Adds root (D n) s.parts s'.parts) →
    ∀ {s s' : Shared} {u : Unit}, Mut.fold (fun _ n => f n) l () s = (.ok u, s') →
      Adds root (fun m => ∃ n ∈ l, D n m) s.parts s'.parts
  | [], _, s, s', u, h => by
    obtain ⟨_, rfl⟩ := Mut.pure_ok h
    exact Adds.refl (by simp)
  | n :: l, hf, s, s', u, h => by
    obtain ⟨q, s1, h1, h2⟩ := Mut.bind_ok h
    have a1 := hf n List.mem_cons_self s q s1 h1
    have a2 := addsShared_fold (fun m hm => hf m (List.mem_cons_of_mem _ hm)) h2
    exact (a1.trans a2).congr (by simp)

theorem onStarted_ok {α : Type} {m : Mut Bool α} {s s' : Shared} {a : α}
    (h : onStarted m s = (.ok a, s')) :
    m s.started = (.ok a, s'.started) ∧ s'.parts = s.parts := by
  simp only [onStarted] at h
  injection h with h1 h2
  subst h2
  exact ⟨Prod.ext h1 rfl, rfl⟩

theorem onParts_ok {f : Parts → Parts} {s s' : Shared} {u : Unit}
    (h : onParts f s = (.ok u, s')) : s'.parts = f s.parts := by
  injection h with _ h
  rw [← h]

section
variable {root : XsNode} {ty : Option Str → Mut Bool Parts}

theorem rootSeqItem_adds (hty : TypeRight root ty) (hv : ValidRefs root) {n : XsNode}
    (hn : n ∈ root.nodes) {s s' : Shared} {u : Unit}
    (h : rootSeqItem ty n s = (.ok u, s')) : Adds root (fun _ => False) s.parts s'.parts := by
  unfold rootSeqItem at h
  split at h
  · exact (Mut.fail_ok h).elim
  · rename_i xs t' l a ks
    generalize XsNode.elem xs t' l a ks = n at h hn
    split at h
    · obtain ⟨o, s1, h1, h2⟩ := Mut.bind_ok h
      obtain ⟨h1, h3⟩ := onStarted_ok h1
      rw [onParts_ok h2, h3]
      refine ⟨fun _ h => .inl h, fun _ h => h, fun _ h => h.elim, ?_⟩
      intro kv hkv
      rcases mem_set_cases hkv with rfl | h
      · exact .inr (readElem_right hty hn h1)
      · exact .inl h
    · split at h
      · rename_i hx
        obtain ⟨q, s1, h1, h2⟩ := Mut.bind_ok h
        obtain ⟨h1, h3⟩ := onStarted_ok h1
        rw [onParts_ok h2, h3]
        cases hr : Dict.get? n.attrib s%"ref" with
        | none => rw [hr] at h1; exact absurd h1 (hty.1 _ _ _)
        | some r =>
          rw [hr] at h1
          obtain ⟨⟨v, hv'⟩, hq⟩ := hty.2 r _ q _ h1
          exact (adds_copy hq).congr fun m =>
            ⟨attrOf_group hv' (hv.groups n (List.mem_filter.2 ⟨hn, hx⟩) r hr), False.elim⟩
      · exact (Mut.fail_ok h).elim

theorem rootItem_adds (hty : TypeRight root ty) (hv : ValidRefs root) {t n : XsNode}
    (ht : t ∈ root.kids) (hn : n ∈ t.kids) {s s' : Shared} {u : Unit}
    (h : rootItem' ty n s = (.ok u, s')) : Adds root (OfItem root n) s.parts s'.parts := by
  have hnode : n ∈ root.nodes := nodes_kid root (nodes_kid root (mem_nodes_self root) ht) hn
  unfold rootItem' at h
  split at h
  · exact (Mut.fail_ok h).elim
  · rename_i xs t' l a ks
    generalize XsNode.elem xs t' l a ks = n at h hn hnode
    split at h
    · rename_i hx
      obtain ⟨x, s1, h1, h2⟩ := Mut.bind_ok h
      obtain ⟨hra, rfl⟩ := Mut.lift_ok h1
      rw [onParts_ok h2]
      have : addAttr s1.parts n =
          .ok { s1.parts with attrs := Dict.set s1.parts.attrs x.name x } := by
        rw [addAttr, hra]; rfl
      refine (adds_attr this).congr fun m => ⟨fun e => .inl ⟨hx, e⟩, ?_⟩
      rintro (⟨_, h1⟩ | ⟨h1, _⟩ | ⟨h1, _⟩)
      · exact h1
      · exact absurd (isXs_tag hx h1) (by decide)
      · exact absurd (isXs_tag hx h1) (by decide)
    · split at h
      · rename_i hg
        obtain ⟨q, s1, h1, h2⟩ := Mut.bind_ok h
        obtain ⟨h1, h3⟩ := onStarted_ok h1
        rw [onParts_ok h2, h3]
        cases hr : Dict.get? n.attrib s%"ref" with
        | none => rw [hr] at h1; exact absurd h1 (hty.1 _ _ _)
        | some r =>
          rw [hr] at h1
          obtain ⟨⟨v, hv'⟩, hq⟩ := hty.2 r _ q _ h1
          refine (adds_copy hq).congr fun m => ?_
          have := hv.attrGroups t ht n (List.mem_filter.2 ⟨hn, hg⟩) r hr
          rw [attrOf_attrGroup hv' this]
          constructor
          · exact fun h => .inr (.inl ⟨hg, r, hr, h⟩)
          · rintro (⟨h1, _⟩ | ⟨_, r', hr', h⟩ | ⟨h1, _⟩)
            · exact absurd (isXs_tag hg h1) (by decide)
            · rw [hr] at hr'
              injection hr' with hr'
              subst hr'
              exact h
            · exact absurd (isXs_tag hg h1) (by decide)
      · split at h
        · rename_i hx
          exact (addsShared_fold (D := fun _ _ => False) (fun m hm _ _ _ h =>
            rootSeqItem_adds hty hv (nodes_kid root hnode hm) h) h).congr fun m =>
              ⟨by simp, fun h => absurd h (no_item hx (by decide) (by decide) (by decide))⟩
        · split at h
          · rename_i hx
            obtain ⟨_, rfl⟩ := Mut.pure_ok h
            exact Adds.refl fun m => no_item hx (by decide) (by decide) (by decide)
          · exact (Mut.fail_ok h).elim
end

theorem newManager_ok {fuel : Nat} {int : Str → Option Int} {valid : XsNode → Option XsNode → Bool}
    {root : XsNode} {types : Option XsNode} {s s' : Shared} {o : OwnSchema}
    (h : newManager fuel int valid (some root) types s = (.ok o, s')) :
    ∃ n t m, root.select s%"element" = [n] ∧ Dict.get? n.attrib s%"type" = some t ∧
      (root.select s%"complexType").filter
        (fun m => Dict.get? m.attrib s%"name" = some (stripNs t)) = [m] ∧
      Mut.fold (fun _ k => rootItem' (readTypeOf root fuel) k) m.kids () s = (.ok (), s') := by
  simp only [newManager] at h
  split at h
  · cases he : root.select s%"element" with
    | nil => rw [he] at h; exact (Mut.fail_ok h).elim
    | cons n ns =>
      cases ns with
      | cons _ _ => rw [he] at h; exact (Mut.fail_ok h).elim
      | nil =>
        rw [he] at h
        obtain ⟨u, s1, h1, h2⟩ := Mut.bind_ok h
        obtain ⟨tu, s2, h3, h4⟩ := Mut.bind_ok h2
        obtain ⟨ps, s3, h5, h6⟩ := Mut.bind_ok h4
        obtain ⟨_, rfl⟩ := Mut.lift_ok h3
        obtain ⟨_, rfl⟩ := Mut.lift_ok h5
        obtain ⟨_, rfl⟩ := Mut.pure_ok h6
        unfold readRoot at h1
        cases ht : Dict.get? n.attrib s%"type" with
        | none => rw [ht] at h1; exact (Mut.fail_ok h1).elim
        | some t =>
          rw [ht] at h1
          dsimp only at h1
          generalize hf : (root.select s%"complexType").filter
            (fun m => Dict.get? m.attrib s%"name" = some (stripNs t)) = l at h1
          match l, h1 with
          | [m], h1 => exact ⟨n, t, m, rfl, ht, hf, h1⟩
          | [], h1 => exact (Mut.fail_ok h1).elim
          | _ :: _ :: _, h1 => exact (Mut.fail_ok h1).elim
  · exact (Mut.fail_ok h).elim

/-- C83: if the first schema manager of a process is made from a valid schema, its attributes are
exactly those that XML Schema gives to the type of the element of the schema, and the attributes
of all elements in it are those of their types. -/
theorem definition_attributes {fuel : Nat} {int : Str → Option Int} {valid : XsNode → Option XsNode → Bool}
    {root : XsNode} {types : Option XsNode} {s' : Shared} {o : OwnSchema} (hv : ValidRefs root)
    (h : newManager fuel int valid (some root) types {} = (.ok o, s')) :
    ∃ n t, root.select s%"element" = [n] ∧ Dict.get? n.attrib s%"type" = some t ∧
      Holds (OfType root (stripNs t)) s'.parts.attrs ∧
      ∀ k c, Dict.get? s'.parts.children k = some c → ∀ e, Within c e → AttrsOfType root e := by
  obtain ⟨n, t, m, h1, h2, h3, h4⟩ := newManager_ok h
  have hm := List.mem_filter.1 (h3 ▸ List.mem_singleton_self m)
  have hk : Dict.get? m.attrib s%"name" = some (stripNs t) := of_decide_eq_true hm.2
  have hu : ∀ u ∈ root.select s%"complexType", HasName u (stripNs t) → u = m := by
    intro u hu hn
    have : u ∈ [m] := h3 ▸ List.mem_filter.2 ⟨hu, decide_eq_true
      (show Dict.get? u.attrib s%"name" = some (stripNs t) from hn)⟩
    exact List.mem_singleton.1 this
  have ha := (addsShared_fold (D := OfItem root) (fun k hk' _ _ _ h =>
    rootItem_adds (readTypeOf_right hv fuel) hv (select_kid hm.1) hk' h) h4).congr
      fun x => (ofType_items hm.1 hk hu).symm
  refine ⟨n, t, h1, h2, ha.holds, ?_⟩
  intro k c hc
  rcases ha.elems _ (Dict.mem_of_get? hc) with h | h
  · cases h
  · exact h

/-! ## examples -/

/-- `ValidRefs`, to be computed. -/
def refsCheck (root : XsNode) : Bool :=
  (root.kids.all fun m => m.isXs s%"complexType" ||
    ((m.select s%"complexContent").isEmpty && (m.select s%"group").isEmpty &&
      (m.isXs s%"attributeGroup" ||
        (m.select s%"attribute").isEmpty && (m.select s%"attributeGroup").isEmpty))) &&
  ((root.everywhere s%"group").all fun g => match Dict.get? g.attrib s%"ref" with
    | none => true
    | some r => (root.select s%"group").any fun n =>
        Dict.get? n.attrib s%"name" = some (stripNs r)) &&
  (root.kids.all fun m => (m.select s%"attributeGroup").all fun g =>
    match Dict.get? g.attrib s%"ref" with
    | none => true
    | some r => (root.select s%"attributeGroup").any fun n =>
        Dict.get? n.attrib s%"name" = some (stripNs r)) &&
  (root.kids.all fun m => m.isXs s%"complexType" || m.isXs s%"group" ||
    (m.select s%"sequence").isEmpty) &&
  (root.kids.all fun m => (m.select s%"complexContent").all fun c =>
    (c.select s%"extension").all fun e => match Dict.get? e.attrib s%"base" with
    | none => true
    | some b => (root.select s%"complexType").any fun n =>
        Dict.get? n.attrib s%"name" = some (stripNs b))

theorem refsCheck_sound {root : XsNode} (h : refsCheck root = true) : ValidRefs root := by
  simp only [refsCheck, Bool.and_eq_true, List.all_eq_true, Bool.or_eq_true,
    List.isEmpty_iff] at h
  obtain ⟨⟨⟨⟨h1, h2⟩, h3⟩, h5⟩, h4⟩ := h
  have any : ∀ {tag k : Str}, ((root.select tag).any fun n =>
      Dict.get? n.attrib s%"name" = some k) = true →
      ∃ n ∈ root.select tag, HasName n k := by
    intro tag k h
    obtain ⟨n, hn, h⟩ := List.any_eq_true.1 h
    have h : Dict.get? n.attrib s%"name" = some k := of_decide_eq_true h
    exact ⟨n, hn, h⟩
  refine ⟨?_, ?_, ?_, ?_, ?_⟩
  · intro m hm
    rcases h1 m hm with h | ⟨⟨ha, hb⟩, hc⟩
    · exact .inl h
    · exact .inr ⟨ha, hb, hc⟩
  · intro g hg r hr
    have := h2 g hg
    rw [hr] at this
    exact any this
  · intro m hm g hg r hr
    have := h3 m hm g hg
    rw [hr] at this
    exact any this
  · intro m hm
    rcases h5 m hm with (h | h) | h
    · exact .inl h
    · exact .inr (.inl h)
    · exact .inr (.inr h)
  · intro m hm e he b hb
    obtain ⟨c, hc, he⟩ := he
    have := h4 m hm c hc e he
    rw [hb] at this
    exact any this

/-- The shipped schema is valid in this sense. -/
theorem nxdlXsd_refs : ValidRefs (nxdlXsd 705) := refsCheck_sound (by decide +kernel)

/-- The type of fields extends `basicComponent`: it has an attribute of the base, `name`, one of
its own, `units`, and one of the group that the base refers to. -/
example : ∃ p s', readTypeOf (nxdlXsd 705) 20 (some s%"nx:fieldType") true = (.ok p, s') ∧
    s%"name" ∈ (Dict.keys p.attrs).filterMap id ∧ s%"units" ∈ (Dict.keys p.attrs).filterMap id ∧
    s%"deprecated" ∈ (Dict.keys p.attrs).filterMap id := by
  have h : (match readTypeOf (nxdlXsd 705) 20 (some s%"nx:fieldType") true with
    | (.ok p, _) => decide (s%"name" ∈ (Dict.keys p.attrs).filterMap id ∧
        s%"units" ∈ (Dict.keys p.attrs).filterMap id ∧
        s%"deprecated" ∈ (Dict.keys p.attrs).filterMap id)
    | _ => false) = true := by decide +kernel
  generalize hr : readTypeOf (nxdlXsd 705) 20 (some s%"nx:fieldType") true = r at h
  obtain ⟨x, s'⟩ := r
  cases x with
  | error e => cases h
  | ok p => exact ⟨p, s', rfl, of_decide_eq_true h⟩

/-- The hypotheses of `definition_attributes` for the parts that concern groups. -/
example : ValidRefs groupXsd ∧
    (newManager 20 xsdInt (fun _ _ => true) (some groupXsd) (some nxTypesXsd) {}).1.toBool = true :=
  ⟨refsCheck_sound (by decide +kernel), by decide +kernel⟩

/-- C83 is false: a default that is true in the other spelling of booleans is read as false. -/
theorem boolean_one_lost :
    (readAttr (.elem true s%"attribute" 1 [(s%"name", s%"optional"),
      (s%"type", s%"nx:NX_BOOLEAN"), (s%"default", s%"1")] [])).toOption.map MAttr.default =
        some (.flag false) := by decide

/-- C83 is false: of a type that is written inside of an element, only the first attribute is
known. In the shipped schema, `dim` loses its attribute `value`. -/
theorem inside_attributes_lost :
    (∃ n ∈ (nxdlXsd 705).everywhere s%"element", nameAttr n = some s%"dim" ∧
      ∃ t ∈ n.select s%"complexType",
        (t.select s%"attribute").filterMap nameAttr =
          [s%"index", s%"value", s%"ref", s%"refindex", s%"incr", s%"required"]) ∧
    ∃ p s' o, readTypeOf (nxdlXsd 705) 20 (some s%"nx:dimensionsType") true = (.ok p, s') ∧
      Dict.get? p.children (some s%"dim") = some o ∧ Dict.keys o.attrs = [some s%"index"] := by
  refine ⟨by decide +kernel, ?_⟩
  have h : (match readTypeOf (nxdlXsd 705) 20 (some s%"nx:dimensionsType") true with
    | (.ok p, _) => (Dict.get? p.children (some s%"dim")).map fun o => Dict.keys o.attrs
    | _ => none) = some [some s%"index"] := by decide +kernel
  generalize readTypeOf (nxdlXsd 705) 20 (some s%"nx:dimensionsType") true = r at h
  obtain ⟨x, s'⟩ := r
  cases x with
  | error e => cases h
  | ok p =>
    obtain ⟨o, h1, h2⟩ := Option.map_eq_some_iff.1 h
    exact ⟨p, s', o, rfl, h1, h2⟩

end Punx

import Verif.Props.SchemaManager3

/-!
# C85: the elements that a schema manager knows
-/

namespace Punx
open Spec

/-- The child `n` of a content is the particle `x`, or `x` is in it. -/
def AtParticle (n x : XsNode) : Prop :=
  (x = n ∧ (n.isXs s%"element" = true ∨ n.isXs s%"group" = true)) ∨
  ((n.isXs s%"sequence" = true ∨ n.isXs s%"choice" = true ∨ n.isXs s%"all" = true) ∧ Particle n x)

theorem particle_iff {m x : XsNode} : Particle m x ↔ ∃ n ∈ m.kids, AtParticle n x := by
  constructor
  · intro h
    cases h with
    | here h1 h2 => exact ⟨x, h1, .inl ⟨rfl, h2⟩⟩
    | inside h1 h2 h3 => exact ⟨_, h1, .inr ⟨h2, h3⟩⟩
  · rintro ⟨n, hn, ⟨rfl, h⟩ | ⟨h1, h2⟩⟩
    · exact .here hn h
    · exact .inside hn h1 h2

/-- The particle `x` gives the element `m`. -/
def Gives (root x m : XsNode) : Prop :=
  (x.isXs s%"element" = true ∧ m = x) ∨
  (x.isXs s%"group" = true ∧ ∃ r, Dict.get? x.attrib s%"ref" = some r ∧ ElemOf root (stripNs r) m)

/-- The child `n` of a content gives the element `m`. -/
def ItemGives (root n m : XsNode) : Prop := ∃ x, AtParticle n x ∧ Gives root x m

theorem itemGives_element {root n m : XsNode} (h : n.isXs s%"element" = true) :
    ItemGives root n m ↔ m = n := by
  constructor
  · rintro ⟨x, ⟨rfl, _⟩ | ⟨h1, _⟩, hg⟩
    · rcases hg with ⟨_, h2⟩ | ⟨h2, _⟩
      · exact h2
      · exact absurd (isXs_tag h h2) (by decide)
    · rcases h1 with h1 | h1 | h1 <;> exact absurd (isXs_tag h h1) (by decide)
  · rintro rfl
    exact ⟨m, .inl ⟨rfl, .inl h⟩, .inl ⟨h, rfl⟩⟩

theorem itemGives_group {root n m : XsNode} (h : n.isXs s%"group" = true) :
    ItemGives root n m ↔
      ∃ r, Dict.get? n.attrib s%"ref" = some r ∧ ElemOf root (stripNs r) m := by
  constructor
  · rintro ⟨x, ⟨rfl, _⟩ | ⟨h1, _⟩, hg⟩
    · rcases hg with ⟨h2, _⟩ | ⟨_, h2⟩
      · exact absurd (isXs_tag h h2) (by decide)
      · exact h2
    · rcases h1 with h1 | h1 | h1 <;> exact absurd (isXs_tag h h1) (by decide)
  · intro h'
    exact ⟨n, .inl ⟨rfl, .inr h⟩, .inr ⟨h, h'⟩⟩

theorem itemGives_sequence {root n m : XsNode} (h : n.isXs s%"sequence" = true) :
    ItemGives root n m ↔ ∃ k ∈ n.kids, ItemGives root k m := by
  constructor
  · rintro ⟨x, ⟨rfl, h1⟩ | ⟨_, hp⟩, hg⟩
    · rcases h1 with h1 | h1 <;> exact absurd (isXs_tag h h1) (by decide)
    · obtain ⟨k, hk, hx⟩ := particle_iff.1 hp
      exact ⟨k, hk, x, hx, hg⟩
  · rintro ⟨k, hk, x, hx, hg⟩
    exact ⟨x, .inr ⟨.inl h, particle_iff.2 ⟨k, hk, hx⟩⟩, hg⟩

theorem itemGives_none {root n m : XsNode} {a : Str} (h : n.isXs a = true)
    (ha : a ∉ [s%"element", s%"group", s%"sequence", s%"choice", s%"all"]) :
    ¬ ItemGives root n m := by
  have no : ∀ b ∈ [s%"element", s%"group", s%"sequence", s%"choice", s%"all"],
      n.isXs b ≠ true := fun b hb h' => ha (isXs_tag h h' ▸ hb)
  rintro ⟨x, ⟨rfl, h1⟩ | ⟨h1, _⟩, _⟩
  · rcases h1 with h1 | h1 <;> exact no _ (by decide) h1
  · rcases h1 with h1 | h1 | h1 <;> exact no _ (by decide) h1

/-! ## what one step adds -/

/-- From `p` to `p'`, exactly the elements `D` are added. -/
structure AddsE (root : XsNode) (D : XsNode → Prop) (p p' : Parts) : Prop where
  sound : ∀ kv ∈ p'.children, kv ∈ p.children ∨ ∃ n a ch, D n ∧ nameAttr n = kv.1 ∧
    kv.2 = .mk (nameAttr n) (Dict.get? n.attrib s%"type") a ch
  keep : ∀ k ∈ Dict.keys p.children, k ∈ Dict.keys p'.children
  complete : ∀ n, D n → nameAttr n ∈ Dict.keys p'.children
  deep : ∀ kv ∈ p'.children, kv ∈ p.children ∨ ∀ e, Within kv.2 e → ElemsOfType root e

theorem AddsE.congr {root : XsNode} {D D' : XsNode → Prop} {p p' : Parts}
    (h : AddsE root D p p') (hd : ∀ n, D n ↔ D' n) : AddsE root D' p p' := by
  have : D = D' := funext fun n => propext (hd n)
  exact this ▸ h

theorem AddsE.refl {root : XsNode} {D : XsNode → Prop} {p p' : Parts}
    (hc : p'.children = p.children) (hd : ∀ n, ¬ D n) : AddsE root D p p' :=
  ⟨fun _ h => .inl (hc ▸ h), fun _ h => hc ▸ h, fun n h => absurd h (hd n), fun _ h => .inl (hc ▸ h)⟩

theorem AddsE.trans {root : XsNode} {D D' : XsNode → Prop} {p p' p'' : Parts}
    (h : AddsE root D p p') (h' : AddsE root D' p' p'') :
    AddsE root (fun n => D n ∨ D' n) p p'' := by
  refine ⟨?_, fun k hk => h'.keep k (h.keep k hk), ?_, ?_⟩
  · intro kv hkv
    rcases h'.sound kv hkv with h1 | ⟨n, a, c, h1, h2⟩
    · rcases h.sound kv h1 with h1 | ⟨n, a, c, h1, h2⟩
      · exact .inl h1
      · exact .inr ⟨n, a, c, .inl h1, h2⟩
    · exact .inr ⟨n, a, c, .inr h1, h2⟩
  · rintro n (hn | hn)
    · exact h'.keep _ (h.complete n hn)
    · exact h'.complete n hn
  · intro kv hkv
    rcases h'.deep kv hkv with h1 | h1
    · exact h.deep kv h1
    · exact .inr h1

theorem addsE_fold {root : XsNode} {f : Parts → XsNode → Mut Bool Parts}
    {D : XsNode → XsNode → Prop} : ∀ {l : List XsNode},
    (∀ n ∈ l, ∀ p s p' s', f p n s = (.ok p', s') → AddsE root (D n) p p') →
    ∀ {p p' : Parts} {s s' : Bool}, Mut.fold f l p s = (.ok p', s') →
      AddsE root (fun m => ∃ n ∈ l, D n m) p p'
  | [], _, p, p', s, s', h => by
    obtain ⟨rfl, _⟩ := Mut.pure_ok h
    exact AddsE.refl rfl (by simp)
  | n :: l, hf, p, p', s, s', h => by
    obtain ⟨q, s1, h1, h2⟩ := Mut.bind_ok h
    have a1 := hf n List.mem_cons_self p s q s1 h1
    have a2 := addsE_fold (fun m hm => hf m (List.mem_cons_of_mem _ hm)) h2
    exact (a1.trans a2).congr (by simp)

theorem addsE_copy {root : XsNode} {D : XsNode → Prop} {q p : Parts} (h : AddsE root D {} q) :
    AddsE root D p (q.copyTo p) := by
  refine ⟨?_, ?_, ?_, ?_⟩
  · intro kv hkv
    rcases mem_putAll hkv with h1 | h1
    · rcases h.sound kv h1 with h1 | h1
      · cases h1
      · exact .inr h1
    · exact .inl h1
  · intro k hk
    exact mem_keys_putAll.2 (.inr hk)
  · intro n hn
    exact mem_keys_putAll.2 (.inl (h.complete n hn))
  · intro kv hkv
    rcases mem_putAll hkv with h1 | h1
    · rcases h.deep kv h1 with h1 | h1
      · cases h1
      · exact .inr h1
    · exact .inl h1

theorem AddsE.holds {root : XsNode} {D : XsNode → Prop} {p : Parts} (h : AddsE root D {} p) :
    HoldsElems D p.children := by
  refine ⟨?_, ?_⟩
  · intro a x hx
    rcases h.sound _ (Dict.mem_of_get? hx) with h1 | h1
    · cases h1
    · exact h1
  · intro n hn
    have := h.complete n hn
    cases hg : Dict.get? p.children (nameAttr n) with
    | none => exact absurd this (Dict.get?_eq_none.1 hg)
    | some x => exact ⟨x, rfl⟩

/-! ## types -/

/-- No sequence that is read for `k` refers to a group. -/
def PlainSequences (root : XsNode) (k : Str) : Prop :=
  ∀ k', Leads root k k' → NoGroupInSequence root k'

/-- What is to be shown of `Schema_Type`. -/
def TypeRightE (root : XsNode) (ty : Option Str → Mut Bool Parts) : Prop :=
  (∀ s p s', ty none s ≠ (.ok p, s')) ∧
  ∀ ref, PlainSequences root (stripNs ref) → ∀ s p s', ty (some ref) s = (.ok p, s') →
    AddsE root (ElemOf root (stripNs ref)) {} p

section
variable {root : XsNode} {ty : Option Str → Mut Bool Parts}

theorem typedElem_rightE (hty : TypeRightE root ty) {x ref : Str} {s s' : Bool} {o : MElem}
    (hp : PlainSequences root (stripNs ref)) (h : typedElem ty x ref s = (.ok o, s')) :
    (∃ a c, o = .mk (some x) (some ref) a c) ∧ ∀ e, Within o e → ElemsOfType root e := by
  obtain ⟨p, s1, h1, h2⟩ := Mut.bind_ok h
  obtain ⟨rfl, _⟩ := Mut.pure_ok h2
  have ha := addsE_copy (p := {}) (hty.2 ref hp s p s1 h1)
  refine ⟨⟨_, _, rfl⟩, ?_⟩
  intro e he
  cases he with
  | self =>
    intro y r a c h
    injection h with hx hr _ hc
    injection hr with hr
    subst hr
    subst hc
    exact .inl ha.holds
  | child hk hc =>
    rcases ha.deep _ hk with h | h
    · cases h
    · exact h _ hc

theorem readElem_rightE (hty : TypeRightE root ty) {n : XsNode} {s s' : Bool} {o : MElem}
    (hp : ∀ r, Dict.get? n.attrib s%"type" = some r → PlainSequences root (stripNs r))
    (h : readElem ty n s = (.ok o, s')) :
    (∃ a c, o = .mk (nameAttr n) (Dict.get? n.attrib s%"type") a c) ∧
      ∀ e, Within o e → ElemsOfType root e := by
  unfold readElem at h
  unfold nameAttr
  cases ht : Dict.get? n.attrib s%"type" with
  | none =>
    rw [ht] at h
    obtain ⟨d, s1, _, h2⟩ := Mut.bind_ok h
    obtain ⟨rfl, _⟩ := Mut.pure_ok h2
    refine ⟨⟨_, _, rfl⟩, ?_⟩
    intro e he
    cases he with
    | self => intro y r a c h; injection h with _ h; cases h
    | child h _ => cases h
  | some ref =>
    cases hn : Dict.get? n.attrib s%"name" with
    | none => rw [ht, hn] at h; exact (Mut.fail_ok h).elim
    | some x =>
      rw [ht, hn] at h
      dsimp only at h
      split at h
      · rename_i hx
        unfold groupElem at h
        split at h
        · injection h with h1 _
          injection h1 with h1
          subst h1
          refine ⟨⟨_, _, rfl⟩, ?_⟩
          intro e he
          cases he with
          | self =>
            intro y r a c h
            injection h with h1 h2 _ h3
            injection h2 with h2
            exact .inr ⟨h1.symm.trans (congrArg some hx.1), h2.symm.trans hx.2, h3.symm⟩
          | child hk hc =>
            simp only [MElem.children, List.mem_singleton] at hk
            injection hk with _ hk
            subst hk
            rw [within_recursion hc]
            intro y r a c h
            cases h
        · exact typedElem_rightE hty (hp ref ht) h
      · exact typedElem_rightE hty (hp ref ht) h

theorem addsE_set {n : XsNode} {p : Parts} {o : MElem}
    (ho : (∃ a c, o = .mk (nameAttr n) (Dict.get? n.attrib s%"type") a c) ∧
      ∀ e, Within o e → ElemsOfType root e) :
    AddsE root (· = n) p
      { p with children := Dict.set p.children (Dict.get? n.attrib s%"name") o } := by
  refine ⟨?_, ?_, ?_, ?_⟩
  · intro kv hkv
    rcases mem_set_cases hkv with rfl | h
    · obtain ⟨⟨a, c, h⟩, _⟩ := ho
      exact .inr ⟨n, a, c, rfl, rfl, h⟩
    · exact .inl h
  · intro k hk
    exact Dict.mem_keys_set.2 (.inr hk)
  · rintro m rfl
    exact Dict.mem_keys_set.2 (.inl rfl)
  · intro kv hkv
    rcases mem_set_cases hkv with rfl | h
    · exact .inr ho.2
    · exact .inl h

theorem seqItem_addsE (hty : TypeRightE root ty) {n : XsNode} {p p' : Parts} {s s' : Bool}
    (hg : n.isXs s%"group" ≠ true)
    (hp : n.isXs s%"element" = true → ∀ r, Dict.get? n.attrib s%"type" = some r →
      PlainSequences root (stripNs r))
    (h : readSeqItem ty p n s = (.ok p', s')) : AddsE root (ItemGives root n) p p' := by
  unfold readSeqItem at h
  split at h
  · exact (Mut.fail_ok h).elim
  · rename_i xs t l a ks
    generalize XsNode.elem xs t l a ks = n at h hg hp
    split at h
    · rename_i hx
      have hx : n.isXs s%"element" = true := by simpa [hg] using hx
      obtain ⟨o, s1, h1, h2⟩ := Mut.bind_ok h
      obtain ⟨rfl, _⟩ := Mut.pure_ok h2
      exact (addsE_set (readElem_rightE hty (hp hx) h1)).congr fun m =>
        (itemGives_element hx).symm
    · split at h
      · rename_i hx
        obtain ⟨rfl, _⟩ := Mut.pure_ok h
        exact AddsE.refl rfl fun m => itemGives_none hx (by decide)
      · exact (Mut.fail_ok h).elim

/-- A sequence in the content of `k`. -/
theorem seq_addsE (hty : TypeRightE root ty) {k : Str} {t c n : XsNode} (hd : DeclaresChild root k t)
    (hc : Content t c) (hn : n ∈ c.kids) (hx : n.isXs s%"sequence" = true)
    (hp : PlainSequences root k) {p p' : Parts} {s s' : Bool}
    (h : Mut.fold (readSeqItem ty) n.kids p s = (.ok p', s')) :
    AddsE root (ItemGives root n) p p' := by
  refine (addsE_fold (D := ItemGives root) ?_ h).congr fun m => (itemGives_sequence hx).symm
  intro i hi q s1 q' s2 h1
  refine seqItem_addsE hty ?_ ?_ h1
  · intro hg
    have : i ∈ n.select s%"group" := List.mem_filter.2 ⟨hi, hg⟩
    rw [hp k .refl t c n hd hc (List.mem_filter.2 ⟨hn, hx⟩)] at this
    cases this
  · intro he r hr k' hk'
    exact hp k' (.element hd hc (.inside hn (.inl hx) (.here hi (.inl he))) he hr hk')

theorem extItem_addsE (hty : TypeRightE root ty) {k : Str} {t c n : XsNode}
    (hd : DeclaresChild root k t) (hc : Content t c) (hn : n ∈ c.kids) (hp : PlainSequences root k)
    {p p' : Parts} {s s' : Bool}
    (h : readExtItem ty p n s = (.ok p', s')) : AddsE root (ItemGives root n) p p' := by
  unfold readExtItem at h
  split at h
  · exact (Mut.fail_ok h).elim
  · rename_i xs t l a ks
    generalize XsNode.elem xs t l a ks = n at h hn
    split at h
    · rename_i hx
      obtain ⟨rfl, _⟩ := Mut.pure_ok h
      exact AddsE.refl rfl fun m => itemGives_none hx (by decide)
    · split at h
      · rename_i hx
        obtain ⟨h, _⟩ := Mut.lift_ok h
        refine AddsE.refl ?_ fun m => itemGives_none hx (by decide)
        unfold addAttr at h
        cases hr : readAttr n with
        | error e => rw [hr] at h; cases h
        | ok x => rw [hr] at h; injection h with h; rw [← h]
      · split at h
        · rename_i hx
          exact seq_addsE hty hd hc hn hx hp h
        · exact (Mut.fail_ok h).elim

/-- What an extension gives. -/
def ExtGives (root e m : XsNode) : Prop :=
  e.isXs s%"extension" = true ∧
    ((∃ n ∈ e.kids, ItemGives root n m) ∨
      ∃ b, Dict.get? e.attrib s%"base" = some b ∧ ElemOf root (stripNs b) m)

theorem contentItem_addsE (hty : TypeRightE root ty) {k : Str} {t n : XsNode}
    (hd : DeclaresChild root k t) (hn : n.isXs s%"extension" = true → Extends t n)
    (hp : PlainSequences root k) {p p' : Parts} {s s' : Bool}
    (h : readContentItem ty p n s = (.ok p', s')) : AddsE root (ExtGives root n) p p' := by
  unfold readContentItem at h
  split at h
  · exact (Mut.fail_ok h).elim
  · rename_i xs t l a ks
    generalize XsNode.elem xs t l a ks = n at h hn
    split at h
    · rename_i hx
      cases hbase : Dict.get? n.attrib s%"base" with
      | none => rw [hbase] at h; exact (Mut.fail_ok h).elim
      | some b =>
        rw [hbase] at h
        dsimp only at h
        split at h
        · obtain ⟨q, s1, h1, h2⟩ := Mut.bind_ok h
          have hq := hty.2 b (fun k' hk' => hp k' (.base hd (hn hx) hbase hk')) s q s1 h1
          have a1 := addsE_copy (p := p) hq
          have a2 := addsE_fold (D := ItemGives root)
            (fun i hi _ _ _ _ h => extItem_addsE hty hd (.inr (hn hx)) hi hp h) h2
          refine (a1.trans a2).congr fun m => ?_
          constructor
          · rintro (h | h)
            · exact ⟨hx, .inr ⟨b, hbase, h⟩⟩
            · exact ⟨hx, .inl h⟩
          · rintro ⟨_, h | ⟨b', hb', h⟩⟩
            · exact .inr h
            · rw [hbase] at hb'
              injection hb' with hb'
              subst hb'
              exact .inl h
        · exact (Mut.fail_ok h).elim
    · exact (Mut.fail_ok h).elim

/-- What a child of a type gives. -/
def TypeItemGives (root n m : XsNode) : Prop :=
  ItemGives root n m ∨ (n.isXs s%"complexContent" = true ∧ ∃ e ∈ n.kids, ExtGives root e m)

theorem no_content {n m : XsNode} {a : Str} (h : n.isXs a = true) (ha : a ≠ s%"complexContent") :
    TypeItemGives root n m ↔ ItemGives root n m := by
  constructor
  · rintro (h' | ⟨h', _⟩)
    · exact h'
    · exact absurd (isXs_tag h h') ha
  · exact .inl

theorem elemOf_other {t n : XsNode} {k : Str} (h : namedNode root k = .ok t)
    (ht : t.isXs s%"complexType" ≠ true) (hg : t.isXs s%"group" ≠ true) : ¬ ElemOf root k n := by
  have no : ∀ u, ¬ DeclaresChild root k u := by
    rintro u ⟨h1, h2 | h2, h3⟩
    · obtain rfl := (namedNode_ok h).2.2 (List.mem_filter.2 ⟨h1, h2⟩) h3
      exact ht h2
    · obtain rfl := (namedNode_ok h).2.2 (List.mem_filter.2 ⟨h1, h2⟩) h3
      exact hg h2
  intro h
  cases h <;> exact no _ ‹_›

theorem typeItem_addsE (hty : TypeRightE root ty) (hv : ValidRefs root)
    (hname : ∀ ref s p s', ty (some ref) s = (.ok p, s') →
      ∃ t, namedNode root (stripNs ref) = .ok t) {k : Str} {t n : XsNode}
    (ht : t ∈ root.kids) (hk : HasName t k) (hn : n ∈ t.kids) (hp : PlainSequences root k)
    {p p' : Parts} {s s' : Bool}
    (h : readTypeItem ty p n s = (.ok p', s')) : AddsE root (TypeItemGives root n) p p' := by
  unfold readTypeItem at h
  split at h
  · obtain ⟨rfl, _⟩ := Mut.pure_ok h
    refine AddsE.refl rfl ?_
    rintro m (⟨x, ⟨_, h | h⟩ | ⟨h | h | h, _⟩, _⟩ | ⟨h, _⟩) <;> cases h
  · rename_i xs t' l a ks
    generalize XsNode.elem xs t' l a ks = n at h hn
    split at h
    · rename_i hx
      obtain ⟨rfl, _⟩ := Mut.pure_ok h
      exact AddsE.refl rfl fun m =>
        (no_content hx (by decide)).not.2 (itemGives_none hx (by decide))
    · split at h
      · rename_i hx
        obtain ⟨h, _⟩ := Mut.lift_ok h
        refine AddsE.refl ?_ fun m =>
          (no_content hx (by decide)).not.2 (itemGives_none hx (by decide))
        unfold addAttr at h
        cases hr : readAttr n with
        | error e => rw [hr] at h; cases h
        | ok x => rw [hr] at h; injection h with h; rw [← h]
      · split at h
        · rename_i hx
          obtain ⟨q, s1, h1, h2⟩ := Mut.bind_ok h
          obtain ⟨rfl, _⟩ := Mut.pure_ok h2
          cases hr : Dict.get? n.attrib s%"ref" with
          | none => rw [hr] at h1; exact absurd h1 (hty.1 _ _ _)
          | some r =>
            rw [hr] at h1
            obtain ⟨u, hu⟩ := hname r s q s1 h1
            by_cases hg : n.isXs s%"attributeGroup" = true
            · obtain ⟨v, hv1, hv2⟩ := hv.attrGroups t ht n (List.mem_filter.2 ⟨hn, hg⟩) r hr
              obtain rfl := (namedNode_ok hu).2.2 hv1 hv2
              have hvx := (List.mem_filter.1 hv1).2
              have none : ∀ m, ¬ ElemOf root (stripNs r) m := fun m => elemOf_other hu
                (fun h => absurd (isXs_tag hvx h) (by decide))
                (fun h => absurd (isXs_tag hvx h) (by decide))
              have plain : PlainSequences root (stripNs r) := by
                have nodecl : ∀ w, ¬ DeclaresChild root (stripNs r) w := by
                  rintro w ⟨h1, h2 | h2, h3⟩
                  · obtain rfl := (namedNode_ok hu).2.2 (List.mem_filter.2 ⟨h1, h2⟩) h3
                    exact absurd (isXs_tag hvx h2) (by decide)
                  · obtain rfl := (namedNode_ok hu).2.2 (List.mem_filter.2 ⟨h1, h2⟩) h3
                    exact absurd (isXs_tag hvx h2) (by decide)
                intro k' hk'
                cases hk' with
                | refl => exact fun w c s' hw => absurd hw (nodecl w)
                | group hw => exact absurd hw (nodecl _)
                | element hw => exact absurd hw (nodecl _)
                | base hw => exact absurd hw (nodecl _)
              refine (addsE_copy (hty.2 r plain s q s1 h1)).congr fun m => ?_
              rw [no_content hg (by decide)]
              exact ⟨fun h => absurd h (none m), fun h => absurd h (itemGives_none hg (by decide))⟩
            · have hg' : n.isXs s%"group" = true := by simpa [hg] using hx
              have hd : DeclaresChild root k t := by
                refine ⟨ht, .inl ?_, hk⟩
                rcases hv.kinds t ht with h | ⟨_, h, _⟩
                · exact h
                · have : n ∈ t.select s%"group" := List.mem_filter.2 ⟨hn, hg'⟩
                  rw [h] at this
                  cases this
              have plain : PlainSequences root (stripNs r) := fun k' hk' =>
                hp k' (.group hd (.inl rfl) (.here hn (.inr hg')) hg' hr hk')
              refine (addsE_copy (hty.2 r plain s q s1 h1)).congr fun m => ?_
              rw [no_content hg' (by decide), itemGives_group hg']
              constructor
              · exact fun h => ⟨r, hr, h⟩
              · rintro ⟨r', hr', h⟩
                rw [hr] at hr'
                injection hr' with hr'
                subst hr'
                exact h
        · split at h
          · rename_i hx
            have hd : DeclaresChild root k t := by
              refine ⟨ht, .inl ?_, hk⟩
              rcases hv.kinds t ht with h | ⟨h, _, _⟩
              · exact h
              · have : n ∈ t.select s%"complexContent" := List.mem_filter.2 ⟨hn, hx⟩
                rw [h] at this
                cases this
            refine (addsE_fold (D := ExtGives root) (fun e he _ _ _ _ h => contentItem_addsE hty hd
              (fun hxe => ⟨n, List.mem_filter.2 ⟨hn, hx⟩, List.mem_filter.2 ⟨he, hxe⟩⟩) hp h)
                h).congr fun m => ?_
            constructor
            · exact fun h => .inr ⟨hx, h⟩
            · rintro (h | ⟨_, h⟩)
              · exact absurd h (itemGives_none hx (by decide))
              · exact h
          · split at h
            · rename_i hx
              have hd : DeclaresChild root k t := by
                rcases hv.sequences t ht with h | h | h
                · exact ⟨ht, .inl h, hk⟩
                · exact ⟨ht, .inr h, hk⟩
                · have : n ∈ t.select s%"sequence" := List.mem_filter.2 ⟨hn, hx⟩
                  rw [h] at this
                  cases this
              exact (seq_addsE hty hd (.inl rfl) hn hx hp h).congr fun m =>
                (no_content hx (by decide)).symm
            · exact (Mut.fail_ok h).elim
end

/-! ## what XML Schema says -/

theorem elemOf_items {root t m : XsNode} {k : Str} (hd : DeclaresChild root k t)
    (hu : ∀ u, DeclaresChild root k u → u = t) :
    ElemOf root k m ↔ ∃ n ∈ t.kids, TypeItemGives root n m := by
  have content : ∀ {c x : XsNode}, Content t c → Particle c x → Gives root x m →
      ∃ n ∈ t.kids, TypeItemGives root n m := by
    intro c x hc hp hg
    obtain ⟨n, hn, hx⟩ := particle_iff.1 hp
    rcases hc with rfl | ⟨cc, h1, h2⟩
    · exact ⟨n, hn, .inl ⟨x, hx, hg⟩⟩
    · obtain ⟨h3, h4⟩ := List.mem_filter.1 h1
      obtain ⟨h5, h6⟩ := List.mem_filter.1 h2
      exact ⟨cc, h3, .inr ⟨h4, c, h5, h6, .inl ⟨n, hn, x, hx, hg⟩⟩⟩
  constructor
  · intro h
    cases h with
    | own h1 h2 h3 h4 =>
      obtain rfl := hu _ h1
      exact content h2 h3 (.inl ⟨h4, rfl⟩)
    | group h1 h2 h3 h4 h5 h6 =>
      obtain rfl := hu _ h1
      exact content h2 h3 (.inr ⟨h4, _, h5, h6⟩)
    | base h1 h2 h3 h4 =>
      obtain rfl := hu _ h1
      obtain ⟨c, hc, he⟩ := h2
      obtain ⟨h5, h6⟩ := List.mem_filter.1 hc
      obtain ⟨h7, h8⟩ := List.mem_filter.1 he
      exact ⟨c, h5, .inr ⟨h6, _, h7, h8, .inr ⟨_, h3, h4⟩⟩⟩
  · have back : ∀ {c n : XsNode}, Content t c → n ∈ c.kids → ItemGives root n m →
        ElemOf root k m := by
      rintro c n hc hn ⟨x, hx, hg⟩
      have hp := particle_iff.2 ⟨n, hn, hx⟩
      rcases hg with ⟨h1, rfl⟩ | ⟨h1, r, h2, h3⟩
      · exact .own hd hc hp h1
      · exact .group hd hc hp h1 h2 h3
    rintro ⟨n, hn, h | ⟨h1, e, he, hx, h⟩⟩
    · exact back (.inl rfl) hn h
    · have hext : Extends t e := ⟨n, List.mem_filter.2 ⟨hn, h1⟩, List.mem_filter.2 ⟨he, hx⟩⟩
      rcases h with ⟨i, hi, h⟩ | ⟨b, hb, h⟩
      · exact back (.inr hext) hi h
      · exact .base hd hext hb h

theorem typeItem_none {root t n m : XsNode} (hv : ValidRefs root) (ht : t ∈ root.kids)
    (h1 : t.isXs s%"complexType" ≠ true) (h2 : t.isXs s%"group" ≠ true) (hn : n ∈ t.kids)
    {ty : Option Str → Mut Bool Parts} {p p' : Parts} {s s' : Bool}
    (h : readTypeItem ty p n s = (.ok p', s')) : ¬ TypeItemGives root n m := by
  obtain ⟨k1, k2, _⟩ := (hv.kinds t ht).resolve_left h1
  have k3 := ((hv.sequences t ht).resolve_left h1).resolve_left h2
  have no : ∀ {tag : Str}, t.select tag = [] → n.isXs tag ≠ true := by
    intro tag he hx
    have : n ∈ t.select tag := List.mem_filter.2 ⟨hn, hx⟩
    rw [he] at this
    cases this
  have fails : ∀ {tag : Str}, n.isXs tag = true →
      tag ∉ [s%"annotation", s%"attribute", s%"attributeGroup", s%"group", s%"complexContent",
        s%"sequence"] → False := by
    intro tag hx htag
    have other : ∀ {b : Str}, b ∈ [s%"annotation", s%"attribute", s%"attributeGroup", s%"group",
        s%"complexContent", s%"sequence"] → n.isXs b = false := by
      intro b hb
      cases hxb : n.isXs b with
      | false => rfl
      | true => exact absurd (isXs_tag hx hxb ▸ hb) htag
    cases n with
    | comment => cases hx
    | elem xs t' l a ks =>
      simp only [readTypeItem] at h
      rw [if_neg (by rw [other (by decide)]; decide), if_neg (by rw [other (by decide)]; decide),
        if_neg (by rw [other (by decide), other (by decide)]; decide),
        if_neg (by rw [other (by decide)]; decide),
        if_neg (by rw [other (by decide)]; decide)] at h
      exact Mut.fail_ok h
  rintro (⟨x, ⟨_, h' | h'⟩ | ⟨h' | h' | h', _⟩, _⟩ | ⟨h', _⟩)
  · exact fails h' (by decide)
  · exact no k2 h'
  · exact no k3 h'
  · exact fails h' (by decide)
  · exact fails h' (by decide)
  · exact no k1 h'

theorem fold_ok_mem {f : Parts → XsNode → Mut Bool Parts} : ∀ {l : List XsNode} {p p' : Parts}
    {s s' : Bool}, Mut.fold f l p s = (.ok p', s') → ∀ n ∈ l, ∃ q s1 q' s2,
      f q n s1 = (.ok q', s2)
  | [], _, _, _, _, _, n, hn => by cases hn
  | m :: l, p, p', s, s', h, n, hn => by
    obtain ⟨q, s1, h1, h2⟩ := Mut.bind_ok h
    rcases List.mem_cons.1 hn with rfl | hn
    · exact ⟨p, s, q, s1, h1⟩
    · exact fold_ok_mem h2 n hn

theorem readTypeOf_named {root : XsNode} : ∀ {fuel : Nat} {ref : Str} {s s' : Bool} {p : Parts},
    readTypeOf root fuel (some ref) s = (.ok p, s') → ∃ t, namedNode root (stripNs ref) = .ok t
  | 0, _, _, _, _, h => (Mut.fail_ok h).elim
  | _ + 1, _, _, _, _, h => by
    obtain ⟨t, s1, h1, h2⟩ := Mut.bind_ok h
    exact ⟨t, (Mut.lift_ok h1).1⟩

theorem readTypeOf_rightE {root : XsNode} (hv : ValidRefs root) : ∀ fuel,
    TypeRightE root (readTypeOf root fuel)
  | 0 => ⟨fun _ _ _ h => Mut.fail_ok h, fun _ _ _ _ _ h => (Mut.fail_ok h).elim⟩
  | fuel + 1 => by
    refine ⟨fun _ _ _ h => Mut.fail_ok h, ?_⟩
    intro ref hp s p s' h
    obtain ⟨t, s1, h1, h2⟩ := Mut.bind_ok h
    obtain ⟨h1, _⟩ := Mut.lift_ok h1
    obtain ⟨ht, hk, hu⟩ := namedNode_ok h1
    refine (addsE_fold (D := TypeItemGives root) (fun n hn _ _ _ _ h => typeItem_addsE
      (readTypeOf_rightE hv fuel) hv (fun _ _ _ _ h => readTypeOf_named h) ht hk hn hp h)
        h2).congr fun m => ?_
    by_cases hd : t.isXs s%"complexType" = true ∨ t.isXs s%"group" = true
    · refine (elemOf_items ⟨ht, hd, hk⟩ ?_).symm
      rintro u ⟨h3, h4 | h4, h5⟩
      · exact hu (List.mem_filter.2 ⟨h3, h4⟩) h5
      · exact hu (List.mem_filter.2 ⟨h3, h4⟩) h5
    · have hd1 : t.isXs s%"complexType" ≠ true := fun h => hd (.inl h)
      have hd2 : t.isXs s%"group" ≠ true := fun h => hd (.inr h)
      constructor
      · rintro ⟨n, hn, h⟩
        obtain ⟨q, s2, q', s3, h3⟩ := fold_ok_mem h2 n hn
        exact absurd h (typeItem_none hv ht hd1 hd2 hn h3)
      · exact fun h => absurd h (elemOf_other h1 hd1 hd2)

/-- C85: if a type or group of a valid schema can be read and no sequence that is read for it
refers to a group, its children are exactly the elements that XML Schema gives to it, and the same
holds for all elements found in it. -/
theorem manager_type_elements_partial {root : XsNode} (hv : ValidRefs root) {fuel : Nat}
    {ref : Str} (hp : ∀ k', Leads root (stripNs ref) k' → NoGroupInSequence root k')
    {s s' : Bool} {p : Parts} (h : readTypeOf root fuel (some ref) s = (.ok p, s')) :
    HoldsElems (ElemOf root (stripNs ref)) p.children ∧
      ∀ k c, Dict.get? p.children k = some c → ∀ e, Within c e → ElemsOfType root e := by
  have := (readTypeOf_rightE hv fuel).2 ref hp s p s' h
  refine ⟨this.holds, ?_⟩
  intro k c hc
  rcases this.deep _ (Dict.mem_of_get? hc) with h | h
  · cases h
  · exact h

/-! ## the root element -/

theorem addsEShared_fold {root : XsNode} {f : XsNode → Mut Shared Unit}
    {D : XsNode → XsNode → Prop} : ∀ {l : List XsNode},
    (∀ n ∈ l, ∀ s u s', f n s = (.ok u, s') → AddsE root (D n) s.parts s'.parts) →
    ∀ {s s' : Shared} {u : Unit}, Mut.fold (fun _ n => f n) l () s = (.ok u, s') →
      AddsE root (fun m => ∃ n ∈ l, D n m) s.parts s'.parts
  | [], _, s, s', u, h => by
    obtain ⟨_, rfl⟩ := Mut.pure_ok h
    exact AddsE.refl rfl (by simp)
  | n :: l, hf, s, s', u, h => by
    obtain ⟨q, s1, h1, h2⟩ := Mut.bind_ok h
    have a1 := hf n List.mem_cons_self s q s1 h1
    have a2 := addsEShared_fold (fun m hm => hf m (List.mem_cons_of_mem _ hm)) h2
    exact (a1.trans a2).congr (by simp)

section
variable {root : XsNode} {ty : Option Str → Mut Bool Parts}

theorem rootSeqItem_addsE (hty : TypeRightE root ty) {n : XsNode}
    (hp : ∀ r, (n.isXs s%"group" = true ∧ Dict.get? n.attrib s%"ref" = some r) ∨
      (n.isXs s%"element" = true ∧ Dict.get? n.attrib s%"type" = some r) →
      PlainSequences root (stripNs r)) {s s' : Shared} {u : Unit}
    (h : rootSeqItem ty n s = (.ok u, s')) : AddsE root (ItemGives root n) s.parts s'.parts := by
  unfold rootSeqItem at h
  split at h
  · exact (Mut.fail_ok h).elim
  · rename_i xs t' l a ks
    generalize XsNode.elem xs t' l a ks = n at h hp
    split at h
    · rename_i hx
      obtain ⟨o, s1, h1, h2⟩ := Mut.bind_ok h
      obtain ⟨h1, h3⟩ := onStarted_ok h1
      rw [onParts_ok h2, h3]
      exact (addsE_set (readElem_rightE hty (fun r hr => hp r (.inr ⟨hx, hr⟩)) h1)).congr
        fun m => (itemGives_element hx).symm
    · split at h
      · rename_i hx
        obtain ⟨q, s1, h1, h2⟩ := Mut.bind_ok h
        obtain ⟨h1, h3⟩ := onStarted_ok h1
        rw [onParts_ok h2, h3]
        cases hr : Dict.get? n.attrib s%"ref" with
        | none => rw [hr] at h1; exact absurd h1 (hty.1 _ _ _)
        | some r =>
          rw [hr] at h1
          refine (addsE_copy (hty.2 r (hp r (.inl ⟨hx, hr⟩)) _ q _ h1)).congr fun m => ?_
          rw [itemGives_group hx]
          constructor
          · exact fun h => ⟨r, hr, h⟩
          · rintro ⟨r', hr', h⟩
            rw [hr] at hr'
            injection hr' with hr'
            subst hr'
            exact h
      · exact (Mut.fail_ok h).elim

theorem attrGroup_gives_none (hv : ValidRefs root) {t n u : XsNode} {r : Str} (ht : t ∈ root.kids)
    (hn : n ∈ t.select s%"attributeGroup") (hr : Dict.get? n.attrib s%"ref" = some r)
    (hu : namedNode root (stripNs r) = .ok u) :
    (∀ m, ¬ ElemOf root (stripNs r) m) ∧ PlainSequences root (stripNs r) := by
  obtain ⟨v, hv1, hv2⟩ := hv.attrGroups t ht n hn r hr
  obtain rfl := (namedNode_ok hu).2.2 hv1 hv2
  have hvx := (List.mem_filter.1 hv1).2
  have nodecl : ∀ w, ¬ DeclaresChild root (stripNs r) w := by
    rintro w ⟨h1, h2 | h2, h3⟩
    · obtain rfl := (namedNode_ok hu).2.2 (List.mem_filter.2 ⟨h1, h2⟩) h3
      exact absurd (isXs_tag hvx h2) (by decide)
    · obtain rfl := (namedNode_ok hu).2.2 (List.mem_filter.2 ⟨h1, h2⟩) h3
      exact absurd (isXs_tag hvx h2) (by decide)
  refine ⟨fun m => elemOf_other hu (fun h => absurd (isXs_tag hvx h) (by decide))
    (fun h => absurd (isXs_tag hvx h) (by decide)), ?_⟩
  intro k' hk'
  cases hk' with
  | refl => exact fun w c s' hw => absurd hw (nodecl w)
  | group hw => exact absurd hw (nodecl _)
  | element hw => exact absurd hw (nodecl _)
  | base hw => exact absurd hw (nodecl _)

theorem rootItem_addsE (hty : TypeRightE root ty) (hv : ValidRefs root)
    (hname : ∀ ref s p s', ty (some ref) s = (.ok p, s') →
      ∃ t, namedNode root (stripNs ref) = .ok t) {k : Str} {t n : XsNode}
    (hd : DeclaresChild root k t) (hn : n ∈ t.kids)
    (hp : ∀ r, Uses root k r → PlainSequences root (stripNs r)) {s s' : Shared} {u : Unit}
    (h : rootItem' ty n s = (.ok u, s')) : AddsE root (TypeItemGives root n) s.parts s'.parts := by
  unfold rootItem' at h
  split at h
  · exact (Mut.fail_ok h).elim
  · rename_i xs t' l a ks
    generalize XsNode.elem xs t' l a ks = n at h hn
    split at h
    · rename_i hx
      obtain ⟨x, s1, h1, h2⟩ := Mut.bind_ok h
      obtain ⟨_, rfl⟩ := Mut.lift_ok h1
      rw [onParts_ok h2]
      exact AddsE.refl rfl fun m =>
        (no_content hx (by decide)).not.2 (itemGives_none hx (by decide))
    · split at h
      · rename_i hg
        obtain ⟨q, s1, h1, h2⟩ := Mut.bind_ok h
        obtain ⟨h1, h3⟩ := onStarted_ok h1
        rw [onParts_ok h2, h3]
        cases hr : Dict.get? n.attrib s%"ref" with
        | none => rw [hr] at h1; exact absurd h1 (hty.1 _ _ _)
        | some r =>
          rw [hr] at h1
          obtain ⟨v, hv'⟩ := hname r _ q _ h1
          obtain ⟨none, plain⟩ := attrGroup_gives_none hv hd.1 (List.mem_filter.2 ⟨hn, hg⟩) hr hv'
          refine (addsE_copy (hty.2 r plain _ q _ h1)).congr fun m => ?_
          rw [no_content hg (by decide)]
          exact ⟨fun h => absurd h (none m), fun h => absurd h (itemGives_none hg (by decide))⟩
      · split at h
        · rename_i hx
          refine (addsEShared_fold (D := ItemGives root) (fun m hm _ _ _ h =>
            rootSeqItem_addsE hty (fun r hr => hp r ⟨t, m, hd, .inside hn (.inl hx) (.here hm ?_),
              hr⟩) h) h).congr fun m => ?_
          · rcases hr with ⟨h, _⟩ | ⟨h, _⟩
            · exact .inr h
            · exact .inl h
          · rw [no_content hx (by decide), itemGives_sequence hx]
        · split at h
          · rename_i hx
            obtain ⟨_, rfl⟩ := Mut.pure_ok h
            exact AddsE.refl rfl fun m =>
              (no_content hx (by decide)).not.2 (itemGives_none hx (by decide))
          · exact (Mut.fail_ok h).elim
end

/-- C85: if the first schema manager of a process is made from a valid schema in which no sequence
outside of the type of the root element refers to a group, its children are exactly the elements
that XML Schema gives to this type, and the children of all elements in it are those of their
types. -/
theorem definition_elements_partial {fuel : Nat} {int : Str → Option Int} {valid : XsNode → Option XsNode → Bool}
    {root : XsNode} {types : Option XsNode} {s' : Shared} {o : OwnSchema} (hv : ValidRefs root)
    (h : newManager fuel int valid (some root) types {} = (.ok o, s')) :
    ∃ n t, root.select s%"element" = [n] ∧ Dict.get? n.attrib s%"type" = some t ∧
      ((∀ g ∈ root.select s%"group", ¬ HasName g (stripNs t)) →
        (∀ r, Uses root (stripNs t) r → ∀ k', Leads root (stripNs r) k' →
          NoGroupInSequence root k') →
        HoldsElems (ElemOf root (stripNs t)) s'.parts.children ∧
        ∀ k c, Dict.get? s'.parts.children k = some c → ∀ e, Within c e → ElemsOfType root e) := by
  obtain ⟨n, t, m, h1, h2, h3, h4⟩ := newManager_ok h
  refine ⟨n, t, h1, h2, ?_⟩
  intro hgn hp
  have hm := List.mem_filter.1 (h3 ▸ List.mem_singleton_self m)
  have hk : Dict.get? m.attrib s%"name" = some (stripNs t) := of_decide_eq_true hm.2
  have hd : DeclaresChild root (stripNs t) m :=
    ⟨select_kid hm.1, .inl (List.mem_filter.1 hm.1).2, hk⟩
  have hu : ∀ u, DeclaresChild root (stripNs t) u → u = m := by
    rintro u ⟨hu1, hu2 | hu2, hu3⟩
    · have : u ∈ [m] := h3 ▸ List.mem_filter.2 ⟨List.mem_filter.2 ⟨hu1, hu2⟩, decide_eq_true
        (show Dict.get? u.attrib s%"name" = some (stripNs t) from hu3)⟩
      exact List.mem_singleton.1 this
    · exact absurd hu3 (hgn u (List.mem_filter.2 ⟨hu1, hu2⟩))
  have ha := (addsEShared_fold (D := TypeItemGives root) (fun k hk' _ _ _ h =>
    rootItem_addsE (readTypeOf_rightE hv fuel) hv (fun _ _ _ _ h => readTypeOf_named h) hd hk' hp h)
      h4).congr fun x => (elemOf_items hd hu).symm
  refine ⟨ha.holds, ?_⟩
  intro k c hc
  rcases ha.deep _ (Dict.mem_of_get? hc) with h | h
  · cases h
  · exact h

/-! ## examples -/

/-- Only sequences of `ex` refer to groups, and no type or group refers to `ex`; to be computed. -/
def flatCheck (root : XsNode) (ex : Str) : Bool :=
  root.kids.all fun t => !(t.isXs s%"complexType" || t.isXs s%"group") ||
    ((Dict.get? t.attrib s%"name" = some ex || (
      ((t.select s%"sequence").all fun s => (s.select s%"group").isEmpty) &&
      ((t.select s%"complexContent").all fun c => (c.select s%"extension").all fun e =>
        (e.select s%"sequence").all fun s => (s.select s%"group").isEmpty))) &&
    t.nodes.all fun x => [s%"ref", s%"type", s%"base"].all fun a =>
      match Dict.get? x.attrib a with
      | none => true
      | some r => stripNs r ≠ ex)

theorem particle_nodes {m x : XsNode} (h : Particle m x) : ∀ n : XsNode, m ∈ n.nodes →
    x ∈ n.nodes := by
  induction h with
  | here h _ => exact fun n hn => nodes_kid n hn h
  | inside h _ _ ih => exact fun n hn => ih n (nodes_kid n hn h)

theorem flatCheck_sound {root : XsNode} {ex : Str} (h : flatCheck root ex = true) :
    (∀ k, k ≠ ex → ∀ k', Leads root k k' → NoGroupInSequence root k') ∧
      ∀ k r, Uses root k r → stripNs r ≠ ex := by
  unfold flatCheck at h
  rw [List.all_eq_true] at h
  have part : ∀ {k : Str} {t : XsNode}, DeclaresChild root k t →
      (k ≠ ex → (∀ s ∈ t.select s%"sequence", s.select s%"group" = []) ∧
        ∀ c ∈ t.select s%"complexContent", ∀ e ∈ c.select s%"extension",
          ∀ s ∈ e.select s%"sequence", s.select s%"group" = []) ∧
      ∀ x ∈ t.nodes, ∀ a ∈ [s%"ref", s%"type", s%"base"], ∀ r, Dict.get? x.attrib a = some r →
        stripNs r ≠ ex := by
    rintro k t ⟨h1, h2, h3⟩
    have ht := h t h1
    have h2' : (t.isXs s%"complexType" || t.isXs s%"group") = true := by simpa using h2
    rw [h2'] at ht
    simp only [Bool.not_true, Bool.false_or, Bool.and_eq_true, Bool.or_eq_true] at ht
    obtain ⟨ht1, ht2⟩ := ht
    constructor
    · intro hk
      rcases ht1 with ht1 | ⟨ht1, ht3⟩
      · have : Dict.get? t.attrib s%"name" = some ex := of_decide_eq_true ht1
        unfold HasName at h3
        rw [h3] at this
        injection this with this
        exact absurd this hk
      · constructor
        · intro s hs
          exact List.isEmpty_iff.1 (List.all_eq_true.1 ht1 s hs)
        · intro c hc e he s hs
          exact List.isEmpty_iff.1 (List.all_eq_true.1
            (List.all_eq_true.1 (List.all_eq_true.1 ht3 c hc) e he) s hs)
    · intro x hx a ha r hr
      have := List.all_eq_true.1 (List.all_eq_true.1 ht2 x hx) a ha
      rw [hr] at this
      exact of_decide_eq_true this
  have ext_nodes : ∀ {t c : XsNode}, Content t c → c ∈ t.nodes := by
    rintro t c (rfl | ⟨cc, h1, h2⟩)
    · exact mem_nodes_self _
    · exact nodes_kid t (nodes_kid t (mem_nodes_self t) (select_kid h1)) (select_kid h2)
  constructor
  · intro k hk k' hl
    induction hl with
    | refl =>
      intro t c s hd hc hs
      obtain ⟨h1, h2⟩ := (part hd).1 hk
      rcases hc with rfl | ⟨cc, h3, h4⟩
      · exact h1 s hs
      · exact h2 cc h3 c h4 s hs
    | group hd hc hp _ hr _ ih =>
      exact ih ((part hd).2 _ (particle_nodes hp _ (ext_nodes hc)) _ (by decide) _ hr)
    | element hd hc hp _ hr _ ih =>
      exact ih ((part hd).2 _ (particle_nodes hp _ (ext_nodes hc)) _ (by decide) _ hr)
    | base hd he hb _ ih =>
      exact ih ((part hd).2 _ (ext_nodes (.inr he)) _ (by decide) _ hb)
  · rintro k r ⟨t, x, hd, hp, ⟨_, hr⟩ | ⟨_, hr⟩⟩
    · exact (part hd).2 _ (particle_nodes hp _ (mem_nodes_self t)) _ (by decide) _ hr
    · exact (part hd).2 _ (particle_nodes hp _ (mem_nodes_self t)) _ (by decide) _ hr

/-- The hypotheses of `definition_elements_partial` for the shipped schema. -/
example : ValidRefs (nxdlXsd 705) ∧ (∀ r, Uses (nxdlXsd 705) s%"definitionType" r →
    ∀ k', Leads (nxdlXsd 705) (stripNs r) k' → NoGroupInSequence (nxdlXsd 705) k') := by
  obtain ⟨h1, h2⟩ := flatCheck_sound (root := nxdlXsd 705) (ex := s%"definitionType")
    (by decide +kernel)
  exact ⟨nxdlXsd_refs, fun r hr => h1 _ (h2 _ r hr)⟩

/-- The type of groups has the elements of the group that it refers to. -/
example : ∃ p s', readTypeOf (nxdlXsd 705) 20 (some s%"nx:groupType") true = (.ok p, s') ∧
    Dict.keys p.children = [some s%"doc", some s%"attribute", some s%"group", some s%"field",
      some s%"link"] := by
  have h : (match readTypeOf (nxdlXsd 705) 20 (some s%"nx:groupType") true with
    | (.ok p, _) => decide (Dict.keys p.children = [some s%"doc", some s%"attribute",
        some s%"group", some s%"field", some s%"link"])
    | _ => false) = true := by decide +kernel
  generalize hr : readTypeOf (nxdlXsd 705) 20 (some s%"nx:groupType") true = r at h
  obtain ⟨x, s'⟩ := r
  cases x with
  | error e => cases h
  | ok p => exact ⟨p, s', rfl, of_decide_eq_true h⟩

/-- A schema in which a sequence of another type refers to a group. -/
def sequenceGroupXsd : XsNode :=
  .elem true s%"schema" 1 [] [
    .elem true s%"element" 2 [(s%"name", s%"definition"), (s%"type", s%"nx:definitionType")] [],
    .elem true s%"complexType" 3 [(s%"name", s%"definitionType")] [
      .elem true s%"sequence" 4 [] [
        .elem true s%"element" 5 [(s%"name", s%"field"), (s%"type", s%"nx:fieldType")] []]],
    .elem true s%"complexType" 9 [(s%"name", s%"fieldType")] [
      .elem true s%"sequence" 10 [] [
        .elem true s%"group" 11 [(s%"ref", s%"nx:docGroup")] []]],
    .elem true s%"complexType" 13 [(s%"name", s%"docType")] [],
    .elem true s%"group" 15 [(s%"name", s%"docGroup")] [
      .elem true s%"sequence" 16 [] [
        .elem true s%"element" 17 [(s%"name", s%"doc"), (s%"type", s%"nx:docType")] []]]]

/-- C85 is false: a group that a sequence of a type refers to is not looked up, its elements are
missing; there is a child without a name instead. -/
theorem sequence_group_lost :
    ValidRefs sequenceGroupXsd ∧
    (∃ n, ElemOf sequenceGroupXsd s%"fieldType" n ∧ HasName n s%"doc") ∧
    ((readTypeOf sequenceGroupXsd 20 (some s%"nx:fieldType") false).1.toOption.map
      fun p => Dict.keys p.children) = some [none] := by
  refine ⟨refsCheck_sound (by decide +kernel), ?_, by decide +kernel⟩
  refine ⟨.elem true s%"element" 17 [(s%"name", s%"doc"), (s%"type", s%"nx:docType")] [], ?_, rfl⟩
  refine .group (t := .elem true s%"complexType" 9 [(s%"name", s%"fieldType")] [
      .elem true s%"sequence" 10 [] [
        .elem true s%"group" 11 [(s%"ref", s%"nx:docGroup")] []]])
    (g := .elem true s%"group" 11 [(s%"ref", s%"nx:docGroup")] []) (r := s%"nx:docGroup")
    ⟨?_, .inl (by decide), rfl⟩ (.inl rfl) ?_ (by decide) rfl ?_
  · simp [sequenceGroupXsd, XsNode.kids]
  · exact .inside (n := .elem true s%"sequence" 10 [] [
        .elem true s%"group" 11 [(s%"ref", s%"nx:docGroup")] []])
      (by simp [XsNode.kids]) (.inl (by decide)) (.here (by simp [XsNode.kids]) (.inr (by decide)))
  · refine .own (t := .elem true s%"group" 15 [(s%"name", s%"docGroup")] [
      .elem true s%"sequence" 16 [] [
        .elem true s%"element" 17 [(s%"name", s%"doc"), (s%"type", s%"nx:docType")] []]])
      ⟨?_, .inr (by decide), by unfold HasName; decide⟩ (.inl rfl) ?_ (by decide)
    · simp [sequenceGroupXsd, XsNode.kids]
    · exact .inside (n := .elem true s%"sequence" 16 [] [
        .elem true s%"element" 17 [(s%"name", s%"doc"), (s%"type", s%"nx:docType")] []])
        (by simp [XsNode.kids]) (.inl (by decide))
        (.here (by simp [XsNode.kids]) (.inl (by decide)))

end Punx

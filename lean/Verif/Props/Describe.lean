import Verif.Spec.Describe
import Verif.Props.NxdlSchema5
import Mathlib.Data.List.Induction

/-!
# C131: the printed outline of a schema
-/

namespace Punx
open Spec

theorem listedAs_iff {o : SObj} {n : Str} : ListedAs o n ↔ n = o.label := by
  unfold ListedAs SObj.label
  rcases h : o.name with _ | _ | ⟨c, t⟩
  · simp
  · simp
  · simp only [Option.some.injEq, reduceCtorEq, false_and, or_false]
    constructor
    · rintro ⟨rfl, -⟩; rfl
    · rintro rfl; exact ⟨rfl, by simp⟩

/-- The fold of `build_tree`: the last one with a label. -/
theorem label_fold (l : List SObj) : ∀ (a : Str) (x : SObj),
    Dict.get? (l.foldl (fun d c => Dict.set d c.label c) []) a = some x ↔
      ∃ pre post, l = pre ++ x :: post ∧ x.label = a ∧ ∀ d ∈ post, d.label ≠ a := by
  induction l using List.reverseRecOn with
  | nil => intro a x; simp [Dict.get?]
  | append_singleton l c ih =>
    intro a x
    rw [List.foldl_append, List.foldl_cons, List.foldl_nil, Dict.get?_set]
    split
    · rename_i e
      simp only [Option.some.injEq]
      constructor
      · rintro rfl
        exact ⟨l, [], rfl, e, by simp⟩
      · rintro ⟨pre, post, h, h1, h2⟩
        rcases List.eq_nil_or_concat post with rfl | ⟨post', d, rfl⟩
        · have := List.append_inj' h rfl
          simpa using this.2
        · rw [List.concat_eq_append, ← List.cons_append, ← List.append_assoc] at h
          have := List.append_inj' h rfl
          have hd : c = d := by simpa using this.2
          subst hd
          exact absurd e (h2 c (by simp))
    · rename_i e
      rw [ih]
      constructor
      · rintro ⟨pre, post, rfl, h1, h2⟩
        refine ⟨pre, post ++ [c], by simp, h1, fun d hd => ?_⟩
        rcases List.mem_append.1 hd with hd | hd
        · exact h2 d hd
        · rw [List.mem_singleton] at hd
          subst hd
          exact e
      · rintro ⟨pre, post, h, h1, h2⟩
        rcases List.eq_nil_or_concat post with rfl | ⟨post', d, rfl⟩
        · have := List.append_inj' h rfl
          have hd : c = x := by simpa using this.2
          subst hd
          exact absurd h1 e
        · rw [List.concat_eq_append, ← List.cons_append, ← List.append_assoc] at h
          have := List.append_inj' h rfl
          exact ⟨pre, post', this.1, h1, fun y hy => h2 y (by simp [hy])⟩

theorem table_last {k : SKind} {o x : SObj} {a : Str} :
    Dict.get? (o.table k) a = some x ↔ LastSuch o x ∧ x.kind = k ∧ x.label = a := by
  unfold SObj.table
  rw [label_fold]
  constructor
  · rintro ⟨pre, post, h, h1, h2⟩
    rw [List.filter_eq_append_iff] at h
    obtain ⟨l1, l2, e, rfl, h⟩ := h
    rw [List.filter_eq_cons_iff] at h
    obtain ⟨m1, m2, rfl, h3, h4, rfl⟩ := h
    have hk : x.kind = k := by simpa using h4
    refine ⟨⟨l1 ++ m1, m2, by rw [e, List.append_assoc], fun d hd hdk n hn hn' => ?_⟩, hk, h1⟩
    rw [listedAs_iff] at hn hn'
    exact h2 d (List.mem_filter.2 ⟨hd, by simp [hdk, hk]⟩) (hn' ▸ hn ▸ h1)
  · rintro ⟨⟨pre, post, e, h⟩, hk, h1⟩
    refine ⟨pre.filter (·.kind = k), post.filter (·.kind = k), ?_, h1, fun d hd => ?_⟩
    · rw [e, List.filter_append, List.filter_cons]
      simp [hk]
    · obtain ⟨hd, hdk⟩ := List.mem_filter.1 hd
      intro e'
      exact h d hd (by simpa [hk] using hdk) x.label (listedAs_iff.2 rfl)
        (listedAs_iff.2 (h1.trans e'.symm))

theorem nodup_label_fold (l : List SObj) : ∀ d : Dict Str SObj, (Dict.keys d).Nodup →
    (Dict.keys (l.foldl (fun d c => Dict.set d c.label c) d)).Nodup := by
  induction l with
  | nil => exact fun _ h => h
  | cons c l ih => exact fun d h => ih _ (Dict.nodup_keys_set h _ _)

theorem nodup_table (k : SKind) (o : SObj) : (Dict.keys (o.table k)).Nodup :=
  nodup_label_fold _ _ (by simp [Dict.keys])

/-- Sorted keys: strictly increasing. -/
theorem sortKeys_strict {β : Type} {d : Dict Str β} (h : (Dict.keys d).Nodup) :
    (sortKeys d).Pairwise fun a b => strLe a.1 b.1 = true ∧ a.1 ≠ b.1 := by
  refine List.Pairwise.and (sortBy_sorted (le := fun a b : Str × β => strLe a.1 b.1)
    (fun a b => strLe_total _ _) (fun a b c => strLe_trans) d) ?_
  have : (Dict.keys (sortKeys d)).Nodup := ((sortBy_perm d).map (fun kv : Str × β => kv.1)).nodup_iff.2 h
  exact List.pairwise_map.1 this

/-- The listed children of a kind. -/
theorem sortedValues_listed (k : SKind) (o : SObj) : ListedKids k o (sortedValues (o.table k)) := by
  have hmem : ∀ kv : Str × SObj, kv ∈ sortKeys (o.table k) ↔
      LastSuch o kv.2 ∧ kv.2.kind = k ∧ kv.2.label = kv.1 := by
    intro kv
    rw [← table_last]
    exact mem_sortBy.trans ⟨fun h => Dict.get?_of_mem (nodup_table k o) h, Dict.mem_of_get?⟩
  constructor
  · refine List.pairwise_map.2 ?_
    refine List.Pairwise.imp_of_mem ?_ (sortKeys_strict (nodup_table k o))
    intro a b ha hb hab n m hn hm
    rw [listedAs_iff] at hn hm
    rw [hn, hm, ((hmem a).1 ha).2.2, ((hmem b).1 hb).2.2]
    exact hab
  · intro c
    unfold sortedValues
    rw [List.mem_map]
    constructor
    · rintro ⟨kv, hkv, rfl⟩
      exact ⟨((hmem kv).1 hkv).1, ((hmem kv).1 hkv).2.1⟩
    · rintro ⟨h1, h2⟩
      exact ⟨(c.label, c), (hmem _).2 ⟨h1, h2, rfl⟩, rfl⟩

/-! ## the counts -/

/-- The count under a key. -/
def tallied (d : Dict Str Nat) (k : Str) : Nat := (Dict.get? d k).getD 0

theorem bump_get (d : Dict Str Nat) (kv : Str × Nat) (k : Str) :
    tallied (bump d kv) k = tallied d k + (if kv.1 = k then kv.2 else 0) ∧
      (k ∈ Dict.keys (bump d kv) ↔ k ∈ Dict.keys d ∨ k = kv.1) := by
  constructor
  · unfold tallied bump
    rw [Dict.get?_set]
    split
    · rename_i e; rw [e]; simp
    · simp
  · unfold bump
    rw [Dict.keys_set]
    split
    · rename_i h
      constructor
      · exact .inl
      · rintro (h' | rfl)
        · exact h'
        · exact h
    · simp

theorem nodup_bump {d : Dict Str Nat} (h : (Dict.keys d).Nodup) (kv : Str × Nat) :
    (Dict.keys (bump d kv)).Nodup := Dict.nodup_keys_set h _ _

theorem bumps_get : ∀ (l : Dict Str Nat) (d : Dict Str Nat) (k : Str), (Dict.keys l).Nodup →
    tallied (l.foldl bump d) k = tallied d k + tallied l k ∧
      (k ∈ Dict.keys (l.foldl bump d) ↔ k ∈ Dict.keys d ∨ k ∈ Dict.keys l)
  | [], d, k, _ => by simp [tallied, Dict.get?, Dict.keys]
  | kv :: l, d, k, h => by
    rw [List.foldl_cons]
    have hl : kv.1 ∉ Dict.keys l ∧ (Dict.keys l).Nodup := by simpa [Dict.keys] using h
    obtain ⟨h1, h2⟩ := bumps_get l (bump d kv) k hl.2
    obtain ⟨h3, h4⟩ := bump_get d kv k
    rw [h1, h2, h3, h4]
    constructor
    · by_cases e : kv.1 = k
      · have : tallied l k = 0 := by
          unfold tallied
          rw [Dict.get?_eq_none.2 (e ▸ hl.1)]
          rfl
        have h5 : tallied (kv :: l) k = kv.2 := by
          obtain ⟨a, b⟩ := kv
          simp only at e
          simp [tallied, Dict.get?, e]
        rw [if_pos e, this, h5]
        rfl
      · have h5 : tallied (kv :: l) k = tallied l k := by
          obtain ⟨a, b⟩ := kv
          simp only at e
          simp [tallied, Dict.get?, e]
        rw [if_neg e, h5]
        rfl
    · simp only [Dict.keys, List.map_cons, List.mem_cons]
      tauto

theorem nodup_bumps : ∀ (l : Dict Str Nat) (d : Dict Str Nat), (Dict.keys d).Nodup →
    (Dict.keys (l.foldl bump d)).Nodup
  | [], _, h => h
  | kv :: l, _, h => nodup_bumps l _ (nodup_bump h kv)

/-- A report whose counts are kept under distinct keys. -/
def Kept (rows : List (Nat × SObj)) (p : Printed) : Prop :=
  Reports rows p ∧ (Dict.keys p.tally).Nodup

theorem reports_iff {rows : List (Nat × SObj)} {p : Printed} :
    Reports rows p ↔ p.lines = rows.map (fun r => r.2.line r.1) ∧ p.count = rows.length ∧
      ∀ k, tallied p.tally k = ofKind k rows ∧ (k ∈ Dict.keys p.tally ↔ 0 < ofKind k rows) := by
  constructor
  · rintro ⟨h1, h2, h3⟩
    refine ⟨h1, h2, fun k => ?_⟩
    have hk : k ∈ Dict.keys p.tally ↔ ∃ n, Dict.get? p.tally k = some n := by
      rw [← not_iff_not, ← Dict.get?_eq_none]
      cases Dict.get? p.tally k <;> simp
    rw [hk]
    unfold tallied
    cases hg : Dict.get? p.tally k with
    | none =>
      have : ofKind k rows = 0 := by
        by_contra hne
        have := (h3 k (ofKind k rows)).2 ⟨rfl, by omega⟩
        rw [hg] at this
        cases this
      simp [this]
    | some n =>
      obtain ⟨rfl, hp⟩ := (h3 k n).1 hg
      simp [hp]
  · rintro ⟨h1, h2, h3⟩
    refine ⟨h1, h2, fun k n => ?_⟩
    obtain ⟨h4, h5⟩ := h3 k
    cases hg : Dict.get? p.tally k with
    | none =>
      have := Dict.get?_eq_none.1 hg
      rw [h5] at this
      constructor
      · intro h; cases h
      · rintro ⟨rfl, h⟩; exact absurd h this
    | some m =>
      have hm : m = ofKind k rows := by rw [← h4]; simp [tallied, hg]
      have : k ∈ Dict.keys p.tally := by
        by_contra h
        rw [Dict.get?_eq_none.2 h] at hg
        cases hg
      rw [h5, ← hm] at this
      simp only [Option.some.injEq]
      constructor
      · rintro rfl; exact ⟨hm, this⟩
      · rintro ⟨rfl, -⟩; exact hm

theorem ofKind_append (k : Str) (a b : List (Nat × SObj)) :
    ofKind k (a ++ b) = ofKind k a + ofKind k b := by
  simp [ofKind]

theorem Kept.add {ra rb : List (Nat × SObj)} {p q : Printed} (hp : Kept ra p) (hq : Kept rb q) :
    Kept (ra ++ rb) ⟨p.lines ++ q.lines, p.count + q.count, q.tally.foldl bump p.tally⟩ := by
  refine ⟨?_, nodup_bumps _ _ hp.2⟩
  obtain ⟨p1, p2, p3⟩ := reports_iff.1 hp.1
  obtain ⟨q1, q2, q3⟩ := reports_iff.1 hq.1
  refine reports_iff.2 ⟨by simp [p1, q1], by simp [p2, q2], fun k => ?_⟩
  obtain ⟨h1, h2⟩ := bumps_get q.tally p.tally k hq.2
  rw [h1, h2, ofKind_append, (p3 k).1, (q3 k).1, (p3 k).2, (q3 k).2]
  exact ⟨rfl, by omega⟩

theorem kept_self (l : Nat) (o : SObj) :
    Kept [(l, o)] ⟨[o.line l], 1, [(o.kind.text, 1)]⟩ := by
  refine ⟨reports_iff.2 ⟨rfl, rfl, fun k => ?_⟩, by simp [Dict.keys]⟩
  by_cases e : o.kind.text = k
  · simp [tallied, Dict.get?, ofKind, Dict.keys, e]
  · have e' : ¬ k = o.kind.text := fun h => e h.symm
    simp [tallied, Dict.get?, ofKind, Dict.keys, e, e']

theorem printKids_spec {l : Nat} {f : SObj → Except PyErr Printed}
    (hf : ∀ c q, f c = .ok q → ∃ r, Outline l c r ∧ Kept r q) : ∀ (cs : List SObj) (p p' : Printed)
    (rows : List (Nat × SObj)), Kept rows p → printKids f cs p = .ok p' →
      ∃ rs, Outlines l cs rs ∧ Kept (rows ++ rs) p'
  | [], p, p', rows, hp, h => by
    simp only [printKids, Except.ok.injEq] at h
    subst h
    exact ⟨[], .nil, by simpa using hp⟩
  | c :: cs, p, p', rows, hp, h => by
    rw [printKids] at h
    cases hq : f c with
    | error e => rw [hq] at h; cases h
    | ok q =>
      rw [hq] at h
      obtain ⟨r, hr, hk⟩ := hf c q hq
      obtain ⟨rs, hrs, hks⟩ := printKids_spec hf cs _ p' _ (hp.add hk) h
      exact ⟨r ++ rs, .cons hr hrs, by rwa [List.append_assoc] at hks⟩

theorem outlines_append {l : Nat} : ∀ {as bs : List SObj} {r : List (Nat × SObj)},
    Outlines l (as ++ bs) r → ∃ ra rb, Outlines l as ra ∧ Outlines l bs rb ∧ r = ra ++ rb
  | [], _, r, h => ⟨[], r, .nil, h, rfl⟩
  | _ :: as, bs, _, .cons h hs => by
    obtain ⟨ra, rb, h1, h2, rfl⟩ := outlines_append (as := as) (bs := bs) hs
    exact ⟨_, rb, .cons h h1, h2, by rw [List.append_assoc]⟩

theorem printTree_kept : ∀ (fuel l : Nat) (o : SObj) (p : Printed), printTree fuel l o = .ok p →
    ∃ rows, Outline l o rows ∧ Kept rows p
  | 0, _, _, _, h => by cases h
  | fuel + 1, l, o, p, h => by
    rw [printTree] at h
    obtain ⟨rs, h1, h2⟩ := printKids_spec (printTree_kept fuel (l + 1)) _ _ _ _ (kept_self l o) h
    obtain ⟨ra, rg, h3, h4, rfl⟩ := outlines_append h1
    exact ⟨_, .mk (sortedValues_listed .attribute o) (sortedValues_listed .group o) h3 h4, h2⟩

/-! ## outlines exist, and there is only one -/

mutual
theorem printTree_completes : (o : SObj) →
    ∃ n, ∀ fuel, n ≤ fuel → ∀ l, ∃ p, printTree fuel l o = .ok p
  | .mk kind name key info kids => by
    obtain ⟨n, hn⟩ := printTrees_complete kids
    refine ⟨n + 1, fun fuel hf l => ?_⟩
    obtain ⟨fuel, rfl⟩ : ∃ m, fuel = m + 1 := ⟨fuel - 1, by omega⟩
    rw [printTree]
    have go : ∀ (cs : List SObj) (p : Printed), (∀ c ∈ cs, c ∈ kids) →
        ∃ q, printKids (printTree fuel (l + 1)) cs p = .ok q := by
      intro cs
      induction cs with
      | nil => exact fun p _ => ⟨p, rfl⟩
      | cons c cs ih =>
        intro p hc
        obtain ⟨q, hq⟩ := hn c (hc c (by simp)) fuel (by omega) (l + 1)
        rw [printKids, hq]
        exact ih _ fun d hd => hc d (by simp [hd])
    refine go _ _ fun c hc => ?_
    have : ∀ k, c ∈ sortedValues (SObj.table k (.mk kind name key info kids)) → c ∈ kids := by
      intro k h
      obtain ⟨⟨pre, post, e, -⟩, -⟩ := ((sortedValues_listed k _).2 c).1 h
      have e' : kids = pre ++ c :: post := e
      rw [e']
      simp
    rcases List.mem_append.1 hc with h | h
    · exact this _ h
    · exact this _ h
theorem printTrees_complete : (os : List SObj) →
    ∃ n, ∀ o ∈ os, ∀ fuel, n ≤ fuel → ∀ l, ∃ p, printTree fuel l o = .ok p
  | [] => ⟨0, fun o h => absurd h (by simp)⟩
  | o :: os => by
    obtain ⟨n, hn⟩ := printTree_completes o
    obtain ⟨m, hm⟩ := printTrees_complete os
    refine ⟨max n m, fun x hx fuel hf => ?_⟩
    rcases List.mem_cons.1 hx with rfl | hx
    · exact hn fuel (by omega)
    · exact hm x hx fuel (by omega)
end

theorem inOrder_nodup {l : List SObj} (h : InOrder l) : l.Nodup := by
  refine List.Pairwise.imp ?_ h
  rintro a _ h rfl
  exact (h a.label a.label (listedAs_iff.2 rfl) (listedAs_iff.2 rfl)).2 rfl

theorem inOrder_unique {l l' : List SObj} (h : InOrder l) (h' : InOrder l')
    (hm : ∀ c, c ∈ l ↔ c ∈ l') : l = l' := by
  have hp : l.Perm l' := (List.perm_ext_iff_of_nodup (inOrder_nodup h) (inOrder_nodup h')).2 hm
  refine hp.eq_of_pairwise (le := fun a b => strLe a.label b.label = true ∧ a.label ≠ b.label) ?_ ?_ ?_
  · intro a b _ _ h1 h2
    exact absurd (strLe_antisymm h1.1 h2.1) h1.2
  · exact List.Pairwise.imp (fun h => h _ _ (listedAs_iff.2 rfl) (listedAs_iff.2 rfl)) h
  · exact List.Pairwise.imp (fun h => h _ _ (listedAs_iff.2 rfl) (listedAs_iff.2 rfl)) h'

theorem listedKids_unique {k : SKind} {o : SObj} {l l' : List SObj} (h : ListedKids k o l)
    (h' : ListedKids k o l') : l = l' :=
  inOrder_unique h.1 h'.1 fun c => (h.2 c).trans (h'.2 c).symm

mutual
theorem outline_unique {l : Nat} {o : SObj} {r r' : List (Nat × SObj)} :
    Outline l o r → Outline l o r' → r = r'
  | .mk h1 h2 h3 h4, .mk g1 g2 g3 g4 => by
    cases listedKids_unique h1 g1
    cases listedKids_unique h2 g2
    rw [outlines_unique h3 g3, outlines_unique h4 g4]
theorem outlines_unique {l : Nat} {os : List SObj} {r r' : List (Nat × SObj)} :
    Outlines l os r → Outlines l os r' → r = r'
  | .nil, .nil => rfl
  | .cons h1 h2, .cons g1 g2 => by
    rw [outline_unique h1 g1, outlines_unique h2 g2]
end

end Punx

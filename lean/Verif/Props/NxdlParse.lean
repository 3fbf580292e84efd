import Verif.Lemmas.Basic
import Verif.Spec.NxdlParse
import Verif.Props.DefaultPlotV2
import Verif.Props.DefaultPlotV3

/-!
# C49: reading definition documents
-/

namespace Punx
open Spec

namespace Reader
variable {α β : Type}

theorem bind_ok {x : Reader α} {f : α → Reader β} {d : Defaults} {r : β × Defaults} :
    (x >>= f) d = .ok r ↔ ∃ a d1, x d = .ok (a, d1) ∧ f a d1 = .ok r := by
  show (StateT.bind x f) d = .ok r ↔ _
  unfold StateT.bind
  cases h : x d with
  | error e => simp [bind, Except.bind]
  | ok p =>
    obtain ⟨a, d1⟩ := p
    simp [bind, Except.bind]

theorem pure_ok {a b : α} {d d' : Defaults} :
    (pure a : Reader α) d = .ok (b, d') ↔ a = b ∧ d = d' := by
  show (Except.ok (a, d) : Except PyErr (α × Defaults)) = .ok (b, d') ↔ _
  simp

theorem raise_ok {e : PyErr} {d : Defaults} {r : α × Defaults} :
    (Reader.raise e : Reader α) d = .ok r ↔ False := by
  simp [Reader.raise]

theorem bind_error {x : Reader α} {f : α → Reader β} {d : Defaults} {e : PyErr} :
    (x >>= f) d = .error e ↔
      x d = .error e ∨ ∃ a d1, x d = .ok (a, d1) ∧ f a d1 = .error e := by
  show (StateT.bind x f) d = .error e ↔ _
  unfold StateT.bind
  cases h : x d with
  | error e => simp [bind, Except.bind]
  | ok p =>
    obtain ⟨a, d1⟩ := p
    simp [bind, Except.bind]

end Reader

/-! ## the names given -/

theorem freeIndex_ge (used : List Str) (base : Str) (fuel i : Nat) :
    i ≤ freeIndex used base fuel i := by
  induction fuel generalizing i with
  | zero => exact Nat.le_refl _
  | succ f ih =>
    unfold freeIndex
    split
    · exact Nat.le_trans (Nat.le_succ _) (ih _)
    · exact Nat.le_refl _

theorem freeIndex_below (used : List Str) (base : Str) (fuel i : Nat) :
    ∀ j, i ≤ j → j < freeIndex used base fuel i → base ++ natStr j ∈ used := by
  induction fuel generalizing i with
  | zero => intro j h1 h2; simp only [freeIndex] at h2; omega
  | succ f ih =>
    intro j h1 h2
    unfold freeIndex at h2
    split at h2
    · rename_i hm
      by_cases hj : j = i
      · subst hj; exact hm
      · exact ih (i + 1) j (by omega) h2
    · omega

theorem freeIndex_le (used : List Str) (base : Str) (fuel i : Nat) :
    freeIndex used base fuel i ≤ i + fuel := by
  induction fuel generalizing i with
  | zero => exact Nat.le_refl _
  | succ f ih =>
    unfold freeIndex
    split
    · have := ih (i + 1); omega
    · omega

theorem freeIndex_new (used : List Str) (base : Str) (fuel i : Nat) :
    base ++ natStr (freeIndex used base fuel i) ∉ used ∨
      freeIndex used base fuel i = i + fuel := by
  induction fuel generalizing i with
  | zero => right; rfl
  | succ f ih =>
    unfold freeIndex
    split
    · rcases ih (i + 1) with h | h
      · exact .inl h
      · right; rw [h]; omega
    · rename_i h; exact .inl h

/-- Pigeonhole: `length used + 1` different names cannot all be in use. -/
theorem all_used_short (used : List Str) (base : Str) (n : Nat)
    (h : ∀ j, 1 ≤ j → j ≤ n → base ++ natStr j ∈ used) : n ≤ used.length := by
  have hn : ((List.range' 1 n).map (fun j => base ++ natStr j)).Nodup := by
    refine List.Pairwise.map _ ?_ (List.nodup_range' (s := 1) (n := n))
    intro a b hab he
    exact hab (natStr_inj (List.append_cancel_left he))
  have hs : (List.range' 1 n).map (fun j => base ++ natStr j) ⊆ used := by
    intro s hs
    obtain ⟨j, hj, rfl⟩ := List.mem_map.1 hs
    rw [List.mem_range'_1] at hj
    exact h j hj.1 (by omega)
  have := (List.subperm_of_subset hn hs).length_le
  simpa using this

/-- The loop of `ensure_unique_name` always ends at a new name, within as many turns
as there are names. -/
theorem uniqueName_new (used : List Str) (n : Str) : uniqueName used n ∉ used := by
  unfold uniqueName
  split
  · rename_i hm
    rcases freeIndex_new used n used.length 1 with h | h
    · exact h
    · rw [h]
      intro hmem
      have := all_used_short used n (used.length + 1) (by
        intro j h1 h2
        by_cases hj : j = used.length + 1
        · subst hj; rwa [Nat.add_comm] at hmem
        · exact freeIndex_below used n used.length 1 j h1 (by omega))
      omega
  · assumption

theorem named_append {used w1 g1 w2 g2 : List Str} (h1 : Named used w1 g1)
    (h2 : Named (used ++ g1) w2 g2) : Named used (w1 ++ w2) (g1 ++ g2) := by
  induction h1 with
  | nil => simpa using h2
  | fresh hn _ ih => exact .fresh hn (ih (by simpa using h2))
  | again hn hk hf hs _ ih => exact .again hn hk hf hs (ih (by simpa using h2))

theorem named_unique (used : List Str) (n : Str) :
    Named used [n] [uniqueName used n] := by
  have hnew := uniqueName_new used n
  unfold uniqueName at hnew ⊢
  split
  · rename_i hm
    rw [if_pos hm] at hnew
    exact .again hm (freeIndex_ge _ _ _ _) hnew (freeIndex_below _ _ _ _) .nil
  · rename_i hm
    exact .fresh hm .nil

theorem named_length {used w g : List Str} (h : Named used w g) : g.length = w.length := by
  induction h <;> simp_all

/-- Names given are new and all different. -/
theorem named_nodup {used w g : List Str} (h : Named used w g) :
    g.Nodup ∧ ∀ s ∈ g, s ∉ used := by
  induction h with
  | nil => simp
  | fresh hn _ ih =>
    refine ⟨List.nodup_cons.2 ⟨fun hm => ih.2 _ hm (by simp), ih.1⟩, ?_⟩
    intro s hs
    rcases List.mem_cons.1 hs with rfl | hs
    · exact hn
    · exact fun hu => ih.2 s hs (by simp [hu])
  | again hn hk hf hs' _ ih =>
    refine ⟨List.nodup_cons.2 ⟨fun hm => ih.2 _ hm (by simp), ih.1⟩, ?_⟩
    intro s hs
    rcases List.mem_cons.1 hs with rfl | hs
    · exact hf
    · exact fun hu => ih.2 s hs (by simp [hu])

/-- The names given are determined by the names asked for. -/
theorem named_functional {used w g g' : List Str} (h : Named used w g) (h' : Named used w g') :
    g = g' := by
  induction h generalizing g' with
  | nil => cases h'; rfl
  | fresh hn _ ih =>
    cases h' with
    | fresh _ h2 => rw [ih h2]
    | again hm => exact absurd hm hn
  | @again used n k wanted got hm hk hf hs _ ih =>
    cases h' with
    | fresh hn => exact absurd hm hn
    | @again _ _ k' _ _ _ hk' hf' hs' h2 =>
      have : k = k' := by
        rcases Nat.lt_trichotomy k k' with h | h | h
        · exact absurd (hs' k hk h) hf
        · exact h
        · exact absurd (hs k' hk' h) hf'
      subst this
      rw [ih h2]

/-! ## the parts of the reader -/

theorem need_ok {x : Xml} {k v : Str} {d d' : Defaults} :
    x.need k d = .ok (v, d') ↔ Dict.get? x.attrib k = some v ∧ d = d' := by
  unfold Xml.need
  cases h : Dict.get? x.attrib k with
  | none => simp [Reader.raise]
  | some w => simp [Reader.pure_ok]

theorem elements_eq (tag : Str) (kids : List Xml) : elements tag kids = kids.filter (Xml.isNx tag) := by
  unfold elements
  apply List.filter_congr
  intro x _
  rcases x with _ | ⟨nx, t, a, k⟩
  · rfl
  · by_cases h : t = tag <;> cases nx <;> simp [Xml.isNx, h]

theorem enumItems_listed (x : Xml) : x.enumItems = listed x := by
  unfold listed Xml.enumItems; simp only [elements_eq]

theorem fieldItems_listed (x : Xml) : x.fieldItems = listedItems x := by
  unfold listedItems Xml.fieldItems; simp only [elements_eq]

theorem elements_cons_pos {tag : Str} {x : Xml} {xs : List Xml} (h : x.isNx tag = true) :
    elements tag (x :: xs) = x :: elements tag xs := by
  simp [elements_eq, h]

theorem elements_cons_neg {tag : Str} {x : Xml} {xs : List Xml} (h : ¬ x.isNx tag = true) :
    elements tag (x :: xs) = elements tag xs := by
  simp [elements_eq, h]

theorem readAttributes_ok {c : Category} {xs : List Xml} {acc r : Dict Str AttrSpec}
    {d d' : Defaults} (h : readAttributes c xs acc d = .ok (r, d')) :
    ∃ new, r = acc ++ new ∧
      List.Forall₂ (fun x kv => nameOf x = some kv.1 ∧ kv.2.enums = listed x)
        (elements s%"attribute" xs) new ∧
      ((Dict.keys acc).Nodup → (Dict.keys r).Nodup) := by
  induction xs generalizing acc d with
  | nil =>
    rw [readAttributes, Reader.pure_ok] at h
    obtain ⟨rfl, rfl⟩ := h
    exact ⟨[], by simp, .nil, id⟩
  | cons x xs ih =>
    rw [readAttributes] at h
    split at h
    · rename_i hx
      obtain ⟨name, d1, h1, h⟩ := Reader.bind_ok.1 h
      obtain ⟨_, d2, h2, h⟩ := Reader.bind_ok.1 h
      rw [need_ok] at h1
      split at h
      · exact absurd h (by simp [Reader.raise])
      · rename_i hnew
        have hnm : name ∉ Dict.keys acc := fun hm => hnew (Dict.has_iff.2 hm)
        obtain ⟨new, hr, hf, hn⟩ := ih h
        rw [Dict.set_of_not_mem hnm] at hr
        refine ⟨(name, { enums := x.enumItems }) :: new, by simp [hr], ?_, ?_⟩
        · rw [elements_cons_pos hx]
          exact .cons ⟨h1.1, rfl⟩ hf
        · intro hacc
          exact hn (Dict.nodup_keys_set hacc _ _)
    · rename_i hx
      rw [elements_cons_neg hx]
      exact ih h

theorem readAttributes_nil {c : Category} {xs : List Xml} {r : Dict Str AttrSpec}
    {d d' : Defaults} (h : readAttributes c xs [] d = .ok (r, d')) : DeclaresAttrs xs r := by
  obtain ⟨new, hr, hf, hn⟩ := readAttributes_ok h
  simp only [List.nil_append] at hr
  subst hr
  exact ⟨hf, hn (by simp [Dict.keys])⟩

theorem needComponent_ok {f : Defaults → Bool} {u : Unit} {d d' : Defaults} :
    needComponent f d = .ok (u, d') ↔ f d = true ∧ d' = d := by
  unfold needComponent
  cases f d
  · simp
  · simp [eq_comm]

theorem dimsAt_cons_pos {x : Xml} {xs : List Xml} (hx : x.isNx s%"dim" = true) (k : Option Str) :
    dimsAt (x :: xs) k =
      if x.dimSpec.index = k then x :: dimsAt xs k else dimsAt xs k := by
  unfold dimsAt
  rw [elements_cons_pos hx, List.filter_cons]
  unfold Xml.dimSpec
  by_cases hk : Dict.get? x.attrib s%"index" = k
  · rw [if_pos hk, if_pos (by simpa using hk)]
  · rw [if_neg hk, if_neg (by simpa using hk)]

theorem dimsAt_cons_neg {x : Xml} {xs : List Xml} (hx : ¬ x.isNx s%"dim" = true) (k : Option Str) :
    dimsAt (x :: xs) k = dimsAt xs k := by
  unfold dimsAt
  rw [elements_cons_neg hx]

theorem readDims_ok {xs : List Xml} {acc r : Dict (Option Str) DimSpec} {d d' : Defaults}
    (h : readDims xs acc d = .ok (r, d')) :
    d' = d ∧ ((Dict.keys acc).Nodup → (Dict.keys r).Nodup) ∧
      ∀ k, Dict.get? r k = match (dimsAt xs k).getLast? with
        | some e => some e.dimSpec
        | none => Dict.get? acc k := by
  induction xs generalizing acc with
  | nil =>
    rw [readDims, Reader.pure_ok] at h
    obtain ⟨rfl, rfl⟩ := h
    exact ⟨rfl, id, fun k => rfl⟩
  | cons x xs ih =>
    rw [readDims] at h
    split at h
    · rename_i hx
      obtain ⟨_, d1, h1, h5⟩ := Reader.bind_ok.1 h
      obtain ⟨_, rfl⟩ := needComponent_ok.1 h1
      obtain ⟨h2, h3, h4⟩ := ih h5
      refine ⟨h2, fun hn => h3 (Dict.nodup_keys_set hn _ _), fun k => ?_⟩
      rw [h4 k, dimsAt_cons_pos hx]
      by_cases hk : x.dimSpec.index = k
      · rw [if_pos hk, List.getLast?_cons]
        cases (dimsAt xs k).getLast? with
        | some e => rfl
        | none => simp [Dict.get?_set, hk]
      · rw [if_neg hk]
        cases (dimsAt xs k).getLast? with
        | some e => rfl
        | none =>
          dsimp only
          rw [Dict.get?_set, if_neg hk]
    · rename_i hx
      obtain ⟨h2, h3, h4⟩ := ih h
      refine ⟨h2, h3, fun k => ?_⟩
      rw [h4 k, dimsAt_cons_neg hx]

theorem readDims_nil {xs : List Xml} {r : Dict (Option Str) DimSpec} {d d' : Defaults}
    (h : readDims xs [] d = .ok (r, d')) :
    (Dict.keys r).Nodup ∧ (∀ k, k ∈ Dict.keys r ↔ dimsAt xs k ≠ []) ∧
      ∀ k s, Dict.get? r k = some s →
        ∃ e, (dimsAt xs k).getLast? = some e ∧ DescribesDim e s := by
  obtain ⟨_, h2, h3⟩ := readDims_ok h
  refine ⟨h2 (by simp [Dict.keys]), fun k => ?_, fun k s hs => ?_⟩
  · rw [← Dict.has_iff, Dict.has, h3 k]
    cases hl : (dimsAt xs k).getLast? with
    | none => simp [List.getLast?_eq_none_iff.1 hl, Dict.get?]
    | some e =>
      simp only [Option.isSome_some, true_iff]
      intro h0
      rw [h0] at hl
      cases hl
  · rw [h3 k] at hs
    cases hl : (dimsAt xs k).getLast? with
    | none => rw [hl] at hs; cases hs
    | some e =>
      rw [hl] at hs
      injection hs with hs
      subst hs
      exact ⟨e, rfl, rfl, rfl, rfl, rfl, rfl⟩

theorem readDimensions_def (x : Xml) : readDimensions x =
    match elements s%"dimensions" x.kids with
    | [y] => do
      needComponent Defaults.dimensions
      let dims ← readDims y.kids []
      pure (some { rank := Dict.get? y.attrib s%"rank", dims := dims })
    | _ => pure none := rfl

theorem readDimensions_ok {x : Xml} {o : Option DimsSpec} {d d' : Defaults}
    (h : readDimensions x d = .ok (o, d')) : d' = d ∧ HasDims x o := by
  unfold HasDims
  rw [readDimensions_def] at h
  have hnone : ∀ (l : List Xml), (∀ y, l ≠ [y]) → (pure none : Reader (Option DimsSpec)) d = .ok (o, d') →
      d' = d ∧ (∀ s, o = some s → ∃ y, l = [y] ∧ DescribesDims y s) ∧ (o = none → ∀ y, l ≠ [y]) := by
    intro l hl h
    rw [Reader.pure_ok] at h
    obtain ⟨rfl, rfl⟩ := h
    exact ⟨rfl, by simp, fun _ => hl⟩
  cases hl : elements s%"dimensions" x.kids with
  | nil =>
    rw [hl] at h
    exact hnone [] (by simp) h
  | cons y t =>
    rw [hl] at h
    cases t with
    | cons z t => exact hnone _ (by simp) h
    | nil =>
      obtain ⟨_, d1, h1, h4⟩ := Reader.bind_ok.1 h
      obtain ⟨_, rfl⟩ := needComponent_ok.1 h1
      obtain ⟨r, d2, h2, h3⟩ := Reader.bind_ok.1 h4
      obtain ⟨rfl, _⟩ := readDims_ok h2
      rw [Reader.pure_ok] at h3
      obtain ⟨rfl, rfl⟩ := h3
      obtain ⟨a1, a2, a3⟩ := readDims_nil h2
      refine ⟨rfl, ?_, by simp⟩
      rintro s hs
      injection hs with hs
      subst hs
      exact ⟨y, rfl, rfl, a1, a2, a3⟩

theorem readField_ok {c : Category} {x : Xml} {f : Str × FieldSpec} {d d' : Defaults}
    (h : readField c x d = .ok (f, d')) : nameOf x = some f.1 ∧ DescribesField x f.2 := by
  unfold readField at h
  obtain ⟨name, d1, h1, h⟩ := Reader.bind_ok.1 h
  obtain ⟨attrs, d2, h2, h⟩ := Reader.bind_ok.1 h
  obtain ⟨dims, d3, h3, h⟩ := Reader.bind_ok.1 h
  rw [need_ok] at h1
  rw [Reader.pure_ok] at h
  obtain ⟨rfl, rfl⟩ := h
  exact ⟨h1.1, readAttributes_nil h2, rfl, (readDimensions_ok h3).2⟩

theorem keys_append' {β} (a b : Dict Str β) : Dict.keys (a ++ b) = Dict.keys a ++ Dict.keys b := by
  simp [Dict.keys]

theorem readFields_ok {c : Category} {used : List Str} {xs : List Xml}
    {acc r : Dict Str FieldSpec} {d d' : Defaults}
    (h : readFields c used xs acc d = .ok (r, d')) :
    ∃ new w, r = acc ++ new ∧
      List.Forall₂ AsksName (elements s%"field" xs) w ∧
      Named (used ++ Dict.keys acc) w (Dict.keys new) ∧
      List.Forall₂ (fun x kv => DescribesField x kv.2) (elements s%"field" xs) new := by
  induction xs generalizing acc d with
  | nil =>
    rw [readFields, Reader.pure_ok] at h
    obtain ⟨rfl, rfl⟩ := h
    exact ⟨[], [], by simp, .nil, .nil, .nil⟩
  | cons x xs ih =>
    rw [readFields] at h
    split at h
    · rename_i hx
      obtain ⟨f, d1, h1, h⟩ := Reader.bind_ok.1 h
      obtain ⟨_, d2, h2, h⟩ := Reader.bind_ok.1 h
      obtain ⟨hname, hf⟩ := readField_ok h1
      have hnew := uniqueName_new (used ++ Dict.keys acc) f.1
      have hset := Dict.set_of_not_mem (d := acc)
        (fun hm => hnew (List.mem_append_right _ hm)) f.2
      rw [hset] at h
      obtain ⟨new, w, hr, hw, hn, hd⟩ := ih h
      refine ⟨(uniqueName (used ++ Dict.keys acc) f.1, f.2) :: new, f.1 :: w,
        by simp [hr], ?_, ?_, ?_⟩
      · rw [elements_cons_pos hx]; exact .cons hname hw
      · have := named_append (named_unique (used ++ Dict.keys acc) f.1) (w2 := w)
          (g2 := Dict.keys new) (by simpa [keys_append', Dict.keys] using hn)
        simpa [Dict.keys] using this
      · rw [elements_cons_pos hx]; exact .cons hf hd
    · rename_i hx
      rw [elements_cons_neg hx]
      exact ih h

theorem readLinks_ok {used : List Str} {xs : List Xml}
    {acc r : Dict Str LinkSpec} {d d' : Defaults}
    (h : readLinks used xs acc d = .ok (r, d')) :
    ∃ new w, r = acc ++ new ∧ d' = d ∧
      List.Forall₂ AsksName (elements s%"link" xs) w ∧
      Named (used ++ Dict.keys acc) w (Dict.keys new) ∧
      List.Forall₂ (fun x kv => kv.2.target = Dict.get? x.attrib s%"target")
        (elements s%"link" xs) new := by
  induction xs generalizing acc d with
  | nil =>
    rw [readLinks, Reader.pure_ok] at h
    obtain ⟨rfl, rfl⟩ := h
    exact ⟨[], [], by simp, rfl, .nil, .nil, .nil⟩
  | cons x xs ih =>
    rw [readLinks] at h
    split at h
    · rename_i hx
      obtain ⟨name, d1, h1, h⟩ := Reader.bind_ok.1 h
      rw [need_ok] at h1
      obtain ⟨hname, rfl⟩ := h1
      have hnew := uniqueName_new (used ++ Dict.keys acc) name
      have hset := Dict.set_of_not_mem (d := acc)
        (fun hm => hnew (List.mem_append_right _ hm))
        ({ target := Dict.get? x.attrib s%"target" } : LinkSpec)
      rw [hset] at h
      obtain ⟨new, w, hr, hd', hw, hn, hd⟩ := ih h
      refine ⟨(uniqueName (used ++ Dict.keys acc) name,
        { target := Dict.get? x.attrib s%"target" }) :: new, name :: w,
        by simp [hr], hd', ?_, ?_, ?_⟩
      · rw [elements_cons_pos hx]; exact .cons hname hw
      · have := named_append (named_unique (used ++ Dict.keys acc) name) (w2 := w)
          (g2 := Dict.keys new) (by simpa [keys_append', Dict.keys] using hn)
        simpa [Dict.keys] using this
      · rw [elements_cons_pos hx]; exact .cons rfl hd
    · rename_i hx
      rw [elements_cons_neg hx]
      exact ih h

theorem groupName_ok {a : Dict Str Str} {n : Str} {d d' : Defaults}
    (h : groupName a d = .ok (n, d')) (nx : Bool) (tag : Str) (kids : List Xml) :
    d = d' ∧ AsksGroup (.elem nx tag a kids) n := by
  unfold groupName at h
  cases ht : Dict.get? a s%"type" with
  | none => rw [ht] at h; exact absurd h (by simp [Reader.raise])
  | some t =>
    rw [ht] at h
    simp only [Reader.pure_ok] at h
    obtain ⟨h, rfl⟩ := h
    refine ⟨rfl, ?_⟩
    unfold AsksGroup nameOf Xml.attrib
    cases hn : Dict.get? a s%"name" with
    | none => rw [hn] at h; exact .inr ⟨rfl, t, ht, h.symm⟩
    | some m => rw [hn] at h; exact .inl (by simp [← h])

theorem rawAttributes_get (a : Dict Str Str) (ha : (Dict.keys a).Nodup) (d : Dict Str GAttr)
    (k : Str) : Dict.get? (rawAttributes a d) k =
      if k ≠ s%"name" ∧ k ≠ s%"type" ∧ Dict.has a k then (Dict.get? a k).map .raw
      else Dict.get? d k := by
  induction a generalizing d with
  | nil => simp [rawAttributes, Dict.has, Dict.get?]
  | cons kv a ih =>
    obtain ⟨k', v⟩ := kv
    have ha' : (Dict.keys a).Nodup := (List.nodup_cons.1 ha).2
    have hk' : k' ∉ Dict.keys a := (List.nodup_cons.1 ha).1
    have step : rawAttributes ((k', v) :: a) d = rawAttributes a
        (if k' = s%"name" ∨ k' = s%"type" then d else Dict.set d k' (.raw v)) := rfl
    rw [step, ih ha']
    by_cases he : k' = k
    · subst he
      have hno : Dict.has a k' = false := by
        rw [Bool.eq_false_iff]; exact fun h => hk' (Dict.has_iff.1 h)
      by_cases hs : k' = s%"name" ∨ k' = s%"type"
      · rw [if_pos hs, if_neg (by simp [hno]), if_neg (by tauto)]
      · have : Dict.has ((k', v) :: a) k' = true := by simp [Dict.has, Dict.get?]
        rw [if_neg hs, if_neg (by simp [hno]), if_pos (by tauto), Dict.get?_set]
        simp [Dict.get?]
    · have e1 : Dict.has ((k', v) :: a) k = Dict.has a k := by simp [Dict.has, Dict.get?, he]
      have e2 : Dict.get? ((k', v) :: a) k = Dict.get? a k := by simp [Dict.get?, he]
      rw [e1, e2]
      split
      · rfl
      · split
        · rfl
        · rw [Dict.get?_set, if_neg he]

theorem get?_map_spec (ds : Dict Str AttrSpec) (k : Str) :
    Dict.get? (ds.map fun kv => (kv.1, GAttr.spec kv.2)) k = (Dict.get? ds k).map .spec := by
  induction ds with
  | nil => rfl
  | cons kv ds ih =>
    simp only [List.map_cons, Dict.get?]
    split
    · rfl
    · exact ih

theorem Forall₂.getElem {α β : Type} {R : α → β → Prop} {l : List α} {m : List β}
    (h : List.Forall₂ R l m) {i : Nat} {a : α} {b : β} (ha : l[i]? = some a)
    (hb : m[i]? = some b) : R a b := by
  induction h generalizing i with
  | nil => simp at ha
  | cons hr _ ih =>
    cases i with
    | zero => simp at ha hb; subst ha hb; exact hr
    | succ i => exact ih (by simpa using ha) (by simpa using hb)

theorem contents_of {kids : List Xml} {groups : Dict Str GroupSpec} {fields : Dict Str FieldSpec}
    {links : Dict Str LinkSpec} {wg wf wl : List Str}
    (hg : List.Forall₂ AsksGroup (elements s%"group" kids) wg)
    (hgn : Named [] wg (Dict.keys groups))
    (hf : List.Forall₂ AsksName (elements s%"field" kids) wf)
    (hfn : Named (Dict.keys groups) wf (Dict.keys fields))
    (hl : List.Forall₂ AsksName (elements s%"link" kids) wl)
    (hln : Named (Dict.keys groups ++ Dict.keys fields) wl (Dict.keys links)) :
    Contents kids (Dict.keys groups) (Dict.keys fields) (Dict.keys links) := by
  refine ⟨⟨wg, wf, wl, hg, hf, hl, ?_⟩, ?_, ?_⟩
  · refine named_append (named_append hgn ?_) ?_
    · simpa using hfn
    · simpa using hln
  · rw [named_length hgn, hg.length_eq]
  · rw [named_length hfn, hf.length_eq]

mutual
theorem readGroup_ok {c : Category} : ∀ {x : Xml} {g : Str × GroupSpec} {d d' : Defaults},
    Lawful x → readGroup c x d = .ok (g, d') → AsksGroup x g.1 ∧ Describes x g.2
  | .comment, g, d, d', _, h => by
    rw [readGroup] at h; exact absurd h (by simp [Reader.raise])
  | .elem nx tag a kids, g, d, d', hok, h => by
    rw [readGroup] at h
    obtain ⟨name, d1, h1, h⟩ := Reader.bind_ok.1 h
    obtain ⟨attrs, d2, h2, h⟩ := Reader.bind_ok.1 h
    obtain ⟨groups, d3, h3, h⟩ := Reader.bind_ok.1 h
    obtain ⟨fields, d4, h4, h⟩ := Reader.bind_ok.1 h
    obtain ⟨links, d5, h5, h⟩ := Reader.bind_ok.1 h
    rw [Reader.pure_ok] at h
    obtain ⟨rfl, rfl⟩ := h
    cases hok with
    | elem hnd hkids =>
      obtain ⟨hd1, hask⟩ := groupName_ok h1 nx tag kids
      refine ⟨hask, ?_⟩
      obtain ⟨ng, wg, hgr, hgw, hgn, hgd⟩ := readGroups_ok (acc := []) hkids h3
      obtain ⟨nf, wf, hfr, hfw, hfn, hfd⟩ := readFields_ok h4
      obtain ⟨nl, wl, hlr, _, hlw, hln, hld⟩ := readLinks_ok h5
      simp only [List.nil_append] at hgr hfr hlr
      subst hgr hfr hlr
      refine .mk ⟨attrs, readAttributes_nil h2, ?_⟩
        (contents_of hgw (by simpa [Dict.keys] using hgn) hfw (by simpa [Dict.keys] using hfn)
          hlw (by simpa [Dict.keys] using hln)) ?_ ?_ ?_
      · intro k
        rw [rawAttributes_get a hnd, get?_map_spec]
      · exact fun i x kv hx hkv => Forall₂.getElem hgd hx hkv
      · exact fun i x kv hx hkv => Forall₂.getElem hfd hx hkv
      · exact fun i x kv hx hkv => Forall₂.getElem hld hx hkv
theorem readGroups_ok {c : Category} : ∀ {xs : List Xml}
    {acc r : Dict Str GroupSpec} {d d' : Defaults}, (∀ x ∈ xs, Lawful x) →
    readGroups c xs acc d = .ok (r, d') →
    ∃ new w, r = acc ++ new ∧
      List.Forall₂ AsksGroup (elements s%"group" xs) w ∧
      Named (Dict.keys acc) w (Dict.keys new) ∧
      List.Forall₂ (fun x kv => Describes x kv.2) (elements s%"group" xs) new
  | [], acc, r, d, d', _, h => by
    rw [readGroups, Reader.pure_ok] at h
    obtain ⟨rfl, rfl⟩ := h
    exact ⟨[], [], by simp, .nil, .nil, .nil⟩
  | x :: xs, acc, r, d, d', hok, h => by
    rw [readGroups] at h
    split at h
    · rename_i hx
      obtain ⟨g, d1, h1, h⟩ := Reader.bind_ok.1 h
      obtain ⟨_, d2, h2, h⟩ := Reader.bind_ok.1 h
      obtain ⟨hname, hg⟩ := readGroup_ok (hok x (by simp)) h1
      have hnew := uniqueName_new (Dict.keys acc) g.1
      rw [Dict.set_of_not_mem hnew] at h
      obtain ⟨new, w, hr, hw, hn, hd⟩ := readGroups_ok (fun y hy => hok y (by simp [hy])) h
      refine ⟨(uniqueName (Dict.keys acc) g.1, g.2) :: new, g.1 :: w, by simp [hr], ?_, ?_, ?_⟩
      · rw [elements_cons_pos hx]; exact .cons hname hw
      · have := named_append (named_unique (Dict.keys acc) g.1) (w2 := w)
          (g2 := Dict.keys new) (by simpa [keys_append', Dict.keys] using hn)
        simpa [Dict.keys] using this
      · rw [elements_cons_pos hx]; exact .cons hg hd
    · rename_i hx
      rw [elements_cons_neg hx]
      exact readGroups_ok (fun y hy => hok y (by simp [hy])) h
end

end Punx

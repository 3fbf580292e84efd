import Verif.Props.Json2

/-!
# C128: what was written is read back
-/

namespace Punx
open Spec
namespace JVal

mutual
theorem value_dump : ∀ (v : JVal), Keyed v → ∀ (l n : Nat) (r : Str), weight v ≤ n → Follows r →
    value n (dump l v ++ r) = some (v, r)
  | .null, _, l, n + 1, r, _, _ => by rw [dump]; rfl
  | .bool true, _, l, n + 1, r, _, _ => by rw [dump]; rfl
  | .bool false, _, l, n + 1, r, _, _ => by rw [dump]; rfl
  | .int i, _, l, n + 1, r, _, hr => by
    obtain ⟨c, t, h1, h2⟩ := intStr_head i
    rw [dump, h1, List.cons_append, value_num n h2, ← List.cons_append, ← h1, readInt_intStr i r hr]
  | .str s, _, l, n + 1, r, _, _ => by rw [dump, value_str]
  | .arr [], _, l, n + 1, r, _, _ => by rw [dump, dumpItems]; rfl
  | .arr (v :: vs), hk, l, n + 1, r, hn, _ => by
    cases hk with
    | arr hk =>
      rw [weight] at hn
      have h1 := items_dump (v :: vs) (by simp) hk (l + 1) l n r (by omega)
      rw [dump]
      obtain ⟨t, ts, ht⟩ : ∃ t ts, dumpItems (l + 1) (v :: vs) = t :: ts := ⟨_, _, by rw [dumpItems]⟩
      obtain ⟨c, u, hc, hsp, hb⟩ := dump_head (l + 1) v
      have hj : ∃ w, join (',' :: newLine (l + 1)) (t :: ts) = c :: w := by
        rw [dumpItems, hc] at ht
        simp only [List.cons.injEq] at ht
        cases ts with
        | nil => exact ⟨u, by rw [join, ← ht.1]⟩
        | cons t' ts => exact ⟨_, by rw [join, ← ht.1]; rfl⟩
      obtain ⟨w, hw⟩ := hj
      rw [ht] at h1 ⊢
      rw [hw] at h1
      rw [inBrackets, hw]
      simp only [List.cons_append, List.append_assoc, List.nil_append] at h1 ⊢
      rw [value_arr n _ c _ (by rw [skip_newLine, skip_solid c hsp]) hb, h1]
      rfl
  | .obj [], _, l, n + 1, r, _, _ => by rw [dump, dumpPairs]; rfl
  | .obj ((k, v) :: d), hk, l, n + 1, r, hn, _ => by
    cases hk with
    | obj hd hk =>
      rw [weight] at hn
      have h1 := pairs_dump ((k, v) :: d) (by simp) hk (l + 1) l n r (by omega)
      rw [dump]
      obtain ⟨t, ts, ht⟩ : ∃ t ts, dumpPairs (l + 1) ((k, v) :: d) = t :: ts :=
        ⟨_, _, by rw [dumpPairs]⟩
      have hj : ∃ w, join (',' :: newLine (l + 1)) (t :: ts) = '"' :: w := by
        rw [dumpPairs, quote] at ht
        simp only [List.cons.injEq] at ht
        cases ts with
        | nil => exact ⟨_, by rw [join, ← ht.1]; rfl⟩
        | cons t' ts => exact ⟨_, by rw [join, ← ht.1]; rfl⟩
      obtain ⟨w, hw⟩ := hj
      rw [ht] at h1 ⊢
      rw [hw, List.tail_cons] at h1
      rw [inBrackets, hw]
      simp only [List.cons_append, List.append_assoc, List.nil_append] at h1 ⊢
      rw [value_obj n _ _ (by rw [skip_newLine, skip_solid _ (by decide)]), h1]
      simp only [Option.map_some]
      rw [update_nodup _ _ (by simpa using hd)]; rfl
  | .null, _, _, 0, _, hn, _ => by rw [weight] at hn <;> first | omega | simp
  | .bool _, _, _, 0, _, hn, _ => by rw [weight] at hn <;> first | omega | simp
  | .int _, _, _, 0, _, hn, _ => by rw [weight] at hn <;> first | omega | simp
  | .str _, _, _, 0, _, hn, _ => by rw [weight] at hn <;> first | omega | simp
  | .arr _, _, _, 0, _, hn, _ => by rw [weight] at hn; omega
  | .obj _, _, _, 0, _, hn, _ => by rw [weight] at hn; omega

theorem items_dump : ∀ (vs : List JVal), vs ≠ [] → KeyedItems vs → ∀ (l m n : Nat) (r : Str),
    weights vs ≤ n →
    items n (join (',' :: newLine l) (dumpItems l vs) ++ newLine m ++ ']' :: r) = some (vs, r)
  | [], h0, _, _, _, _, _, _ => absurd rfl h0
  | v :: vs, _, _, _, _, 0, _, hn => by rw [weights] at hn; omega
  | [v], _, hk, l, m, n + 1, r, hn => by
    cases hk with
    | cons hv _ =>
      rw [weights, weights] at hn
      rw [dumpItems, dumpItems, join, List.append_assoc]
      refine items_last n (value_dump v hv l n _ (by omega) (follows_newLine m _)) ?_
      rw [skip_newLine, skip_solid _ (by decide)]
  | v :: w :: vs, _, hk, l, m, n + 1, r, hn => by
    cases hk with
    | cons hv hk =>
      rw [weights] at hn
      have ih := items_dump (w :: vs) (by simp) hk l m n r (by omega)
      obtain ⟨t, ts, ht⟩ : ∃ t ts, dumpItems l (w :: vs) = t :: ts := ⟨_, _, by rw [dumpItems]⟩
      obtain ⟨c, u, hc, hsp, -⟩ := dump_head l w
      have hj : ∃ x, join (',' :: newLine l) (t :: ts) = c :: x := by
        rw [dumpItems, hc] at ht
        simp only [List.cons.injEq] at ht
        cases ts with
        | nil => exact ⟨u, by rw [join, ← ht.1]⟩
        | cons t' ts => exact ⟨_, by rw [join, ← ht.1]; rfl⟩
      obtain ⟨x, hx⟩ := hj
      rw [dumpItems, ht, join, hx]
      rw [ht, hx] at ih
      simp only [List.append_assoc, List.cons_append] at ih ⊢
      rw [items_more n (value_dump v hv l n _ (by omega) (follows_comma _))
        (skip_solid _ (by decide) _), skip_newLine, skip_solid c hsp, ih]
      rfl

theorem pairs_dump : ∀ (d : List (Str × JVal)), d ≠ [] → KeyedPairs d → ∀ (l m n : Nat) (r : Str),
    weightsP d ≤ n →
    pairs n ((join (',' :: newLine l) (dumpPairs l d)).tail ++ newLine m ++ '}' :: r) = some (d, r)
  | [], h0, _, _, _, _, _, _ => absurd rfl h0
  | (k, v) :: d, _, _, _, _, 0, _, hn => by rw [weightsP] at hn; omega
  | [(k, v)], _, hk, l, m, n + 1, r, hn => by
    cases hk with
    | cons _ hv _ =>
      rw [weightsP, weightsP] at hn
      rw [dumpPairs, dumpPairs, join, quote]
      simp only [List.cons_append, List.append_assoc, List.tail_cons, List.nil_append]
      refine pairs_last n (readText_quote k _) (skip_solid _ (by decide) _) ?_
        (r2 := newLine m ++ '}' :: r) ?_
      · rw [skip_space _ (by decide), skip_dump]
        exact value_dump v hv l n _ (by omega) (follows_newLine m _)
      · rw [skip_newLine, skip_solid _ (by decide)]
  | (k, v) :: (k', w) :: d, _, hk, l, m, n + 1, r, hn => by
    cases hk with
    | cons _ hv hk =>
      rw [weightsP] at hn
      have ih := pairs_dump ((k', w) :: d) (by simp) hk l m n r (by omega)
      obtain ⟨t, ts, ht⟩ : ∃ t ts, dumpPairs l ((k', w) :: d) = t :: ts := ⟨_, _, by rw [dumpPairs]⟩
      have hj : ∃ x, join (',' :: newLine l) (t :: ts) = '"' :: x := by
        rw [dumpPairs, quote] at ht
        simp only [List.cons.injEq] at ht
        cases ts with
        | nil => exact ⟨_, by rw [join, ← ht.1]; rfl⟩
        | cons t' ts => exact ⟨_, by rw [join, ← ht.1]; rfl⟩
      obtain ⟨x, hx⟩ := hj
      rw [dumpPairs, ht, join, hx, quote]
      rw [ht, hx, List.tail_cons] at ih
      simp only [List.append_assoc, List.cons_append, List.tail_cons, List.nil_append] at ih ⊢
      rw [pairs_more n (readText_quote k _) (skip_solid _ (by decide) _)
        (by rw [skip_space _ (by decide), skip_dump]
            exact value_dump v hv l n _ (by omega) (follows_comma _))
        (skip_solid _ (by decide) _)
        (by rw [skip_newLine, skip_solid _ (by decide)]), ih]
      rfl
end

/-! ## the text is long enough -/

theorem length_join (sep : Str) (hs : 1 ≤ sep.length) : ∀ ts : List Str, ts ≠ [] →
    (ts.map (·.length)).sum + ts.length ≤ (join sep ts).length + 1
  | [], h => absurd rfl h
  | [t], _ => by simp [join]
  | t :: u :: ts, _ => by
    have := length_join sep hs (u :: ts) (by simp)
    rw [join]
    simp only [List.map_cons, List.sum_cons, List.length_cons, List.length_append] at this ⊢
    omega

theorem length_brackets (l : Nat) (a z : Char) (ts : List Str) :
    (ts.map (·.length)).sum + ts.length + 1 ≤ (inBrackets l a z ts).length := by
  cases ts with
  | nil => simp [inBrackets]
  | cons t ts =>
    have := length_join (',' :: newLine (l + 1)) (by simp) (t :: ts) (by simp)
    rw [inBrackets]
    simp only [List.map_cons, List.sum_cons, List.length_cons, List.length_append, newLine] at this ⊢
    omega

mutual
theorem weight_dump : ∀ (v : JVal) (l : Nat), weight v ≤ (dump l v).length
  | .null, l => by rw [weight, dump] <;> simp
  | .bool true, l => by rw [weight, dump] <;> simp
  | .bool false, l => by rw [weight, dump] <;> simp
  | .int n, l => by
    obtain ⟨c, t, h, -⟩ := intStr_head n
    rw [weight, dump, h] <;> simp
  | .str s, l => by rw [weight, dump, quote] <;> simp
  | .arr vs, l => by
    have h1 := weights_dump vs (l + 1)
    have h2 := length_brackets l '[' ']' (dumpItems (l + 1) vs)
    rw [weight, dump]; omega
  | .obj d, l => by
    have h1 := weightsP_dump d (l + 1)
    have h2 := length_brackets l '{' '}' (dumpPairs (l + 1) d)
    rw [weight, dump]; omega
theorem weights_dump : ∀ (vs : List JVal) (l : Nat),
    weights vs ≤ ((dumpItems l vs).map (·.length)).sum + (dumpItems l vs).length
  | [], l => by rw [weights]; omega
  | v :: vs, l => by
    have h1 := weight_dump v l
    have h2 := weights_dump vs l
    rw [weights, dumpItems]
    simp only [List.map_cons, List.sum_cons, List.length_cons]; omega
theorem weightsP_dump : ∀ (d : List (Str × JVal)) (l : Nat),
    weightsP d ≤ ((dumpPairs l d).map (·.length)).sum + (dumpPairs l d).length
  | [], l => by rw [weightsP]; omega
  | (k, v) :: d, l => by
    have h1 := weight_dump v l
    have h2 := weightsP_dump d l
    rw [weightsP, dumpPairs]
    simp only [List.map_cons, List.sum_cons, List.length_cons, List.length_append]; omega
end

end JVal

/-- **C128.** What `write_json_file` writes is what `read_json_file` reads. -/
theorem json_read_back {v : JVal} (h : Keyed v) : JVal.loads v.dumps = .ok v := by
  have h1 := JVal.weight_dump v 0
  have h2 := JVal.value_dump v h 0 (v.dumps.length + 1) [] (by unfold JVal.dumps; omega)
    JVal.follows_nil
  rw [JVal.loads]
  have h3 : JVal.skip v.dumps = v.dumps := by
    have := JVal.skip_dump 0 v []
    rwa [List.append_nil] at this
  rw [h3]
  rw [List.append_nil, ← JVal.dumps] at h2
  rw [h2]; rfl

end Punx

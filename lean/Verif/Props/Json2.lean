import Verif.Props.Json

/-!
# C128: values are read back, whatever follows them
-/

namespace Punx
open Spec
namespace JVal

mutual
/-- How deep the reader has to go for a value. -/
def weight : JVal → Nat
  | .arr l => 1 + weights l
  | .obj d => 1 + weightsP d
  | _ => 1
/-- The same for items. -/
def weights : List JVal → Nat
  | [] => 0
  | v :: l => 1 + weight v + weights l
/-- The same for pairs. -/
def weightsP : List (Str × JVal) → Nat
  | [] => 0
  | (_, v) :: d => 1 + weight v + weightsP d
end

theorem follows_comma (s : Str) : Follows (',' :: s) := by
  intro c hc; simp only [List.head?_cons, Option.mem_def, Option.some.injEq] at hc; subst hc; decide

theorem follows_newLine (l : Nat) (s : Str) : Follows (newLine l ++ s) := by
  intro c hc
  simp only [newLine, List.cons_append, List.head?_cons, Option.mem_def, Option.some.injEq] at hc
  subst hc; decide

theorem follows_nil : Follows [] := fun c hc => by simp at hc

/-- The first character of a number. -/
def NumHead (c : Char) : Prop := c = '-' ∨ isDec c = true

theorem intStr_head (n : Int) : ∃ c t, intStr n = c :: t ∧ NumHead c := by
  cases n with
  | ofNat k =>
    show ∃ c t, natStr k = c :: t ∧ _
    cases hk : natStr k with
    | nil => exact absurd hk (natStr_ne_nil k)
    | cons c u =>
      refine ⟨c, u, rfl, .inr ?_⟩
      rw [isDec_iff]
      exact natStr_digits (n := k) (by rw [hk]; exact List.mem_cons_self)
  | negSucc k => exact ⟨'-', natStr (k + 1), rfl, .inl rfl⟩

theorem value_num (n : Nat) {c : Char} (h : NumHead c) (s : Str) :
    value (n + 1) (c :: s) = readInt (c :: s) := by
  rw [value]
  all_goals
    intro r hr
    simp only [List.cons.injEq] at hr
    rcases hr with ⟨rfl, -⟩
    revert h; unfold NumHead; decide

/-- A value starts with a character that is no space and does not end a list. -/
theorem dump_head (l : Nat) (v : JVal) :
    ∃ c t, dump l v = c :: t ∧ isSpace c = false ∧ c ≠ ']' := by
  match v with
  | .null => exact ⟨'n', s%"ull", by rw [dump], by decide, by decide⟩
  | .bool true => exact ⟨'t', s%"rue", by rw [dump], by decide, by decide⟩
  | .bool false => exact ⟨'f', s%"alse", by rw [dump], by decide, by decide⟩
  | .int n =>
    obtain ⟨c, t, h1, h2⟩ := intStr_head n
    refine ⟨c, t, by rw [dump, h1], ?_, ?_⟩
    · rcases h2 with rfl | h2
      · decide
      · rw [isDec, Bool.and_eq_true, decide_eq_true_eq, decide_eq_true_eq] at h2
        simp only [isSpace, Bool.or_eq_false_iff, decide_eq_false_iff_not]
        refine ⟨⟨⟨?_, ?_⟩, ?_⟩, ?_⟩ <;> (rintro rfl; revert h2; decide)
    · rintro rfl; revert h2; unfold NumHead; decide
  | .str s => exact ⟨'"', s.flatMap escape ++ ['"'], by rw [dump, quote]; rfl, by decide, by decide⟩
  | .arr l' =>
    rw [dump]
    cases dumpItems (l + 1) l' with
    | nil => exact ⟨'[', [']'], rfl, by decide, by decide⟩
    | cons t ts => exact ⟨'[', _, rfl, by decide, by decide⟩
  | .obj d =>
    rw [dump]
    cases dumpPairs (l + 1) d with
    | nil => exact ⟨'{', ['}'], rfl, by decide, by decide⟩
    | cons t ts => exact ⟨'{', _, rfl, by decide, by decide⟩

theorem skip_dump (l : Nat) (v : JVal) (s : Str) : skip (dump l v ++ s) = dump l v ++ s := by
  obtain ⟨c, t, h1, h2, -⟩ := dump_head l v
  rw [h1, List.cons_append, skip_solid c h2]

theorem value_str (n : Nat) (s r : Str) : value (n + 1) (quote s ++ r) = some (.str s, r) := by
  rw [quote, List.append_assoc, List.cons_append]
  rw [value]
  show (readText (s.flatMap escape ++ '"' :: r)).map _ = _
  rw [readText_quote]; rfl

theorem value_arr (n : Nat) (s : Str) (c : Char) (t : Str) (hs : skip s = c :: t) (hc : c ≠ ']') :
    value (n + 1) ('[' :: s) = (items n (c :: t)).map fun x => (.arr x.1, x.2) := by
  rw [value, hs]
  split
  · rename_i h; simp only [List.cons.injEq] at h; exact absurd h.1 hc
  · rfl

theorem value_obj (n : Nat) (s t : Str) (hs : skip s = '"' :: t) :
    value (n + 1) ('{' :: s) = (pairs n t).map fun x => (.obj (Dict.update [] x.1), x.2) := by
  rw [value, hs]; rfl

theorem items_last (n : Nat) {s : Str} {v : JVal} {r r' : Str} (hv : value n s = some (v, r))
    (hr : skip r = ']' :: r') : items (n + 1) s = some ([v], r') := by
  rw [items, hv]; simp only [hr]

theorem items_more (n : Nat) {s : Str} {v : JVal} {r r' : Str} (hv : value n s = some (v, r))
    (hr : skip r = ',' :: r') :
    items (n + 1) s = (items n (skip r')).map fun x => (v :: x.1, x.2) := by
  rw [items, hv]; simp only [hr]

theorem pairs_last (n : Nat) {s k : Str} {v : JVal} {r r1 r2 r3 : Str}
    (hk : readText s = some (k, r)) (hc : skip r = ':' :: r1)
    (hv : value n (skip r1) = some (v, r2)) (hr : skip r2 = '}' :: r3) :
    pairs (n + 1) s = some ([(k, v)], r3) := by
  rw [pairs, hk]; simp only [hc, hv, hr]

theorem pairs_more (n : Nat) {s k : Str} {v : JVal} {r r1 r2 r3 r4 : Str}
    (hk : readText s = some (k, r)) (hc : skip r = ':' :: r1)
    (hv : value n (skip r1) = some (v, r2)) (hr : skip r2 = ',' :: r3) (hq : skip r3 = '"' :: r4) :
    pairs (n + 1) s = (pairs n r4).map fun x => ((k, v) :: x.1, x.2) := by
  rw [pairs, hk]; simp only [hc, hv, hr, hq]

/-- Different keys stay as they are. -/
theorem update_nodup {β : Type} (d e : Dict Str β) (h : ((e ++ d).map (·.1)).Nodup) :
    Dict.update e d = e ++ d := by
  induction d generalizing e with
  | nil => simp [Dict.update]
  | cons x d ih =>
    have hx : Dict.set e x.1 x.2 = e ++ [x] := by
      have : x.1 ∉ e.map (·.1) := by
        intro hm
        rw [List.map_append, List.map_cons, List.nodup_append] at h
        exact h.2.2 _ hm _ List.mem_cons_self rfl
      clear h ih
      induction e with
      | nil => rfl
      | cons y e ih2 =>
        simp only [List.map_cons, List.mem_cons, not_or] at this
        rw [Dict.set, if_neg (fun h => this.1 h.symm), ih2 this.2]; rfl
    have := ih (e ++ [x]) (by simpa using h)
    rw [Dict.update, List.foldl_cons, hx]
    rw [Dict.update] at this
    rw [this]; simp

end JVal
end Punx

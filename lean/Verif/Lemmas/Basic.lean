import Verif.Py.Basic
import Mathlib.Data.List.Sort
import Mathlib.Data.List.Basic
import Mathlib.Data.List.Perm.Basic
import Mathlib.Tactic.Common

/-! Auxiliary lemmas about strings, dictionaries, sorting and effects. -/

namespace Punx

/-! ## split -/

theorem split_ne_nil (c : Char) (s : Str) : split c s ≠ [] := by
  cases s with
  | nil => simp [split]
  | cons a as =>
    simp only [split]
    split
    · simp
    · split <;> simp

theorem split_cons_sep (c : Char) (s : Str) : split c (c :: s) = [] :: split c s := by
  simp only [split]
  split
  · exact absurd ‹_› (split_ne_nil c s)
  · simp [*]

theorem split_cons_ne {c a : Char} (h : a ≠ c) (s : Str) :
    ∃ w ws, split c s = w :: ws ∧ split c (a :: s) = (a :: w) :: ws := by
  match hs : split c s with
  | [] => exact absurd hs (split_ne_nil c s)
  | w :: ws => exact ⟨w, ws, rfl, by simp [split, hs, h]⟩

theorem split_noSep {c : Char} {s : Str} (h : c ∉ s) : split c s = [s] := by
  induction s with
  | nil => rfl
  | cons a as ih =>
    have h1 : a ≠ c := fun e => h (by simp [e])
    have h2 : c ∉ as := fun e => h (by simp [e])
    simp [split, ih h2, h1]

theorem split_append_sep {c : Char} {w : Str} (h : c ∉ w) (s : Str) :
    split c (w ++ c :: s) = w :: split c s := by
  induction w with
  | nil => simpa using split_cons_sep c s
  | cons a as ih =>
    have h1 : a ≠ c := fun e => h (by simp [e])
    have h2 : c ∉ as := fun e => h (by simp [e])
    have := ih h2
    simp only [List.cons_append, split, this]
    simp [h1]

theorem split_append_last {c : Char} (s w : Str) (h : c ∉ w) :
    split c (s ++ c :: w) = split c s ++ [w] := by
  induction s with
  | nil => simp [split_cons_sep, split_noSep h, split]
  | cons a as ih =>
    by_cases ha : a = c
    · subst ha
      simp [split_cons_sep, ih]
    · obtain ⟨x, xs, h1, h2⟩ := split_cons_ne ha as
      obtain ⟨y, ys, h3, h4⟩ := split_cons_ne ha (as ++ c :: w)
      rw [List.cons_append, h4, h2]
      rw [ih, h1] at h3
      simp at h3
      obtain ⟨rfl, rfl⟩ := h3
      simp

theorem lastComp_append {c : Char} (s w : Str) (h : c ∉ w) :
    lastComp c (s ++ c :: w) = w := by
  simp [lastComp, split_append_last s w h]

theorem sep_notMem_split {c : Char} {s w : Str} (h : w ∈ split c s) : c ∉ w := by
  induction s generalizing w with
  | nil => simp [split] at h; simp [h]
  | cons a as ih =>
    by_cases ha : a = c
    · subst ha
      rw [split_cons_sep] at h
      rcases List.mem_cons.1 h with rfl | h
      · simp
      · exact ih h
    · obtain ⟨x, xs, h1, h2⟩ := split_cons_ne ha as
      rw [h2] at h
      rw [h1] at ih
      rcases List.mem_cons.1 h with rfl | h
      · have := ih (w := x) (by simp)
        simp [this]
        exact fun e => ha e.symm
      · exact ih (by simp [h])

/-! ## prefixes and suffixes -/

theorem startsWith_iff {s p : Str} : startsWith s p = true ↔ p <+: s := by
  simp [startsWith]

theorem endsWith_iff {s p : Str} : endsWith s p = true ↔ p <:+ s := by
  simp [endsWith]

theorem startsWith_append (p s : Str) : startsWith (p ++ s) p = true := by
  simp [startsWith_iff]

theorem endsWith_append (p s : Str) : endsWith (p ++ s) s = true := by
  simp [endsWith_iff]

theorem hasSub_iff {sub s : Str} : hasSub sub s = true ↔ sub <:+: s := by
  induction s with
  | nil => simp [hasSub]
  | cons c cs ih =>
    simp only [hasSub, Bool.or_eq_true, List.isPrefixOf_iff_prefix, ih]
    rw [List.infix_cons_iff]

/-! ## order of strings -/

theorem strLe_refl (s : Str) : strLe s s = true := by
  induction s with
  | nil => rfl
  | cons a as ih => simp [strLe, ih]

theorem strLe_total (s t : Str) : strLe s t = true ∨ strLe t s = true := by
  induction s generalizing t with
  | nil => simp [strLe]
  | cons a as ih =>
    cases t with
    | nil => simp [strLe]
    | cons b bs =>
      simp only [strLe]
      by_cases h : a = b
      · subst h; simpa using ih bs
      · have : a.toNat ≠ b.toNat := fun e => h (Char.toNat_inj.1 e)
        have h' : ¬ b = a := fun e => h e.symm
        simp [h, h']
        omega

theorem strLe_trans {s t u : Str} (h1 : strLe s t = true) (h2 : strLe t u = true) :
    strLe s u = true := by
  induction s generalizing t u with
  | nil => simp [strLe]
  | cons a as ih =>
    cases t with
    | nil => simp [strLe] at h1
    | cons b bs =>
      cases u with
      | nil => simp [strLe] at h2
      | cons c cs =>
        simp only [strLe] at h1 h2 ⊢
        by_cases hab : a = b
        · subst hab
          by_cases hac : a = c
          · subst hac
            simp at h1 h2 ⊢
            exact ih h1 h2
          · simp [hac] at h1 h2 ⊢
            exact h2
        · simp [hab] at h1
          by_cases hbc : b = c
          · subst hbc
            simp [hab] at h2 ⊢
            exact h1
          · simp [hbc] at h2
            have hac : a ≠ c := by
              intro e; subst e; omega
            simp [hac]
            omega

theorem strLe_antisymm {s t : Str} (h1 : strLe s t = true) (h2 : strLe t s = true) : s = t := by
  induction s generalizing t with
  | nil => cases t with
    | nil => rfl
    | cons b bs => simp [strLe] at h2
  | cons a as ih =>
    cases t with
    | nil => simp [strLe] at h1
    | cons b bs =>
      simp only [strLe] at h1 h2
      by_cases h : a = b
      · subst h
        simp at h1 h2
        rw [ih h1 h2]
      · have h' : ¬ b = a := fun e => h e.symm
        simp [h] at h1
        simp [h'] at h2
        omega

/-! ## sorting -/

section sort
variable {α : Type _} {le : α → α → Bool}

theorem insertBy_perm (a : α) (l : List α) : (insertBy le a l).Perm (a :: l) := by
  induction l with
  | nil => exact .refl _
  | cons b bs ih =>
    simp only [insertBy]
    split
    · exact .refl _
    · exact (List.Perm.cons b ih).trans (.swap a b bs)

theorem sortBy_perm (l : List α) : (sortBy le l).Perm l := by
  induction l with
  | nil => exact .refl _
  | cons a as ih => exact (insertBy_perm a _).trans (.cons a ih)

theorem insertBy_sorted (htot : ∀ a b, le a b = true ∨ le b a = true)
    (htr : ∀ a b c, le a b = true → le b c = true → le a c = true) (a : α) (l : List α)
    (h : l.Pairwise (fun a b => le a b = true)) :
    (insertBy le a l).Pairwise (fun a b => le a b = true) := by
  induction l with
  | nil => simp [insertBy]
  | cons b bs ih =>
    simp only [insertBy]
    rw [List.pairwise_cons] at h
    split
    · rename_i hab
      rw [List.pairwise_cons]
      refine ⟨?_, by rw [List.pairwise_cons]; exact h⟩
      intro x hx
      rcases List.mem_cons.1 hx with rfl | hx
      · exact hab
      · exact htr _ _ _ hab (h.1 x hx)
    · rename_i hab
      rw [List.pairwise_cons]
      refine ⟨?_, ih h.2⟩
      intro x hx
      have := (insertBy_perm (le := le) a bs).mem_iff.1 hx
      rcases List.mem_cons.1 this with rfl | hx
      · rcases htot x b with h' | h'
        · exact absurd h' hab
        · exact h'
      · exact h.1 x hx

theorem sortBy_sorted (htot : ∀ a b, le a b = true ∨ le b a = true)
    (htr : ∀ a b c, le a b = true → le b c = true → le a c = true) (l : List α) :
    (sortBy le l).Pairwise (fun a b => le a b = true) := by
  induction l with
  | nil => simp [sortBy]
  | cons a as ih => exact insertBy_sorted htot htr a _ ih

/-- Stability: elements selected by a predicate on which the order is total both ways
keep their relative order. -/
theorem insertBy_filter_of_not (p : α → Bool) (a : α) (l : List α) (h : p a = false) :
    (insertBy le a l).filter p = l.filter p := by
  induction l with
  | nil => simp [insertBy, h]
  | cons b bs ih =>
    simp only [insertBy]
    split
    · simp [h]
    · simp [List.filter_cons, ih]

theorem insertBy_filter_of_pos (p : α → Bool) (a : α) (l : List α) (h : p a = true)
    (hp : ∀ b ∈ l, p b = true → le a b = true) :
    (insertBy le a l).filter p = a :: l.filter p := by
  induction l with
  | nil => simp [insertBy, h]
  | cons b bs ih =>
    simp only [insertBy]
    split
    · simp [h]
    · rename_i hab
      have hb : p b = false := by
        cases hb : p b with
        | false => rfl
        | true => exact absurd (hp b (by simp) hb) hab
      simp [hb]
      exact ih (fun b hb => hp b (by simp [hb]))

theorem sortBy_filter (p : α → Bool)
    (hp : ∀ a b, p a = true → p b = true → le a b = true) (l : List α) :
    (sortBy le l).filter p = l.filter p := by
  induction l with
  | nil => rfl
  | cons a as ih =>
    simp only [sortBy, List.filter_cons]
    cases ha : p a with
    | false => simp [insertBy_filter_of_not p a _ ha, ih]
    | true =>
      simp
      rw [insertBy_filter_of_pos p a _ ha (fun b _ hb => hp a b ha hb), ih]

theorem mem_sortBy {a : α} {l : List α} : a ∈ sortBy le l ↔ a ∈ l :=
  (sortBy_perm l).mem_iff

theorem length_sortBy (l : List α) : (sortBy le l).length = l.length :=
  (sortBy_perm l).length_eq

theorem sortBy_map {β : Type _} {le' : β → β → Bool} (f : α → β)
    (h : ∀ a b, le a b = le' (f a) (f b)) (l : List α) :
    (sortBy le l).map f = sortBy le' (l.map f) := by
  have ins : ∀ a l, (insertBy le a l).map f = insertBy le' (f a) (l.map f) := by
    intro a l
    induction l with
    | nil => rfl
    | cons b bs ih =>
      simp only [insertBy, List.map_cons, h]
      split <;> simp [ih]
  induction l with
  | nil => rfl
  | cons a as ih => simp [sortBy, ins, ih]

theorem sortBy_of_sorted (l : List α) (h : l.Pairwise (fun a b => le a b = true)) :
    sortBy le l = l := by
  induction l with
  | nil => rfl
  | cons a as ih =>
    rw [List.pairwise_cons] at h
    rw [sortBy, ih h.2]
    cases as with
    | nil => rfl
    | cons b bs => simp [insertBy, h.1 b (by simp)]

end sort

/-! ## dictionaries -/

namespace Dict
variable {κ β : Type _} [DecidableEq κ]

theorem get?_set (d : Dict κ β) (k k' : κ) (v : β) :
    get? (set d k v) k' = if k = k' then some v else get? d k' := by
  induction d with
  | nil => simp [set, get?]
  | cons hd tl ih =>
    obtain ⟨a, b⟩ := hd
    simp only [set]
    by_cases h : a = k
    · subst h
      simp [get?]
      split <;> rfl
    · simp only [h, if_false, get?, ih]
      by_cases h2 : a = k'
      · subst h2
        have : ¬ k = a := fun e => h e.symm
        simp [this]
      · simp [h2]

theorem get?_eq_none {d : Dict κ β} {k : κ} : get? d k = none ↔ k ∉ keys d := by
  induction d with
  | nil => simp [get?, keys]
  | cons hd tl ih =>
    obtain ⟨a, b⟩ := hd
    simp only [get?, keys, List.map_cons, List.mem_cons, not_or]
    by_cases h : a = k
    · simp [h]
    · have : ¬ k = a := fun e => h e.symm
      simp [h, this]
      simpa [keys] using ih

theorem has_iff {d : Dict κ β} {k : κ} : has d k = true ↔ k ∈ keys d := by
  unfold has
  by_cases h : k ∈ keys d
  · simp only [h, iff_true]
    by_contra h'
    have : get? d k = none := by simpa using h'
    exact (get?_eq_none.1 this) h
  · simp [h, get?_eq_none.2 h]

theorem mem_of_get? {d : Dict κ β} {k : κ} {v : β} (h : get? d k = some v) : (k, v) ∈ d := by
  induction d with
  | nil => simp [get?] at h
  | cons hd tl ih =>
    obtain ⟨a, b⟩ := hd
    simp only [get?] at h
    by_cases h' : a = k
    · simp [h'] at h; simp [h', h]
    · simp [h'] at h; simp [ih h]

theorem get?_of_mem {d : Dict κ β} (hn : (keys d).Nodup) {k : κ} {v : β} (h : (k, v) ∈ d) :
    get? d k = some v := by
  induction d with
  | nil => simp at h
  | cons hd tl ih =>
    obtain ⟨a, b⟩ := hd
    simp only [keys, List.map_cons, List.nodup_cons] at hn
    simp only [get?]
    rcases List.mem_cons.1 h with h | h
    · cases h; simp
    · have : a ≠ k := by
        intro e; subst e
        exact hn.1 (List.mem_map.2 ⟨(a, v), h, rfl⟩)
      simp [this]
      exact ih hn.2 h

theorem keys_set (d : Dict κ β) (k : κ) (v : β) :
    keys (set d k v) = if k ∈ keys d then keys d else keys d ++ [k] := by
  induction d with
  | nil => simp [set, keys]
  | cons hd tl ih =>
    obtain ⟨a, b⟩ := hd
    simp only [set]
    by_cases h : a = k
    · simp [h, keys]
    · have h' : ¬ k = a := fun e => h e.symm
      have : keys ((a, b) :: set tl k v) = a :: keys (set tl k v) := rfl
      simp only [h, if_false, this, ih]
      have e : keys ((a, b) :: tl) = a :: keys tl := rfl
      rw [e]
      by_cases h2 : k ∈ keys tl <;> simp [h2, h']

theorem nodup_keys_set {d : Dict κ β} (h : (keys d).Nodup) (k : κ) (v : β) :
    (keys (set d k v)).Nodup := by
  rw [keys_set]
  split
  · exact h
  · rename_i hk
    rw [List.nodup_append]
    refine ⟨h, by simp, ?_⟩
    intro a ha b hb
    simp at hb
    subst hb
    intro e; subst e; exact hk ha

theorem mem_keys_set {d : Dict κ β} {k k' : κ} {v : β} :
    k' ∈ keys (set d k v) ↔ k' = k ∨ k' ∈ keys d := by
  rw [keys_set]
  split
  · constructor
    · exact Or.inr
    · rintro (rfl | h)
      · assumption
      · exact h
  · simp [or_comm]

theorem set_of_not_mem {d : Dict κ β} {k : κ} (h : k ∉ keys d) (v : β) :
    set d k v = d ++ [(k, v)] := by
  induction d with
  | nil => rfl
  | cons hd tl ih =>
    obtain ⟨a, b⟩ := hd
    simp only [keys, List.map_cons, List.mem_cons, not_or] at h
    have h' : ¬ a = k := fun e => h.1 e.symm
    simp only [set, h', if_false, List.cons_append]
    rw [ih (by simpa [keys] using h.2)]

end Dict

/-! ## effects -/

namespace W
variable {ε α β : Type _}

@[simp] theorem pure_log (a : α) : (pure a : W ε α).log = [] := rfl
@[simp] theorem pure_res (a : α) : (pure a : W ε α).res = .ok a := rfl
@[simp] theorem tell_log (e : ε) : (tell e).log = [e] := rfl
@[simp] theorem tell_res (e : ε) : (tell e).res = .ok () := rfl
@[simp] theorem fail_log (e : PyErr) : (fail e : W ε α).log = [] := rfl
@[simp] theorem fail_res (e : PyErr) : (fail e : W ε α).res = .error e := rfl
@[simp] theorem lift_log (x : Except PyErr α) : (lift x : W ε α).log = [] := rfl
@[simp] theorem lift_res (x : Except PyErr α) : (lift x : W ε α).res = x := rfl

theorem bind_def (x : W ε α) (f : α → W ε β) : (x >>= f) = W.bind x f := rfl

theorem pure_def (a : α) : (pure a : W ε α) = ⟨[], .ok a⟩ := rfl

theorem bind_of_ok {x : W ε α} {a : α} (h : x.res = .ok a) (f : α → W ε β) :
    (x >>= f) = ⟨x.log ++ (f a).log, (f a).res⟩ := by
  simp [bind_def, W.bind, h]

theorem bind_of_error {x : W ε α} {e : PyErr} (h : x.res = .error e) (f : α → W ε β) :
    (x >>= f) = ⟨x.log, .error e⟩ := by
  simp [bind_def, W.bind, h]

@[simp] theorem pure_bind' (a : α) (f : α → W ε β) : ((pure a : W ε α) >>= f) = f a := by
  simp [bind_of_ok (x := (pure a : W ε α)) rfl]

@[simp] theorem lift_ok_bind (a : α) (f : α → W ε β) : ((lift (.ok a) : W ε α) >>= f) = f a := by
  simp [bind_of_ok (x := (lift (.ok a) : W ε α)) rfl]

@[simp] theorem lift_error_bind (e : PyErr) (f : α → W ε β) :
    ((lift (.error e) : W ε α) >>= f) = fail e := by
  simp [bind_of_error (x := (lift (.error e) : W ε α)) rfl, fail]

@[simp] theorem fail_bind (e : PyErr) (f : α → W ε β) :
    ((fail e : W ε α) >>= f) = fail e := rfl

@[simp] theorem tell_bind_log (e : ε) (f : Unit → W ε β) :
    (tell e >>= f).log = e :: (f ()).log := rfl

@[simp] theorem tell_bind_res (e : ε) (f : Unit → W ε β) :
    (tell e >>= f).res = (f ()).res := rfl

/-- A sequence succeeds exactly when both parts do. -/
theorem bind_ok_iff {x : W ε α} {f : α → W ε β} {b : β} :
    (x >>= f).res = .ok b ↔ ∃ a, x.res = .ok a ∧ (f a).res = .ok b := by
  cases h : x.res with
  | error e => simp [bind_of_error h]
  | ok a => simp [bind_of_ok h]

theorem bind_log_of_ok {x : W ε α} {a : α} (h : x.res = .ok a) (f : α → W ε β) :
    (x >>= f).log = x.log ++ (f a).log := by
  simp [bind_of_ok h]

theorem mem_bind_log {x : W ε α} {f : α → W ε β} {e : ε} :
    e ∈ (x >>= f).log ↔ e ∈ x.log ∨ ∃ a, x.res = .ok a ∧ e ∈ (f a).log := by
  cases h : x.res with
  | error er => simp [bind_of_error h]
  | ok a => simp [bind_of_ok h]

@[simp] theorem forEach_nil (f : α → W ε Unit) : forEach [] f = pure () := rfl

theorem forEach_cons (x : α) (xs : List α) (f : α → W ε Unit) :
    forEach (x :: xs) f = (f x >>= fun _ => forEach xs f) := rfl

theorem forEach_ok_iff {xs : List α} {f : α → W ε Unit} :
    (forEach xs f).res = .ok () ↔ ∀ x ∈ xs, (f x).res = .ok () := by
  induction xs with
  | nil => simp
  | cons x xs ih =>
    rw [forEach_cons, bind_ok_iff]
    constructor
    · rintro ⟨⟨⟩, h1, h2⟩ y hy
      rcases List.mem_cons.1 hy with rfl | hy
      · exact h1
      · exact ih.1 h2 y hy
    · intro h
      exact ⟨(), h x (by simp), ih.2 (fun y hy => h y (by simp [hy]))⟩

theorem forEach_log {xs : List α} {f : α → W ε Unit} (h : ∀ x ∈ xs, (f x).res = .ok ()) :
    (forEach xs f).log = xs.flatMap (fun x => (f x).log) := by
  induction xs with
  | nil => simp
  | cons x xs ih =>
    have hx := h x (by simp)
    rw [forEach_cons, bind_log_of_ok hx, ih (fun y hy => h y (by simp [hy]))]
    simp

/-- Whatever happens, each effect of a loop comes from one of its turns. -/
theorem mem_forEach_log {xs : List α} {f : α → W ε Unit} {e : ε}
    (h : e ∈ (forEach xs f).log) : ∃ x ∈ xs, e ∈ (f x).log := by
  induction xs with
  | nil => simp at h
  | cons x xs ih =>
    rw [forEach_cons, mem_bind_log] at h
    rcases h with h | ⟨_, _, h⟩
    · exact ⟨x, by simp, h⟩
    · obtain ⟨y, hy, h⟩ := ih h
      exact ⟨y, by simp [hy], h⟩

theorem bind_assoc' {γ : Type _} (x : W ε α) (f : α → W ε β) (g : β → W ε γ) :
    ((x >>= f) >>= g) = (x >>= fun a => f a >>= g) := by
  cases x with
  | mk l r =>
    cases r with
    | error e => rfl
    | ok a =>
      cases h : f a with
      | mk l2 r2 =>
        cases r2 with
        | error e => simp [bind_def, W.bind, h]
        | ok b => simp [bind_def, W.bind, h]

theorem forEach_append (xs ys : List α) (f : α → W ε Unit) :
    forEach (xs ++ ys) f = (forEach xs f >>= fun _ => forEach ys f) := by
  induction xs with
  | nil => simp
  | cons x xs ih => simp only [List.cons_append, forEach_cons, ih, bind_assoc']

end W
end Punx

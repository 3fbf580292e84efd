import Verif.Spec.Cache
import Verif.Lemmas.Basic

/-!
# One object per class (C57)
-/

namespace Punx

open Spec

variable {κ α β : Type} [DecidableEq κ] {make : κ → β → Nat → Except PyErr α}

theorem call_known {r : Registry κ α} {c : κ} {o : α} (h : Dict.get? r.instances c = some o)
    (args : β) : r.call make c args = (.ok o, r) := by
  simp [Registry.call, h]

/-- A call keeps the objects there are. -/
theorem call_keeps {r : Registry κ α} {c : κ} {o : α} (h : Dict.get? r.instances c = some o)
    (c' : κ) (args : β) : Dict.get? (r.call make c' args).2.instances c = some o := by
  unfold Registry.call
  split
  · exact h
  · rename_i hn
    split
    · exact h
    · simp only [Dict.get?_set]
      by_cases hc : c' = c
      · subst hc; rw [hn] at h; cases h
      · simp [hc, h]

/-- After a call that gave an object, the object is known. -/
theorem call_remembers {r : Registry κ α} {c : κ} {args : β} {o : α}
    (h : (r.call make c args).1 = .ok o) :
    Dict.get? (r.call make c args).2.instances c = some o := by
  unfold Registry.call at h ⊢
  split at h
  · rename_i o' ho
    injection h with h; subst h
    simp [ho]
  · rename_i hn
    split at h
    · cases h
    · rename_i o' ho
      injection h with h; subst h
      simp [Dict.get?_set]

theorem callAll_known {r : Registry κ α} {c : κ} {o : α} (h : Dict.get? r.instances c = some o)
    (calls : List (κ × β)) : ∀ y ∈ (callAll make r calls).1, y.1 = c → y.2 = .ok o := by
  induction calls generalizing r with
  | nil => simp [callAll]
  | cons x xs ih =>
    intro y hy hc
    simp only [callAll, List.mem_cons] at hy
    rcases hy with rfl | hy
    · simp only at hc
      subst hc
      rw [call_known h]
    · exact ih (call_keeps h _ _) y hy hc

/-- **C57**: in every sequence of constructions (of any classes, with any arguments, some of which
may fail) all objects of one class are the same object: once a construction has given an object,
every later one of this class gives it too. -/
theorem singleton_same (r : Registry κ α) (calls : List (κ × β)) :
    (callAll make r calls).1.Pairwise
      (fun x y => x.1 = y.1 → ∀ o, x.2 = .ok o → y.2 = .ok o) := by
  induction calls generalizing r with
  | nil => simp [callAll]
  | cons x xs ih =>
    simp only [callAll, List.pairwise_cons]
    refine ⟨?_, ih _⟩
    intro y hy hc o ho
    exact callAll_known (call_remembers ho) xs y hy hc.symm

/-- **C57**: every object comes from a construction of its own class (or was there before), and
nothing is constructed for a class that has its object. -/
theorem singleton_made (r : Registry κ α) (calls : List (κ × β)) :
    ∀ y ∈ (callAll make r calls).1, ∀ o, y.2 = .ok o →
      Dict.get? r.instances y.1 = some o ∨
      (Dict.get? r.instances y.1 = none ∧
        ∃ args n, (y.1, args) ∈ calls ∧ make y.1 args n = .ok o) := by
  induction calls generalizing r with
  | nil => simp [callAll]
  | cons x xs ih =>
    intro y hy o ho
    simp only [callAll, List.mem_cons] at hy
    rcases hy with rfl | hy
    · simp only at ho ⊢
      unfold Registry.call at ho
      split at ho
      · rename_i o' ho'
        injection ho with ho; subst ho
        exact Or.inl ho'
      · rename_i hn
        split at ho
        · cases ho
        · rename_i o' ho'
          injection ho with ho; subst ho
          exact Or.inr ⟨hn, x.2, r.made, by simp, ho'⟩
    · rcases ih _ y hy o ho with h | ⟨h, args, n, h1, h2⟩
      · by_cases hk : Dict.get? r.instances y.1 = none
        · refine Or.inr ⟨hk, ?_⟩
          by_cases hc : x.1 = y.1
          · unfold Registry.call at h
            rw [hc, hk] at h
            simp only at h
            split at h
            · simp only at h; rw [hk] at h; cases h
            · rename_i o' ho'
              simp only [Dict.get?_set, if_true] at h
              injection h with h; subst h
              exact ⟨x.2, r.made, by simp [← hc], ho'⟩
          · exfalso
            unfold Registry.call at h
            split at h
            · rw [hk] at h; cases h
            · split at h
              · simp only at h; rw [hk] at h; cases h
              · simp only [Dict.get?_set, hc, if_false] at h
                rw [hk] at h; cases h
        · obtain ⟨o', ho'⟩ := Option.ne_none_iff_exists'.1 hk
          have := call_keeps (make := make) ho' x.1 x.2
          rw [h] at this
          injection this with this
          rw [this]; exact Or.inl ho'
      · refine Or.inr ⟨?_, args, n, List.mem_cons_of_mem _ h1, h2⟩
        by_contra hk
        obtain ⟨o', ho'⟩ := Option.ne_none_iff_exists'.1 hk
        have := call_keeps (make := make) ho' x.1 x.2
        rw [h] at this; cases this

/-- **C57**: a construction fails only if the constructor does; a failure is not remembered. -/
theorem singleton_first {r : Registry κ α} {c : κ} (h : Dict.get? r.instances c = none) (args : β) :
    (r.call make c args).1 = make c args r.made := by
  unfold Registry.call
  rw [h]
  cases make c args r.made <;> simp

/-- Three classes, of which the second one fails the first time. -/
example :
    (callAll (fun (c : Nat) (a : Nat) n => if c = 1 ∧ n = 0 then .error .indexError else .ok (c, a, n))
      ⟨[], 0⟩ [(1, 7), (1, 8), (2, 9), (1, 5)]).1 =
    [(1, .error .indexError), (1, .ok (1, 8, 1)), (2, .ok (2, 9, 2)), (1, .ok (1, 8, 1))] := rfl

end Punx

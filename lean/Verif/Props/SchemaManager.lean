import Verif.Lemmas.Basic
import Verif.Spec.SchemaManager
import Verif.Props.NxdlSchemaSample

/-!
# C82: schema managers share what they read
-/

namespace Punx
open Spec

/-! ## `Mut` -/

namespace Mut
variable {σ α β : Type}

theorem pure_run (a : α) (s : σ) : (pure a : Mut σ α) s = (.ok a, s) := rfl

theorem bind_run (m : Mut σ α) (f : α → Mut σ β) (s : σ) :
    (m >>= f) s = match m s with
      | (.ok a, s') => f a s'
      | (.error e, s') => (.error e, s') := rfl

theorem bind_ok {m : Mut σ α} {f : α → Mut σ β} {s s' : σ} {b : β}
    (h : (m >>= f) s = (.ok b, s')) : ∃ a s1, m s = (.ok a, s1) ∧ f a s1 = (.ok b, s') := by
  rw [bind_run] at h
  cases hm : m s with
  | mk r s1 =>
    rw [hm] at h
    cases r with
    | error e => cases h
    | ok a => exact ⟨a, s1, rfl, h⟩

theorem lift_ok {x : Except PyErr α} {s s' : σ} {a : α} (h : (lift x : Mut σ α) s = (.ok a, s')) :
    x = .ok a ∧ s' = s := by
  injection h with h1 h2
  exact ⟨h1, h2.symm⟩

theorem fail_ok {e : PyErr} {s s' : σ} {a : α} (h : (fail e : Mut σ α) s = (.ok a, s')) : False := by
  cases h

theorem pure_ok {s s' : σ} {a b : α} (h : (pure a : Mut σ α) s = (.ok b, s')) : a = b ∧ s = s' := by
  injection h with h1 h2
  injection h1 with h1
  exact ⟨h1, h2⟩
end Mut

/-! ## dictionaries -/

theorem snoc_induction {α : Type} {P : List α → Prop} (h0 : P [])
    (h1 : ∀ l x, P l → P (l ++ [x])) (l : List α) : P l := by
  rw [← List.reverse_reverse l]
  induction l.reverse with
  | nil => exact h0
  | cons x l ih => rw [List.reverse_cons]; exact h1 _ _ ih

theorem nil_or_snoc {α : Type} (l : List α) : l = [] ∨ ∃ l' x, l = l' ++ [x] := by
  induction l using snoc_induction with
  | h0 => exact .inl rfl
  | h1 l x _ => exact .inr ⟨l, x, rfl⟩

theorem get?_putAll {κ β : Type} [DecidableEq κ] (d : Dict κ β) : ∀ (t : Dict κ β) (k : κ),
    Dict.get? (Dict.putAll d t) k = (Dict.get? (Dict.putAll d []) k).or (Dict.get? t k) := by
  induction d using snoc_induction with
  | h0 => intro t k; rfl
  | h1 d x ih =>
    intro t k
    have h : ∀ t : Dict κ β, Dict.putAll (d ++ [x]) t = Dict.set (Dict.putAll d t) x.1 x.2 := by
      intro t
      simp [Dict.putAll, List.foldl_append]
    rw [h, h, Dict.get?_set, Dict.get?_set, ih t k]
    split <;> rfl

theorem or_set {κ β : Type} [DecidableEq κ] {p own old : Dict κ β}
    (h : ∀ k, Dict.get? p k = (Dict.get? own k).or (Dict.get? old k)) (x : κ) (v : β) (k : κ) :
    Dict.get? (Dict.set p x v) k = (Dict.get? (Dict.set own x v) k).or (Dict.get? old k) := by
  rw [Dict.get?_set, Dict.get?_set, h k]
  split <;> rfl

theorem or_putAll {κ β : Type} [DecidableEq κ] {p own old : Dict κ β}
    (h : ∀ k, Dict.get? p k = (Dict.get? own k).or (Dict.get? old k)) (d : Dict κ β) (k : κ) :
    Dict.get? (Dict.putAll d p) k = (Dict.get? (Dict.putAll d own) k).or (Dict.get? old k) := by
  rw [get?_putAll d p, get?_putAll d own, h k, Option.or_assoc]

/-! ## what is read does not depend on what was there -/

/-- `m` behaves the same way if something was in the shared dictionaries before. -/
def Blind {α : Type} (old : Parts) (m : Mut Shared α) : Prop :=
  ∀ s s' : Shared, s.started = s'.started → LaidOver s.parts old s'.parts →
    (m s).1 = (m s').1 ∧ (m s).2.started = (m s').2.started ∧
      LaidOver (m s).2.parts old (m s').2.parts

section
variable {α β : Type} {old : Parts}

theorem blind_pure (a : α) : Blind old (pure a : Mut Shared α) := fun _ _ h1 h2 => ⟨rfl, h1, h2⟩

theorem blind_fail (e : PyErr) : Blind old (Mut.fail e : Mut Shared α) :=
  fun _ _ h1 h2 => ⟨rfl, h1, h2⟩

theorem blind_lift (x : Except PyErr α) : Blind old (Mut.lift x : Mut Shared α) :=
  fun _ _ h1 h2 => ⟨rfl, h1, h2⟩

theorem blind_bind {m : Mut Shared α} {f : α → Mut Shared β} (hm : Blind old m)
    (hf : ∀ a, Blind old (f a)) : Blind old (m >>= f) := by
  intro s s' h1 h2
  obtain ⟨h3, h4, h5⟩ := hm s s' h1 h2
  rw [Mut.bind_run, Mut.bind_run]
  generalize m s = r at *
  generalize m s' = r' at *
  obtain ⟨x, t⟩ := r
  obtain ⟨x', t'⟩ := r'
  simp only at h3
  subst h3
  cases x with
  | error e => exact ⟨rfl, h4, h5⟩
  | ok a => exact hf a t t' h4 h5

theorem blind_fold {f : α → β → Mut Shared α} (hf : ∀ a b, Blind old (f a b)) :
    ∀ (l : List β) (a : α), Blind old (Mut.fold f l a)
  | [], a => blind_pure a
  | b :: l, a => blind_bind (hf a b) fun a' => blind_fold hf l a'

theorem blind_onStarted (m : Mut Bool α) : Blind old (onStarted m) := by
  intro s s' h1 h2
  rw [onStarted, onStarted, h1]
  exact ⟨rfl, rfl, h2⟩

theorem blind_onParts {f : Parts → Parts}
    (hf : ∀ p p', LaidOver p old p' → LaidOver (f p) old (f p')) : Blind old (onParts f) :=
  fun _ _ h1 h2 => ⟨rfl, h1, hf _ _ h2⟩

theorem blind_rootSeqItem (ty : Option Str → Mut Bool Parts) (n : XsNode) :
    Blind old (rootSeqItem ty n) := by
  unfold rootSeqItem
  split
  · exact blind_fail _
  · split
    · refine blind_bind (blind_onStarted _) fun o => blind_onParts fun p p' h => ?_
      exact ⟨h.attrs, or_set h.children _ _⟩
    · split
      · refine blind_bind (blind_onStarted _) fun q => blind_onParts fun p p' h => ?_
        exact ⟨or_putAll h.attrs _, or_putAll h.children _⟩
      · exact blind_fail _

theorem blind_rootItem (ty : Option Str → Mut Bool Parts) (n : XsNode) :
    Blind old (rootItem' ty n) := by
  unfold rootItem'
  split
  · exact blind_fail _
  · split
    · refine blind_bind (blind_lift _) fun a => blind_onParts fun p p' h => ?_
      exact ⟨or_set h.attrs _ _, h.children⟩
    · split
      · refine blind_bind (blind_onStarted _) fun q => blind_onParts fun p p' h => ?_
        exact ⟨or_putAll h.attrs _, or_putAll h.children _⟩
      · split
        · exact blind_fold (fun _ m => blind_rootSeqItem ty m) _ _
        · split
          · exact blind_pure _
          · exact blind_fail _

theorem blind_readRoot (fuel : Nat) (root n : XsNode) : Blind old (readRoot fuel root n) := by
  unfold readRoot
  split
  · exact blind_fail _
  · split
    · exact blind_fold (fun _ k => blind_rootItem _ k) _ _
    · exact blind_fail _

theorem blind_newManager (fuel : Nat) (int : Str → Option Int) (valid : XsNode → Option XsNode → Bool)
    (xsd types : Option XsNode) : Blind old (newManager fuel int valid xsd types) := by
  unfold newManager
  split
  · exact blind_fail _
  · split
    · split
      · exact blind_bind (blind_readRoot _ _ _) fun _ => blind_bind (blind_lift _) fun _ =>
          blind_bind (blind_lift _) fun _ => blind_pure _
      · exact blind_fail _
    · exact blind_fail _

end

/-- C82: a schema manager reads the same, and ends the same way, whatever is in the dictionaries
that it shares with the managers before it; afterwards the dictionaries have its own entries, and
under all other names the old ones. -/
theorem manager_adds (fuel : Nat) (int : Str → Option Int) (valid : XsNode → Option XsNode → Bool) (l : Load)
    (started : Bool) (old : Parts) :
    let fresh := newManager fuel int valid l.xsd l.types ⟨started, {}⟩
    let later := newManager fuel int valid l.xsd l.types ⟨started, old⟩
    later.1 = fresh.1 ∧ later.2.started = fresh.2.started ∧
      LaidOver fresh.2.parts old later.2.parts := by
  obtain ⟨h1, h2, h3⟩ := blind_newManager (old := old) fuel int valid l.xsd l.types
    ⟨started, {}⟩ ⟨started, old⟩ rfl ⟨fun _ => rfl, fun _ => rfl⟩
  exact ⟨h1.symm, h2.symm, h3⟩

/-- C82: the members of a schema manager that are its own depend on its files only. -/
theorem own_members_partial {fuel : Nat} {int : Str → Option Int} {valid : XsNode → Option XsNode → Bool} {l : Load}
    {s s' : Shared} {o o' : OwnSchema} (h : (newManager fuel int valid l.xsd l.types s).1 = .ok o)
    (h' : (newManager fuel int valid l.xsd l.types s').1 = .ok o') : o = o' := by
  have key : ∀ {s : Shared} {o : OwnSchema},
      (newManager fuel int valid l.xsd l.types s).1 = .ok o →
      ∃ root t p, l.xsd = some root ∧ parseNxTypes l.types = .ok t ∧
        parsePatterns int (simpleTypesOf root) = .ok p ∧ o = ⟨t.1, t.2, p⟩ := by
    intro s o h
    obtain ⟨s1, h⟩ : ∃ s1, newManager fuel int valid l.xsd l.types s = (.ok o, s1) :=
      ⟨_, Prod.ext h rfl⟩
    cases hx : l.xsd with
    | none => rw [hx] at h; exact (Mut.fail_ok h).elim
    | some root =>
      rw [hx] at h
      simp only [newManager] at h
      by_cases hv : valid root l.types = true
      · rw [if_pos hv] at h
        match hs : root.select s%"element", h with
        | [n], h =>
          obtain ⟨_, _, _, h⟩ := Mut.bind_ok h
          obtain ⟨t, _, ht, h⟩ := Mut.bind_ok h
          obtain ⟨p, _, hp, h⟩ := Mut.bind_ok h
          exact ⟨root, t, p, rfl, (Mut.lift_ok ht).1, (Mut.lift_ok hp).1, (Mut.pure_ok h).1.symm⟩
        | [], h => exact (Mut.fail_ok h).elim
        | _ :: _ :: _, h => exact (Mut.fail_ok h).elim
      · rw [if_neg hv] at h
        exact (Mut.fail_ok h).elim
  obtain ⟨r, t, p, h1, h2, h3, rfl⟩ := key h
  obtain ⟨r', t', p', h1', h2', h3', rfl⟩ := key h'
  rw [h1] at h1'
  injection h1' with h1'
  subst h1'
  rw [h2] at h2'
  injection h2' with h2'
  rw [h3] at h3'
  injection h3' with h3'
  rw [h2', h3']

/-- the entries that one load makes, after others -/
def Spec.ownParts (fuel : Nat) (int : Str → Option Int) (valid : XsNode → Option XsNode → Bool)
    (before : List Load) (l : Load) : Parts :=
  (newManager fuel int valid l.xsd l.types
    ⟨(afterLoads fuel int valid before {}).started, {}⟩).2.parts

theorem afterLoads_append (fuel : Nat) (int : Str → Option Int) (valid : XsNode → Option XsNode → Bool) :
    ∀ (ls : List Load) (ls' : List Load) (s : Shared),
      afterLoads fuel int valid (ls ++ ls') s =
        afterLoads fuel int valid ls' (afterLoads fuel int valid ls s)
  | [], _, _ => rfl
  | _ :: ls, ls', _ => afterLoads_append fuel int valid ls ls' _

/-- C82: at any time in a process, the attributes (and children) that every schema manager shows
are those of all schemas that were read so far, also of those whose reading failed; of the same
names it shows the newest. -/
theorem shared_entries (fuel : Nat) (int : Str → Option Int) (valid : XsNode → Option XsNode → Bool)
    (ls : List Load) (k : Option Str) :
    (∀ x, Dict.get? (afterLoads fuel int valid ls {}).parts.attrs k = some x ↔
      ∃ before l after, ls = before ++ l :: after ∧
        Dict.get? (ownParts fuel int valid before l).attrs k = some x ∧
        ∀ b' l' a', after = b' ++ l' :: a' →
          Dict.get? (ownParts fuel int valid (before ++ l :: b') l').attrs k = none) ∧
    (∀ x, Dict.get? (afterLoads fuel int valid ls {}).parts.children k = some x ↔
      ∃ before l after, ls = before ++ l :: after ∧
        Dict.get? (ownParts fuel int valid before l).children k = some x ∧
        ∀ b' l' a', after = b' ++ l' :: a' →
          Dict.get? (ownParts fuel int valid (before ++ l :: b') l').children k = none) := by
  -- the newest entry of a list of loads
  have gen : ∀ {V : Type} (final : List Load → Option V) (one : List Load → Load → Option V),
      final [] = none → (∀ ls l, final (ls ++ [l]) = (one ls l).or (final ls)) →
      ∀ ls x, final ls = some x ↔ ∃ before l after, ls = before ++ l :: after ∧
        one before l = some x ∧ ∀ b' l' a', after = b' ++ l' :: a' →
          one (before ++ l :: b') l' = none := by
    intro V final one h0 h1 ls
    induction ls using snoc_induction with
    | h0 => intro x; simp [h0]
    | h1 ls l ih =>
      intro x
      rw [h1]
      cases ho : one ls l with
      | some y =>
        rw [Option.some_or]
        constructor
        · intro e
          injection e with e
          subst e
          exact ⟨ls, l, [], rfl, ho, by simp⟩
        · rintro ⟨b, l1, a, e, h2, h3⟩
          rcases nil_or_snoc a with rfl | ⟨a', l2, rfl⟩
          · obtain ⟨e1, e2⟩ := List.append_inj' e rfl
            subst e1
            cases e2
            rw [ho] at h2
            exact h2
          · rw [show b ++ l1 :: (a' ++ [l2]) = (b ++ l1 :: a') ++ [l2] by simp] at e
            obtain ⟨e1, e2⟩ := List.append_inj' e rfl
            cases e2
            have := h3 a' l [] rfl
            rw [← e1, ho] at this
            cases this
      | none =>
        rw [Option.none_or, ih x]
        constructor
        · rintro ⟨b, l1, a, e, h2, h3⟩
          refine ⟨b, l1, a ++ [l], by rw [e]; simp, h2, ?_⟩
          intro b' l' a' e'
          rcases nil_or_snoc a' with rfl | ⟨a'', l2, rfl⟩
          · obtain ⟨e1, e2⟩ := List.append_inj' e' rfl
            cases e2
            subst e1
            rw [← e]
            exact ho
          · rw [show b' ++ l' :: (a'' ++ [l2]) = (b' ++ l' :: a'') ++ [l2] by simp] at e'
            obtain ⟨e1, e2⟩ := List.append_inj' e' rfl
            exact h3 b' l' a'' e1
        · rintro ⟨b, l1, a, e, h2, h3⟩
          rcases nil_or_snoc a with rfl | ⟨a', l2, rfl⟩
          · obtain ⟨e1, e2⟩ := List.append_inj' e rfl
            subst e1
            cases e2
            rw [ho] at h2
            cases h2
          · rw [show b ++ l1 :: (a' ++ [l2]) = (b ++ l1 :: a') ++ [l2] by simp] at e
            obtain ⟨e1, e2⟩ := List.append_inj' e rfl
            refine ⟨b, l1, a', e1, h2, fun b' l' a2 e' => h3 b' l' (a2 ++ [l2]) ?_⟩
            rw [e']
            simp
  have step : ∀ ls l, LaidOver (ownParts fuel int valid ls l) (afterLoads fuel int valid ls {}).parts
      (afterLoads fuel int valid (ls ++ [l]) {}).parts := by
    intro ls l
    rw [afterLoads_append]
    exact (manager_adds fuel int valid l (afterLoads fuel int valid ls {}).started
      (afterLoads fuel int valid ls {}).parts).2.2
  constructor
  · exact gen (fun ls => Dict.get? (afterLoads fuel int valid ls {}).parts.attrs k)
      (fun ls l => Dict.get? (ownParts fuel int valid ls l).attrs k) rfl
      (fun ls l => (step ls l).attrs k) ls
  · exact gen (fun ls => Dict.get? (afterLoads fuel int valid ls {}).parts.children k)
      (fun ls l => Dict.get? (ownParts fuel int valid ls l).children k) rfl
      (fun ls l => (step ls l).children k) ls

end Punx

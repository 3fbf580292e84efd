import Verif.Props.Reorder3
import Verif.Props.H5Tree
import Verif.Spec.Stored

/-!
# C126: how texts are stored, values, objects and items
-/

namespace Punx
open Spec

variable {env : Env} {mgr : Manager} {f f' : H5File}

/-! ## values -/

theorem sameText_symm {v v' : Val} (h : SameText env v v') : SameText env v' v := by
  cases h with
  | same => exact .same _
  | text a b => exact .text b a
  | array a b => exact .array b a

theorem sameData_symm {v v' : Val} (h : SameData env v v') : SameData env v' v := by
  cases h with
  | same => exact .same _
  | text a b => exact .text b a
  | array a b => exact .array b a

theorem arrayOf_text {v : Val} {ss : List Str} (h : ArrayOf v ss) {s : Str} :
    ¬ TextOf env v s := by
  rintro (k | ⟨_, k, _⟩) <;> rcases h with h | ⟨_, h, _⟩ <;> rw [k] at h <;> cases h

theorem dataArrayOf_text {v : Val} {ss : List Str} (h : DataArrayOf env v ss) {s : Str} :
    ¬ TextOf env v s := by
  rintro (k | ⟨_, k, _⟩) <;> rcases h with h | ⟨_, h, _⟩ <;> rw [k] at h <;> cases h

theorem same_textOf {v v' : Val} (h : SameText env v v') {s : Str} (k : TextOf env v s) :
    TextOf env v' s := by
  cases h with
  | same => exact k
  | text a b => rwa [textOf_unique k a]
  | array a b => exact absurd k (arrayOf_text a)

theorem same_textOf_iff {v v' : Val} (h : SameText env v v') (s : Str) :
    TextOf env v s ↔ TextOf env v' s := ⟨same_textOf h, same_textOf (sameText_symm h)⟩

theorem decoded_nil {bs : List (List UInt8)} {ss : List Str} {g : List UInt8 → Option Str}
    (h : bs.map g = ss.map some) : bs = [] ↔ ss = [] := by
  rw [← List.map_eq_nil_iff (f := g), h, List.map_eq_nil_iff]

theorem axesOf_array {v : Val} {ss names : List Str} (h : ArrayOf v ss) :
    AxesOf env v names ↔ names ≠ [] ∧ names = ss := by
  rw [AxesOf]
  constructor
  · rintro (⟨s, k, _⟩ | ⟨hn, k⟩ | ⟨bs, k, hb, e⟩ | k | ⟨k, _⟩)
    · exact absurd k (arrayOf_text h)
    · rcases h with h | ⟨_, h, _⟩ <;> rw [k] at h <;> cases h
      exact ⟨hn, rfl⟩
    · rcases h with h | ⟨_, h, e'⟩ <;> rw [k] at h <;> cases h
      refine ⟨?_, map_some_inj (e.symm.trans e')⟩
      exact fun k => hb ((decoded_nil e).2 k)
    · rcases h with h | ⟨_, h, _⟩ <;> rw [k] at h <;> cases h
    · rcases h with h | ⟨_, h, _⟩ <;> rw [k] at h <;> cases h
  · rintro ⟨hn, rfl⟩
    rcases h with h | ⟨bs, h, e⟩
    · exact .inr (.inl ⟨hn, h⟩)
    · refine .inr (.inr (.inl ⟨bs, h, ?_, e⟩))
      exact fun k => hn ((decoded_nil e).1 k)

theorem axesOf_text {v : Val} {s : Str} (h : TextOf env v s) {names : List Str} :
    AxesOf env v names ↔ names = [s] := by
  constructor
  · rintro (⟨t, k, rfl⟩ | ⟨_, k⟩ | ⟨_, k, _⟩ | k | ⟨k, _⟩)
    · rw [textOf_unique k h]
    all_goals rcases h with h | ⟨_, h, _⟩ <;> rw [k] at h <;> cases h
  · rintro rfl
    exact .inl ⟨s, h, rfl⟩

theorem same_axes {v v' : Val} (h : SameText env v v') (names : List Str) :
    AxesOf env v names ↔ AxesOf env v' names := by
  cases h with
  | same => rfl
  | text a b => rw [axesOf_text a, axesOf_text b]
  | array a b => rw [axesOf_array a, axesOf_array b]

theorem marksOne_array {v : Val} {ss : List Str} (h : ArrayOf v ss) : ¬ MarksOne env v := by
  rintro (k | ⟨s, k | k, _⟩)
  · rcases h with h | ⟨_, h, _⟩ <;> rw [k] at h <;> cases h
  · exact arrayOf_text h k
  · rcases h with h | ⟨_, h, _⟩ <;> rw [k] at h <;> cases h

theorem marksOne_text {v : Val} {s : Str} (h : TextOf env v s) :
    MarksOne env v ↔ env.isdigit s = true ∧ env.int s = some 1 := by
  constructor
  · rintro (k | ⟨t, k | k, w⟩)
    · rcases h with h | ⟨_, h, _⟩ <;> rw [k] at h <;> cases h
    · rwa [textOf_unique h k]
    · rcases h with h | ⟨_, h, _⟩ <;> rw [k] at h <;> cases h
  · exact fun w => .inr ⟨s, .inl h, w⟩

theorem same_marksOne {v v' : Val} (h : SameText env v v') : MarksOne env v ↔ MarksOne env v' := by
  cases h with
  | same => rfl
  | text a b => rw [marksOne_text a, marksOne_text b]
  | array a b => exact iff_of_false (marksOne_array a) (marksOne_array b)

theorem fieldSignalOk_text {v : Val} {s : Str} (h : TextOf env v s) :
    FieldSignalOk env v ↔ (env.isdigit s = true → ∃ n, env.int s = some n) := by
  constructor
  · rintro (⟨t, k | k, w⟩ | ⟨_, k⟩ | ⟨_, k, _⟩ | ⟨_, _, k, _⟩ | ⟨k | k | ⟨_, k⟩ | ⟨_, k⟩, _⟩)
    · rwa [textOf_unique h k]
    all_goals rcases h with h | ⟨_, h, _⟩ <;> rw [k] at h <;> cases h
  · exact fun w => .inl ⟨s, .inl h, w⟩

theorem fieldSignalOk_array {v : Val} {ss : List Str} (h : ArrayOf v ss) :
    FieldSignalOk env v ↔ env.isdigit (env.str (if ss = [] then .none else .list ss)) = false := by
  constructor
  · rintro (⟨t, k | k, w⟩ | ⟨_, k⟩ | ⟨_, k, w⟩ | ⟨bs, _, k, e, w⟩ | ⟨k | k | ⟨_, k⟩ | ⟨_, k⟩, _⟩)
    · exact absurd k (arrayOf_text h)
    · rcases h with h | ⟨_, h, _⟩ <;> rw [k] at h <;> cases h
    · rcases h with h | ⟨_, h, _⟩ <;> rw [k] at h <;> cases h
    · rcases h with h | ⟨_, h, _⟩ <;> rw [k] at h <;> cases h
      exact w
    · rcases h with h | ⟨_, h, e'⟩ <;> rw [k] at h <;> cases h
      obtain rfl := map_some_inj (e.symm.trans e')
      rwa [if_congr (decoded_nil e) rfl rfl] at w
    all_goals rcases h with h | ⟨_, h, _⟩ <;> rw [k] at h <;> cases h
  · intro w
    rcases h with h | ⟨bs, h, e⟩
    · exact .inr (.inr (.inl ⟨ss, h, w⟩))
    · refine .inr (.inr (.inr (.inl ⟨bs, ss, h, e, ?_⟩)))
      rwa [if_congr (decoded_nil e) rfl rfl]

theorem same_fieldSignalOk {v v' : Val} (h : SameText env v v') :
    FieldSignalOk env v ↔ FieldSignalOk env v' := by
  cases h with
  | same => rfl
  | text a b => rw [fieldSignalOk_text a, fieldSignalOk_text b]
  | array a b => rw [fieldSignalOk_array a, fieldSignalOk_array b]

theorem asciiDecode_small {b : List UInt8} {s : Str} (h : asciiDecode b = some s) :
    ∀ x ∈ b, x.toNat < 128 := by
  induction b generalizing s with
  | nil => intro x hx; cases hx
  | cons y ys ih =>
    rw [asciiDecode] at h
    split at h
    · rename_i hy
      obtain ⟨t, ht, _⟩ := Option.map_eq_some_iff.1 h
      intro x hx
      rcases List.mem_cons.1 hx with rfl | hx
      · exact hy
      · exact ih ht x hx
    · cases h

theorem decoded_small {bs : List (List UInt8)} {ss : List Str}
    (h : bs.map asciiDecode = ss.map some) : ∀ x ∈ bs, ∀ b ∈ x, b.toNat < 128 := by
  intro x hx
  have : asciiDecode x ∈ ss.map some := h ▸ List.mem_map_of_mem hx
  obtain ⟨s, _, e⟩ := List.mem_map.1 this
  exact asciiDecode_small e.symm

theorem classReadable_text {v : Val} {s : Str} (h : TextOf env v s) : classReadable env (some v) := by
  rcases h with rfl | ⟨b, rfl, h⟩
  · trivial
  · rw [classReadable, h]
    rfl

theorem classReadable_array {v : Val} {ss : List Str} (h : ArrayOf v ss) :
    classReadable env (some v) := by
  rcases h with rfl | ⟨b, rfl, h⟩
  · trivial
  · exact decoded_small h

theorem targetReadable_text {v : Val} {s : Str} (h : TextOf env v s) :
    targetReadable env (some v) := by
  rcases h with rfl | ⟨b, rfl, h⟩
  · trivial
  · rw [targetReadable, h]
    rfl

theorem targetReadable_array {v : Val} {ss : List Str} (h : ArrayOf v ss) :
    targetReadable env (some v) ↔ ss ≠ [] := by
  rcases h with rfl | ⟨b, rfl, h⟩
  · rw [targetReadable]
  · rw [targetReadable]
    rw [ne_eq, decoded_nil h]
    exact and_iff_left (decoded_small h)

theorem same_classReadable {v v' : Val} (h : SameText env v v') :
    classReadable env (some v) ↔ classReadable env (some v') := by
  cases h with
  | same => rfl
  | text a b => exact iff_of_true (classReadable_text a) (classReadable_text b)
  | array a b => exact iff_of_true (classReadable_array a) (classReadable_array b)

theorem same_targetReadable {v v' : Val} (h : SameText env v v') :
    targetReadable env (some v) ↔ targetReadable env (some v') := by
  cases h with
  | same => rfl
  | text a b => exact iff_of_true (targetReadable_text a) (targetReadable_text b)
  | array a b => rw [targetReadable_array a, targetReadable_array b]

theorem holdsText_array {v : Val} {ss : List Str} (h : DataArrayOf env v ss) {s : Str} :
    HoldsText env v s ↔ ∃ rest, ss = s :: rest := by
  constructor
  · rintro (k | ⟨r, k⟩ | ⟨r, k⟩ | ⟨b, r, k, e⟩)
    · exact absurd k (dataArrayOf_text h)
    · rcases h with h | ⟨_, h, _⟩ <;> rw [k] at h <;> cases h
      exact ⟨r, rfl⟩
    · rcases h with h | ⟨_, h, _⟩ <;> rw [k] at h <;> cases h
    · rcases h with h | ⟨_, h, e'⟩ <;> rw [k] at h <;> cases h
      cases ss with
      | nil => cases e'
      | cons t ss =>
        rw [List.map_cons, List.map_cons, e] at e'
        injection e' with e1 _
        injection e1 with e1
        exact ⟨ss, by rw [e1]⟩
  · rintro ⟨rest, rfl⟩
    rcases h with h | ⟨bs, h, e⟩
    · exact .inr (.inl ⟨rest, h⟩)
    · cases bs with
      | nil => cases e
      | cons b bs =>
        rw [List.map_cons, List.map_cons] at e
        injection e with e1 _
        exact .inr (.inr (.inr ⟨b, bs, h, e1⟩))

theorem holdsText_text {v : Val} {s t : Str} (h : TextOf env v s) : HoldsText env v t ↔ t = s := by
  constructor
  · rintro (k | ⟨_, k⟩ | ⟨_, k⟩ | ⟨_, _, k, _⟩)
    · exact textOf_unique k h
    all_goals rcases h with h | ⟨_, h, _⟩ <;> rw [k] at h <;> cases h
  · rintro rfl
    exact .inl h

theorem holdsOther_text {v : Val} {s t : Str} (h : TextOf env v s) : ¬ HoldsOther env v t := by
  rintro (⟨_, k, _⟩ | k | ⟨_, k⟩ | ⟨k | k, _⟩) <;>
    rcases h with h | ⟨_, h, _⟩ <;> rw [k] at h <;> cases h

theorem holdsOther_array {v : Val} {ss : List Str} {t : Str} (h : DataArrayOf env v ss) :
    ¬ HoldsOther env v t := by
  rintro (⟨_, k, _⟩ | k | ⟨_, k⟩ | ⟨k | k, _⟩) <;>
    rcases h with h | ⟨_, h, _⟩ <;> rw [k] at h <;> cases h

theorem same_holdsText {v v' : Val} (h : SameData env v v') (s : Str) :
    HoldsText env v s ↔ HoldsText env v' s := by
  cases h with
  | same => rfl
  | text a b => rw [holdsText_text a, holdsText_text b]
  | array a b => rw [holdsText_array a, holdsText_array b]

theorem same_holdsOther {v v' : Val} (h : SameData env v v') (s : Str) :
    HoldsOther env v s ↔ HoldsOther env v' s := by
  cases h with
  | same => rfl
  | text a b => exact iff_of_false (holdsOther_text a) (holdsOther_text b)
  | array a b => exact iff_of_false (holdsOther_array a) (holdsOther_array b)

/-! ## attributes -/

theorem alikeAttrs_symm {K : Str → Prop} {a a' : List (Str × Val)} (h : AlikeAttrs env K a a') :
    AlikeAttrs env K a' a := by
  refine (List.Forall₂.imp (fun x y r => ?_) h).flip
  obtain ⟨h1, h2, h3⟩ := r
  exact ⟨h1.symm, sameText_symm h2, fun k => (h3 (h1 ▸ k)).symm⟩

theorem alikeAttrs_weak {K : Str → Prop} {a a' : List (Str × Val)} (h : AlikeAttrs env K a a') :
    AlikeAttrs env (fun _ => False) a a' :=
  List.Forall₂.imp (fun _ _ ⟨h1, h2, _⟩ => ⟨h1, h2, fun k => k.elim⟩) h

theorem alikeAttrs_keys {K : Str → Prop} {a a' : List (Str × Val)} (h : AlikeAttrs env K a a') :
    a.map (·.1) = a'.map (·.1) := by
  induction h with
  | nil => rfl
  | cons r _ ih => rw [List.map_cons, List.map_cons, r.1, ih]

theorem alikeAttrs_mem {K : Str → Prop} {a a' : List (Str × Val)} (h : AlikeAttrs env K a a')
    {k : Str} {v : Val} (hm : (k, v) ∈ a) : ∃ v', (k, v') ∈ a' ∧ SameText env v v' := by
  obtain ⟨⟨k', v'⟩, hy, h1, h2, _⟩ := forall₂_mem h hm
  obtain rfl : k = k' := h1
  exact ⟨v', hy, h2⟩

theorem alikeAttrs_sorted {K : Str → Prop} {a a' : List (Str × Val)} (h : AlikeAttrs env K a a') :
    AlikeAttrs env K (sortByName a) (sortByName a') :=
  forall₂_sortBy (fun _ _ _ _ r r' => by rw [r.1, r'.1]) h

theorem alikeAttrs_lookup {K : Str → Prop} {a a' : List (Str × Val)} (h : AlikeAttrs env K a a')
    (k : Str) : Option.Rel (SameText env) (a.lookup k) (a'.lookup k) := by
  induction h with
  | nil => exact .none
  | @cons x y _ _ r _ ih =>
    obtain ⟨k1, v1⟩ := x
    obtain ⟨k2, v2⟩ := y
    obtain ⟨rfl, h2, _⟩ := r
    rw [List.lookup_cons, List.lookup_cons]
    cases k == k1 with
    | true => exact .some h2
    | false => exact ih

theorem nxClassOf_eq {a : List (Str × Val)} {c : Str} : nxClassOf env a = some c ↔
    s%"NX" <+: c ∧ ∃ v, a.lookup s%"NX_class" = some v ∧ TextOf env v c := by
  rw [nxClassOf]
  cases a.lookup s%"NX_class" with
  | none => simp
  | some v =>
    cases v with
    | str s =>
      simp only [Option.some.injEq, exists_eq_left', TextOf, Val.str.injEq, reduceCtorEq,
        false_and, exists_false, or_false]
      by_cases h : s%"NX" <+: s
      · rw [if_pos h]
        constructor
        · intro e
          cases e
          exact ⟨h, rfl⟩
        · rintro ⟨_, rfl⟩; rfl
      · rw [if_neg h]
        constructor
        · intro e; cases e
        · rintro ⟨h', rfl⟩; exact absurd h' h
    | bytes b =>
      simp only [Option.some.injEq, exists_eq_left', TextOf, Val.bytes.injEq, reduceCtorEq,
        false_or]
      cases hb : env.dec b with
      | none => simp
      | some s =>
        simp only [Option.some.injEq]
        by_cases h : s%"NX" <+: s
        · rw [if_pos h]
          constructor
          · intro e
            cases e
            exact ⟨h, rfl⟩
          · rintro ⟨_, rfl⟩; rfl
        · rw [if_neg h]
          constructor
          · intro e; cases e
          · rintro ⟨h', rfl⟩; exact absurd h' h
    | _ => simp [TextOf]

theorem alike_nxClass {K : Str → Prop} {a a' : List (Str × Val)} (h : AlikeAttrs env K a a') :
    nxClassOf env a = nxClassOf env a' := by
  refine Option.ext fun c => ?_
  rw [nxClassOf_eq, nxClassOf_eq]
  refine and_congr Iff.rfl ?_
  have := alikeAttrs_lookup h s%"NX_class"
  generalize a.lookup s%"NX_class" = o at *
  generalize a'.lookup s%"NX_class" = o' at *
  cases this with
  | none => rfl
  | some r => simp only [Option.some.injEq, exists_eq_left', same_textOf_iff r]

theorem alike_classReadable {K : Str → Prop} {a a' : List (Str × Val)} (h : AlikeAttrs env K a a')
    (k : Str) : classReadable env (a.lookup k) ↔ classReadable env (a'.lookup k) := by
  have := alikeAttrs_lookup h k
  generalize a.lookup k = o at *
  generalize a'.lookup k = o' at *
  cases this with
  | none => rfl
  | some r => exact same_classReadable r

theorem alike_targetReadable {K : Str → Prop} {a a' : List (Str × Val)} (h : AlikeAttrs env K a a')
    (k : Str) : targetReadable env (a.lookup k) ↔ targetReadable env (a'.lookup k) := by
  have := alikeAttrs_lookup h k
  generalize a.lookup k = o at *
  generalize a'.lookup k = o' at *
  cases this with
  | none => rfl
  | some r => exact same_targetReadable r

theorem targetElsewhere_eq {a : List (Str × Val)} {addr : Str} : TargetElsewhere env a addr ↔
    ∃ v, a.lookup s%"target" = some v ∧ ¬ TextOf env v addr := by
  rw [TargetElsewhere]
  cases a.lookup s%"target" with
  | none => simp
  | some v => cases v <;> simp [TextOf]

theorem alike_targetElsewhere {K : Str → Prop} {a a' : List (Str × Val)}
    (h : AlikeAttrs env K a a') (s : Str) :
    TargetElsewhere env a s ↔ TargetElsewhere env a' s := by
  rw [targetElsewhere_eq, targetElsewhere_eq]
  have := alikeAttrs_lookup h s%"target"
  generalize a.lookup s%"target" = o at *
  generalize a'.lookup s%"target" = o' at *
  cases this with
  | none => rfl
  | some r => simp only [Option.some.injEq, exists_eq_left', same_textOf_iff r]

/-! ## objects -/

mutual
theorem alikeNode_symm {n n' : Node} : AlikeNode env n n' → AlikeNode env n' n
  | .dataset h d => .dataset (alikeAttrs_symm h) (sameData_symm d)
  | .datatype h => .datatype (alikeAttrs_symm h)
  | .group h k => .group (alikeAttrs_symm h) (alikeKids_symm k)
theorem alikeKids_symm {ks ks' : Kids} : AlikeKids env ks ks' → AlikeKids env ks' ks
  | .nil => .nil
  | .cons h k => .cons (alikeNode_symm h) (alikeKids_symm k)
  | .broken k => .broken (alikeKids_symm k)
end

theorem storedAlike_symm (h : StoredAlike env f f') : StoredAlike env f' f :=
  ⟨alikeAttrs_symm h.attrs, alikeKids_symm h.kids⟩

theorem alike_name {n n' : Node} (h : AlikeNode env n n') : n.name = n'.name := by
  cases h <;> rfl

theorem alike_attrs {n n' : Node} (h : AlikeNode env n n') :
    AlikeAttrs env (fun _ => False) n.attrs n'.attrs := by
  cases h with
  | dataset h _ => exact alikeAttrs_weak h
  | datatype h => exact h
  | group h _ => exact h

theorem alike_toList {ks ks' : Kids} (h : AlikeKids env ks ks') :
    List.Forall₂ (fun x y => x.1 = y.1 ∧ Option.Rel (AlikeNode env) x.2 y.2)
      ks.toList ks'.toList := by
  match h with
  | .nil => exact .nil
  | .cons h k => exact .cons ⟨rfl, .some h⟩ (alike_toList k)
  | .broken k => exact .cons ⟨rfl, .none⟩ (alike_toList k)

theorem alike_find {ks ks' : Kids} (h : AlikeKids env ks ks') (l : Str) :
    Option.Rel (Option.Rel (AlikeNode env)) (ks.find l) (ks'.find l) := by
  rw [Kids.find, Kids.find]
  have := alike_toList h
  generalize ks.toList = a at *
  generalize ks'.toList = b at *
  induction this with
  | nil => exact .none
  | @cons x y _ _ r _ ih =>
    obtain ⟨k1, v1⟩ := x
    obtain ⟨k2, v2⟩ := y
    obtain ⟨rfl, h2⟩ := r
    rw [List.lookup_cons, List.lookup_cons]
    cases l == k1 with
    | true => exact .some h2
    | false => exact ih

theorem alike_resolve {ps : List Str} : ∀ {n n' : Node}, AlikeNode env n n' →
    Option.Rel (AlikeNode env) (resolve n ps) (resolve n' ps) := by
  induction ps with
  | nil => intro n n' h; exact .some h
  | cons p ps ih =>
    intro n n' h
    cases h with
    | dataset => simp only [resolve]; exact .none
    | datatype => simp only [resolve]; exact .none
    | group _ hk =>
      rw [resolve, resolve]
      have := alike_find hk p
      generalize Kids.find p _ = o at *
      generalize Kids.find p _ = o' at *
      cases this with
      | none => exact .none
      | some r =>
        cases r with
        | none => exact .none
        | some r => exact ih r

theorem alike_linkExists {ps : List Str} : ∀ {n n' : Node}, AlikeNode env n n' →
    linkExists n ps = linkExists n' ps := by
  induction ps with
  | nil => intro n n' h; rw [linkExists, linkExists]
  | cons p ps ih =>
    intro n n' h
    cases ps with
    | nil =>
      cases h with
      | dataset => simp only [linkExists]
      | datatype => simp only [linkExists]
      | group _ hk =>
        rw [linkExists, linkExists]
        have := alike_find hk p
        generalize Kids.find p _ = o at *
        generalize Kids.find p _ = o' at *
        cases this <;> rfl
    | cons q ps =>
      cases h with
      | dataset => simp only [linkExists]
      | datatype => simp only [linkExists]
      | group _ hk =>
        rw [linkExists, linkExists]
        have := alike_find hk p
        generalize Kids.find p _ = o at *
        generalize Kids.find p _ = o' at *
        cases this with
        | none => rfl
        | some r =>
          cases r with
          | none => rfl
          | some r => exact ih r

theorem alike_root (h : StoredAlike env f f') : AlikeNode env f.root f'.root :=
  .group h.attrs h.kids

theorem alike_start (h : StoredAlike env f f') {g g' : Node} (hg : AlikeNode env g g') (p : Str) :
    AlikeNode env (startNode f g p) (startNode f' g' p) := by
  rw [startNode, startNode]
  split
  · exact alike_root h
  · exact hg

theorem alike_contains (h : StoredAlike env f f') {g g' : Node} (hg : AlikeNode env g g')
    (p : Str) : h5contains f g p = h5contains f' g' p := by
  refine h5contains_congr (groupThere_congr (alike_resolve (alike_start h hg p)) ?_)
    (alike_linkExists (alike_start h hg p))
  intro m m' h
  cases h <;> rfl

theorem alike_get_some (h : StoredAlike env f f') {g g' : Node} (hg : AlikeNode env g g') {p : Str}
    {n : Node} (e : h5get f g p = .ok (some n)) :
    ∃ n', h5get f' g' p = .ok (some n') ∧ AlikeNode env n n' := by
  rw [h5get] at e ⊢
  split at e
  · cases e
  · rename_i hp
    rw [if_neg hp]
    have := alike_resolve (ps := pathParts p) (alike_start h hg p)
    generalize resolve (startNode f g p) _ = o at *
    generalize resolve (startNode f' g' p) _ = o' at *
    cases e
    cases this with
    | some r => exact ⟨_, rfl, r⟩

theorem alike_get_none (h : StoredAlike env f f') {g g' : Node} (hg : AlikeNode env g g') {p : Str}
    (e : h5get f g p = .ok none) : h5get f' g' p = .ok none := by
  rw [h5get] at e ⊢
  split at e
  · cases e
  · rename_i hp
    rw [if_neg hp]
    have := alike_resolve (ps := pathParts p) (alike_start h hg p)
    generalize resolve (startNode f g p) _ = o at *
    generalize resolve (startNode f' g' p) _ = o' at *
    cases e
    cases this
    rfl

/-! ## items -/

/-- Objects of items. -/
inductive AlikeObj (env : Env) : H5Obj → H5Obj → Prop
  | file {f f' : H5File} : StoredAlike env f f' → AlikeObj env (.file f) (.file f')
  | node {n n' : Node} : AlikeNode env n n' → AlikeObj env (.node n) (.node n')
  | val {v v' : Val} : SameText env v v' → AlikeObj env (.val v) (.val v')
  | none : AlikeObj env .none .none

theorem alikeObj_symm {o o' : H5Obj} (h : AlikeObj env o o') : AlikeObj env o' o := by
  cases h with
  | file h => exact .file (storedAlike_symm h)
  | node h => exact .node (alikeNode_symm h)
  | val h => exact .val (sameText_symm h)
  | none => exact .none

/-- Items, without their containers. -/
structure AlikeCore (env : Env) (c c' : Core) : Prop where
  obj : AlikeObj env c.obj c'.obj
  name : c.name = c'.name
  addr : c.addr = c'.addr
  classpath : c.classpath = c'.classpath
  nxClass : c.nxClass = c'.nxClass

theorem AlikeCore.symm {c c' : Core} (h : AlikeCore env c c') : AlikeCore env c' c :=
  ⟨alikeObj_symm h.obj, h.name.symm, h.addr.symm, h.classpath.symm, h.nxClass.symm⟩

/-- Items; the attribute `signal` of a dataset has the same value. -/
structure AlikeItem (env : Env) (it it' : Item) : Prop where
  core : AlikeCore env it.toCore it'.toCore
  ancestors : List.Forall₂ (AlikeCore env) it.ancestors it'.ancestors
  mark : FieldSignal it → ∀ v, it.obj = .val v → it'.obj = .val v

theorem parent_alike {it it' p : Item}
    (h2 : List.Forall₂ (AlikeCore env) it.ancestors it'.ancestors) (e : it.parent = some p) :
    ∃ p', it'.parent = some p' ∧ AlikeCore env p.toCore p'.toCore := by
  rw [Item.parent] at e ⊢
  generalize it.ancestors = l at *
  generalize it'.ancestors = l' at *
  cases h2 with
  | nil => cases e
  | cons x k =>
    cases e
    exact ⟨_, rfl, x⟩

theorem AlikeObj.dataset {o o' : H5Obj} (h : AlikeObj env o o') {n : Str} {a : List (Str × Val)}
    {d : DataInfo} (e : o = .node (.dataset n a d)) :
    ∃ a' d', o' = .node (.dataset n a' d') ∧ SameData env d.value d'.value := by
  subst e
  cases h with
  | node h =>
    cases h with
    | dataset _ h => exact ⟨_, _, rfl, h⟩

theorem fieldSignal_alike {it it' : Item} (hc : it.classpath = it'.classpath)
    (ha : List.Forall₂ (AlikeCore env) it.ancestors it'.ancestors) (hs : FieldSignal it) :
    FieldSignal it' := by
  obtain ⟨h1, d, h2, n, a, v, h3⟩ := hs
  obtain ⟨d', h2', hd⟩ := parent_alike ha h2
  obtain ⟨a', v', e, _⟩ := hd.obj.dataset h3
  exact ⟨hc ▸ h1, d', h2', n, a', v', e⟩

theorem AlikeItem.fieldSignal {it it' : Item} (h : AlikeItem env it it') (hs : FieldSignal it) :
    FieldSignal it' := fieldSignal_alike h.core.classpath h.ancestors hs

theorem AlikeItem.symm {it it' : Item} (h : AlikeItem env it it') : AlikeItem env it' it := by
  have ha : List.Forall₂ (AlikeCore env) it'.ancestors it.ancestors :=
    (List.Forall₂.imp (fun _ _ h => h.symm) h.ancestors).flip
  refine ⟨h.core.symm, ha, fun hs v e => ?_⟩
  have hs' := fieldSignal_alike h.core.symm.classpath ha hs
  have ho := h.core.obj
  cases hx : it.obj with
  | val w =>
    rw [h.mark hs' w hx] at e
    exact e
  | file => rw [hx, e] at ho; cases ho
  | node => rw [hx, e] at ho; cases ho
  | none => rw [hx, e] at ho; cases ho

theorem alikeItems_symm {l l' : List Item} (h : List.Forall₂ (AlikeItem env) l l') :
    List.Forall₂ (AlikeItem env) l' l := (List.Forall₂.imp (fun _ _ h => h.symm) h).flip

/-! ## contents -/

theorem classpathIn_alike {n n' : Node} (h : AlikeNode env n n') (cp : Str) :
    classpathIn env cp n = classpathIn env cp n' := by
  cases h with
  | dataset => simp only [classpathIn]
  | datatype => simp only [classpathIn]
  | group h _ => simp only [classpathIn, alike_nxClass h]

theorem classIn_alike {n n' : Node} (h : AlikeNode env n n') (cp : Str) :
    classIn env cp n = classIn env cp n' := by
  cases h with
  | dataset => simp only [classIn]
  | datatype => simp only [classIn]
  | group h _ => simp only [classIn, alike_nxClass h]

theorem memberItem_alike {c c' : Item} (hc : AlikeItem env c c') (pos pos' : List Nat) {n n' : Node}
    (h : AlikeNode env n n') :
    AlikeItem env (memberItem env c pos n) (memberItem env c' pos' n') := by
  refine ⟨⟨.node h, ?_, ?_, ?_, ?_⟩, .cons hc.core hc.ancestors, fun _ v e => by cases e⟩
  · show baseName n.name = baseName n'.name
    rw [alike_name h]
  · show some n.name = some n'.name
    rw [alike_name h]
  · show classpathIn env c.classpath n = classpathIn env c'.classpath n'
    rw [hc.core.classpath, classpathIn_alike h]
  · show classIn env c.classpath n = classIn env c'.classpath n'
    rw [hc.core.classpath, classIn_alike h]

theorem signal_of_suffix {cp k : Str} (h : s%"@signal" <:+ cp ++ '@' :: k) : IsSignal k := by
  have h2 : '@' :: k <:+ cp ++ '@' :: k := List.suffix_append _ _
  rcases List.suffix_or_suffix_of_suffix h h2 with h3 | h3
  · rcases List.suffix_cons_iff.1 h3 with h3 | h3
    · injection h3 with _ h3
      exact .inl h3.symm
    · exact .inr h3
  · rcases List.suffix_cons_iff.1 h3 with h3 | h3
    · injection h3 with _ h3
      exact .inl h3
    · exact absurd (h3.subset (List.mem_cons_self ..)) (by simp)

theorem attributeItem_alike {o o' : Item} (h : AlikeItem env o o') (j j' : Nat) {k : Str}
    {v v' : Val} (hv : SameText env v v')
    (hk : (∃ n a d, o.obj = .node (.dataset n a d)) → IsSignal k → v = v') :
    AlikeItem env (attributeItem o j (k, v)) (attributeItem o' j' (k, v')) := by
  refine ⟨⟨.val hv, rfl, ?_, ?_, rfl⟩, .cons h.core h.ancestors, ?_⟩
  · rw [attributeItem, attributeItem]
    simp only [h.core.addr, h.core.classpath]
  · rw [attributeItem, attributeItem]
    simp only [h.core.classpath]
  · rintro ⟨h1, d, h2, h3⟩ w e
    cases e
    cases h2
    refine congrArg H5Obj.val (hk h3 ?_).symm
    rw [attributeItem] at h1
    simp only at h1
    split at h1
    · rename_i e
      rw [e] at h1
      exact absurd h1 (by decide)
    · exact signal_of_suffix h1

theorem attributeItems_alike {o o' : Item} (h : AlikeItem env o o') {K : Str → Prop}
    (hK : (∃ n a d, o.obj = .node (.dataset n a d)) → ∀ k, IsSignal k → K k)
    {a a' : List (Str × Val)} (ha : AlikeAttrs env K a a') : ∀ j j',
    List.Forall₂ (AlikeItem env) (attributeItems o j a) (attributeItems o' j' a') := by
  induction ha with
  | nil => intros; exact .nil
  | @cons x y _ _ r _ ih =>
    intro j j'
    obtain ⟨k, v⟩ := x
    obtain ⟨k', v'⟩ := y
    obtain ⟨h1, h2, h3⟩ := r
    obtain rfl : k = k' := h1
    exact .cons (attributeItem_alike h _ _ h2 fun hd hs => h3 (hK hd k hs)) (ih _ _)

theorem getLast_alike {l l' : List Item} (h : List.Forall₂ (AlikeItem env) l l') :
    Option.Rel (AlikeItem env) l.getLast? l'.getLast? := by
  induction h with
  | nil => exact .none
  | cons r t ih =>
    cases t with
    | nil => exact .some r
    | cons r' t => rw [List.getLast?_cons_cons, List.getLast?_cons_cons]; exact ih

theorem containerOf_alike {o o' : Item} (h : AlikeItem env o o') {K : Str → Prop}
    (hK : (∃ n a d, o.obj = .node (.dataset n a d)) → ∀ k, IsSignal k → K k)
    {a a' : List (Str × Val)} (ha : AlikeAttrs env K a a') :
    AlikeItem env (containerOf o a) (containerOf o' a') := by
  rw [containerOf, containerOf, h.core.classpath]
  split
  · have := getLast_alike (attributeItems_alike h hK (alikeAttrs_sorted ha) 0 0)
    generalize (attributeItems o 0 (sortByName a)).getLast? = x at *
    generalize (attributeItems o' 0 (sortByName a')).getLast? = y at *
    cases this with
    | none => exact h
    | some r => exact r
  · exact h

mutual
theorem contentsNode_alike {n n' : Node} : AlikeNode env n n' → ∀ {c c' : Item},
    AlikeItem env c c' → ∀ pos pos',
    List.Forall₂ (AlikeItem env) (contentsNode env c pos n) (contentsNode env c' pos' n')
  | .group (n := m) ha hk, c, c', hc, pos, pos' => by
    have ho := memberItem_alike hc pos pos' (.group (n := m) ha hk)
    have hK : ∀ {m : Node} {p : List Nat} {b : Item}, (∃ n a d,
        (memberItem env b p m).obj = .node (.dataset n a d)) → (∃ n a k, m = .group n a k) →
        ∀ k, IsSignal k → False := by
      rintro m p b ⟨_, _, _, e⟩ ⟨_, _, _, rfl⟩
      cases e
    rw [contentsNode, contentsNode]
    refine .cons ho (List.rel_append (attributeItems_alike ho (fun e => hK e ⟨_, _, _, rfl⟩)
      (alikeAttrs_sorted ha) _ _) ?_)
    exact contentsKids_alike hk (containerOf_alike ho (fun e => hK e ⟨_, _, _, rfl⟩) ha) _ _ _ _
  | .dataset (n := m) ha hd, c, c', hc, pos, pos' => by
    have ho := memberItem_alike hc pos pos' (.dataset (n := m) ha hd)
    rw [contentsNode, contentsNode]
    exact .cons ho (attributeItems_alike ho (fun _ _ h => h) (alikeAttrs_sorted ha) _ _)
  | .datatype (n := m) ha, c, c', hc, pos, pos' => by
    have ho := memberItem_alike hc pos pos' (.datatype (n := m) ha)
    rw [contentsNode, contentsNode]
    refine .cons ho (attributeItems_alike ho ?_ (alikeAttrs_sorted ha) _ _)
    rintro ⟨_, _, _, e⟩
    cases e
theorem contentsKids_alike {ks ks' : Kids} : AlikeKids env ks ks' → ∀ {c c' : Item},
    AlikeItem env c c' → ∀ pos pos' i i',
    List.Forall₂ (AlikeItem env) (contentsKids env c pos i ks) (contentsKids env c' pos' i' ks')
  | .nil, _, _, _, _, _, _, _ => by rw [contentsKids, contentsKids]; exact .nil
  | .cons h k, _, _, hc, _, _, _, _ => by
    rw [contentsKids, contentsKids]
    exact List.rel_append (contentsNode_alike h hc _ _) (contentsKids_alike k hc _ _ _ _)
  | .broken k, _, _, hc, _, _, _, _ => by
    rw [contentsKids, contentsKids]
    exact contentsKids_alike k hc _ _ _ _
end

/-- The items of both files correspond to each other, one by one. -/
theorem contents_alike (h : StoredAlike env f f') :
    List.Forall₂ (AlikeItem env) (contents env f) (contents env f') := by
  have ho : AlikeItem env (rootOf f) (rootOf f') :=
    ⟨⟨.file h, rfl, rfl, rfl, rfl⟩, .nil, fun _ v e => by cases e⟩
  rw [contents, contents]
  refine .cons ho (List.rel_append (attributeItems_alike ho ?_ (alikeAttrs_sorted h.attrs) _ _)
    (contentsKids_alike h.kids ho _ _ _ _))
  rintro ⟨_, _, _, e⟩
  cases e

end Punx

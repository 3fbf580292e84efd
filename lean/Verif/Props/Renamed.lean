import Verif.Props.Stored3
import Verif.Props.Part
import Verif.Props.Attribute3
import Verif.Props.Extras
import Verif.Props.Describe2
import Verif.Spec.Renamed

/-!
# C134: renamed groups and fields, paths
-/

namespace Punx
open Spec

variable {env : Env} {Free : Str → Prop} {f f' : H5File}

/-! ## the relation is symmetric -/

theorem Spec.Corr.symm {n n' : Node} {cs cs' : List Str} (h : Corr Free n n' cs cs') :
    Corr Free n' n cs' cs := by
  induction h with
  | fixed h => exact .fixed h
  | step h1 h2 _ ih => exact .step h2 h1 ih

theorem Spec.Moved.symm {t t' : Str} (h : Moved Free f f' t t') : Moved Free f' f t' t := by
  obtain ⟨u, u', e, e', h⟩ := h
  exact ⟨u', u, e', e, h.symm⟩

theorem samePointer_symm {C C' : Str → Str → Prop} (hC : ∀ s s', C s s' → C' s' s) {v v' : Val}
    (h : SamePointer env C v v') : SamePointer env C' v' v := by
  rcases h with ⟨rfl, h⟩ | ⟨s, s', h1, h2, h3⟩
  · exact .inl ⟨rfl, h⟩
  · exact .inr ⟨s', s, h2, h1, hC _ _ h3⟩

theorem Spec.NamesPart.symm {n n' : Node} {s s' : Str} (h : NamesPart Free n n' s s') :
    NamesPart Free n' n s' s := by
  rcases h with ⟨rfl, h⟩ | ⟨t, t', a, a', ks, ks', i, m, m', h1, h2, h3, h4⟩
  · exact .inl ⟨rfl, h⟩
  · exact .inr ⟨t', t, a', a, ks', ks, i, m', m, h2, h1, h4, h3⟩

theorem sameAxes_symm {C C' : Str → Str → Prop} (hC : ∀ s s', C s s' → C' s' s) {v v' : Val}
    (h : SameAxes env C v v') : SameAxes env C' v' v := by
  rcases h with ⟨rfl, h⟩ | ⟨s, s', h1, h2, h3⟩
  · exact .inl ⟨rfl, h⟩
  · exact .inr ⟨s', s, h2, h1, (List.Forall₂.imp hC h3).flip⟩

theorem Spec.ReAttr.symm {n n' : Node} {k : Str} {v v' : Val} (h : ReAttr env Free f f' n n' k v v') :
    ReAttr env Free f' f n' n k v' v := by
  refine ⟨fun e => samePointer_symm ?_ (h.target e), fun e => samePointer_symm ?_ (h.default e),
    fun e => samePointer_symm ?_ (h.signal e), fun e w => (h.mark e w.symm).symm,
    fun e => sameAxes_symm (fun _ _ => NamesPart.symm) (h.axes e), fun e => (h.other e).symm⟩
  · rintro s s' (h | ⟨rfl, h⟩)
    · exact .inl h.symm
    · exact .inr ⟨rfl, h⟩
  · exact fun s s' h => ⟨⟨h.1.2, h.1.1⟩, h.2.symm⟩
  · exact fun s s' h => ⟨⟨h.1.2, h.1.1⟩, h.2.symm⟩

theorem reAttrs_symm {n n' : Node} {a a' : List (Str × Val)} (h : ReAttrs env Free f f' n n' a a') :
    ReAttrs env Free f' f n' n a' a := by
  refine (List.Forall₂.imp (fun x y r => ?_) h).flip
  exact ⟨r.1.symm, r.1 ▸ r.2.symm⟩

mutual
theorem reNode_symm {n n' : Node} : ReNode env Free f f' n n' → ReNode env Free f' f n' n
  | .dataset h => .dataset (reAttrs_symm h)
  | .datatype h => .datatype (reAttrs_symm h)
  | .group h k => .group (reAttrs_symm h) (reKids_symm k)
theorem reKids_symm {ks ks' : Kids} : ReKids env Free f f' ks ks' → ReKids env Free f' f ks' ks
  | .nil => .nil
  | .cons hl hl' he hn hk => .cons hl' hl
      (he.imp Eq.symm And.symm)
      (reNode_symm hn) (reKids_symm hk)
  | .broken hk => .broken (reKids_symm hk)
end

theorem Spec.Renamed.symm (h : Renamed env Free f f') : Renamed env Free f' f :=
  ⟨reAttrs_symm h.attrs, reKids_symm h.kids⟩

theorem Spec.Renamed.root (h : Renamed env Free f f') : ReNode env Free f f' f.root f'.root :=
  .group h.attrs h.kids

/-! ## members -/

/-- Members at the same position. -/
def LinkR (env : Env) (Free : Str → Prop) (f f' : H5File) (x y : Str × Option Node) : Prop :=
  (∃ n n', x.2 = some n ∧ y.2 = some n' ∧ Label x.1 ∧ Label y.1 ∧
    (x.1 = y.1 ∨ Free x.1 ∧ Free y.1) ∧ ReNode env Free f f' n n') ∨
  (x.1 = y.1 ∧ x.2 = none ∧ y.2 = none)

theorem LinkR.label {x y : Str × Option Node} (h : LinkR env Free f f' x y) :
    x.1 = y.1 ∨ Free x.1 ∧ Free y.1 := by
  rcases h with ⟨_, _, _, _, _, _, h, _⟩ | ⟨h, _, _⟩
  · exact h
  · exact .inl h

theorem re_toList {ks ks' : Kids} (h : ReKids env Free f f' ks ks') :
    List.Forall₂ (LinkR env Free f f') ks.toList ks'.toList := by
  match h with
  | .nil => exact .nil
  | .cons hl hl' he hn hk => exact .cons (.inl ⟨_, _, rfl, rfl, hl, hl', he, hn⟩) (re_toList hk)
  | .broken hk => exact .cons (.inr ⟨rfl, rfl, rfl⟩) (re_toList hk)

theorem forall₂_get {α β : Type} {R : α → β → Prop} {l : List α} {l' : List β}
    (h : List.Forall₂ R l l') {i : Nat} {x : α} {y : β} (hx : l[i]? = some x)
    (hy : l'[i]? = some y) : R x y := by
  induction h generalizing i with
  | nil => cases hx
  | cons r _ ih =>
    cases i with
    | zero => cases hx; cases hy; exact r
    | succ i => exact ih hx hy

theorem re_lookup {l l' : List (Str × Option Node)} (h : List.Forall₂ (LinkR env Free f f') l l')
    {c : Str} (hc : ¬ Free c) : (l.lookup c = none ∧ l'.lookup c = none) ∨
      ∃ (i : Nat) (o o' : Option Node), l[i]? = some (c, o) ∧ l'[i]? = some (c, o') ∧ l.lookup c = some o ∧
        l'.lookup c = some o' := by
  induction h with
  | nil => exact .inl ⟨rfl, rfl⟩
  | @cons x y _ _ r _ ih =>
    obtain ⟨a, o⟩ := x
    obtain ⟨b, o'⟩ := y
    have hl := r.label
    rw [List.lookup_cons, List.lookup_cons]
    by_cases e : c = a
    · subst e
      rcases hl with hl | hl
      · obtain rfl : c = b := hl
        refine .inr ⟨0, o, o', rfl, rfl, ?_, ?_⟩ <;> simp
      · exact absurd hl.1 hc
    · have e' : c ≠ b := by
        rintro rfl
        rcases hl with hl | hl
        · exact e hl.symm
        · exact hc hl.2
      rw [show (c == a) = false by simpa using e, show (c == b) = false by simpa using e']
      rcases ih with h | ⟨i, o, o', h1, h2, h3, h4⟩
      · exact .inl h
      · exact .inr ⟨i + 1, o, o', h1, h2, h3, h4⟩

theorem distinct_group {s : Str} {a : List (Str × Val)} {ks : Kids} (d : Distinct (.group s a ks)) :
    (ks.toList.map (·.1)).Nodup := by
  rw [Distinct] at d
  exact d.2.1

theorem distinctKids_get : {ks : Kids} → DistinctKids ks → {i : Nat} → {c : Str} → {m : Node} →
    ks.toList[i]? = some (c, some m) → Distinct m
  | .nil, _, i, c, m, h => by cases h
  | .cons .., d, 0, c, m, h => by
    rw [DistinctKids] at d
    cases h
    exact d.1
  | .cons .., d, i + 1, c, m, h => by
    rw [DistinctKids] at d
    exact distinctKids_get d.2 h
  | .broken .., d, 0, c, m, h => by cases h
  | .broken .., d, i + 1, c, m, h => by
    rw [DistinctKids] at d
    exact distinctKids_get d h

theorem distinct_get {s : Str} {a : List (Str × Val)} {ks : Kids} (d : Distinct (.group s a ks))
    {i : Nat} {c : Str} {m : Node} (h : ks.toList[i]? = some (c, some m)) : Distinct m := by
  rw [Distinct] at d
  exact distinctKids_get d.2.2 h

theorem find_get {s : Str} {a : List (Str × Val)} {ks : Kids} (d : Distinct (.group s a ks))
    {i : Nat} {c : Str} {o : Option Node} (h : ks.toList[i]? = some (c, o)) :
    ks.find c = some o := lookup_of_mem (distinct_group d) (List.mem_of_getElem? h)

theorem re_get {s s' : Str} {a a' : List (Str × Val)} {ks ks' : Kids}
    (h : ReNode env Free f f' (.group s a ks) (.group s' a' ks')) {i : Nat} {c c' : Str}
    {o o' : Option Node} (h1 : ks.toList[i]? = some (c, o)) (h2 : ks'.toList[i]? = some (c', o')) :
    LinkR env Free f f' (c, o) (c', o') := by
  cases h with
  | group _ hk => exact forall₂_get (re_toList hk) h1 h2

/-! ## paths -/

/-- The objects `n` and `n'`, without members of the same name. -/
structure RNode (env : Env) (Free : Str → Prop) (f f' : H5File) (n n' : Node) : Prop where
  re : ReNode env Free f f' n n'
  one : Distinct n
  one' : Distinct n'

theorem RNode.symm {n n' : Node} (h : RNode env Free f f' n n') : RNode env Free f' f n' n :=
  ⟨reNode_symm h.re, h.one', h.one⟩

theorem RNode.get {s s' : Str} {a a' : List (Str × Val)} {ks ks' : Kids}
    (h : RNode env Free f f' (.group s a ks) (.group s' a' ks')) {i : Nat} {c c' : Str}
    {m m' : Node} (h1 : ks.toList[i]? = some (c, some m))
    (h2 : ks'.toList[i]? = some (c', some m')) : RNode env Free f f' m m' := by
  rcases re_get h.re h1 h2 with ⟨n, n', e, e', _, _, _, hr⟩ | ⟨_, e, _⟩
  · cases e
    cases e'
    exact ⟨hr, distinct_get h.one h1, distinct_get h.one' h2⟩
  · cases e

/-- The objects `m` and `m'` are reached from `n` and `n'` along corresponding members. -/
inductive Walk : Node → Node → List Str → List Str → Node → Node → Prop
  | nil {n n' : Node} : Walk n n' [] [] n n'
  | step {s s' c c' : Str} {a a' : List (Str × Val)} {ks ks' : Kids} {p p' m m' : Node} {i : Nat}
      {cs cs' : List Str} : ks.toList[i]? = some (c, some p) → ks'.toList[i]? = some (c', some p') →
      Walk p p' cs cs' m m' → Walk (.group s a ks) (.group s' a' ks') (c :: cs) (c' :: cs') m m'

theorem Walk.symm {n n' m m' : Node} {cs cs' : List Str} (h : Walk n n' cs cs' m m') :
    Walk n' n cs' cs m' m := by
  induction h with
  | nil => exact .nil
  | step h1 h2 _ ih => exact .step h2 h1 ih

theorem Walk.snoc {n n' : Node} {cs cs' : List Str} {g g' : Node} (h : Walk n n' cs cs' g g') :
    ∀ {s s' c c' : Str} {a a' : List (Str × Val)} {ks ks' : Kids} {m m' : Node} {i : Nat},
    g = .group s a ks → g' = .group s' a' ks' →
    ks.toList[i]? = some (c, some m) → ks'.toList[i]? = some (c', some m') →
    Walk n n' (cs ++ [c]) (cs' ++ [c']) m m' := by
  induction h with
  | nil =>
    intro s s' c c' a a' ks ks' m m' i e e' h1 h2
    subst e e'
    exact .step h1 h2 .nil
  | step h1 h2 _ ih =>
    intro s s' c c' a a' ks ks' m m' i e e' h3 h4
    exact .step h1 h2 (ih e e' h3 h4)

theorem Walk.append {n n' m m' k k' : Node} {cs cs' ds ds' : List Str} (h : Walk n n' cs cs' m m')
    (h2 : Walk m m' ds ds' k k') : Walk n n' (cs ++ ds) (cs' ++ ds') k k' := by
  induction h with
  | nil => exact h2
  | step h3 h4 _ ih => exact .step h3 h4 (ih h2)

theorem Walk.corr {n n' m m' : Node} {cs cs' ds ds' : List Str} (h : Walk n n' cs cs' m m')
    (h2 : Corr Free m m' ds ds') : Corr Free n n' (cs ++ ds) (cs' ++ ds') := by
  induction h with
  | nil => exact h2
  | step h3 h4 _ ih => exact .step h3 h4 (ih h2)

theorem Walk.rnode {n n' m m' : Node} {cs cs' : List Str} (h : Walk n n' cs cs' m m')
    (hn : RNode env Free f f' n n') : RNode env Free f f' m m' := by
  induction h with
  | nil => exact hn
  | step h1 h2 _ ih => exact ih (hn.get h1 h2)

theorem Walk.labels {n n' m m' : Node} {cs cs' : List Str} (h : Walk n n' cs cs' m m')
    (hn : RNode env Free f f' n n') : (∀ c ∈ cs, Label c) ∧ ∀ c ∈ cs', Label c := by
  induction h with
  | nil => exact ⟨nofun, nofun⟩
  | step h1 h2 _ ih =>
    obtain ⟨k1, k2⟩ := ih (hn.get h1 h2)
    rcases re_get hn.re h1 h2 with ⟨_, _, _, _, l, l', _, _⟩ | ⟨_, e, _⟩
    · exact ⟨List.forall_mem_cons.2 ⟨l, k1⟩, List.forall_mem_cons.2 ⟨l', k2⟩⟩
    · cases e

/-- The next component of corresponding paths. -/
theorem Spec.Corr.head {n n' : Node} {c : Str} {cs ds : List Str} (h : Corr Free n n' (c :: cs) ds)
    (hn : RNode env Free f f' n n') : ∃ c' cs', ds = c' :: cs' ∧
      (((∀ s a ks, n ≠ .group s a ks) ∧ ∀ s a ks, n' ≠ .group s a ks) ∨
      ∃ s a ks s' a' ks', n = .group s a ks ∧ n' = .group s' a' ks' ∧
        ((ks.find c = none ∧ ks'.find c' = none) ∨
         (ks.find c = some none ∧ ks'.find c' = some none) ∨
         ∃ (i : Nat) (m m' : Node), ks.toList[i]? = some (c, some m) ∧ ks'.toList[i]? = some (c', some m') ∧
          ks.find c = some (some m) ∧ ks'.find c' = some (some m') ∧ Corr Free m m' cs cs')) := by
  cases h with
  | fixed hf =>
    refine ⟨c, cs, rfl, ?_⟩
    have hr := hn.re
    cases hr with
    | dataset => exact .inl ⟨nofun, nofun⟩
    | datatype => exact .inl ⟨nofun, nofun⟩
    | @group s s' a a' ks ks' ha hk =>
      refine .inr ⟨_, _, _, _, _, _, rfl, rfl, ?_⟩
      rcases re_lookup (re_toList hk) (hf c (List.mem_cons_self ..)) with
        h | ⟨i, o, o', h1, h2, h3, h4⟩
      · exact .inl h
      · rcases forall₂_get (re_toList hk) h1 h2 with ⟨m, m', e, e', _⟩ | ⟨_, e, e'⟩
        · cases e
          cases e'
          exact .inr (.inr ⟨i, m, m', h1, h2, h3, h4,
            .fixed fun d hd => hf d (List.mem_cons_of_mem _ hd)⟩)
        · cases e
          cases e'
          exact .inr (.inl ⟨h3, h4⟩)
  | step h1 h2 h3 =>
    exact ⟨_, _, rfl, .inr ⟨_, _, _, _, _, _, rfl, rfl, .inr (.inr ⟨_, _, _, h1, h2,
      find_get hn.one h1, find_get hn.one' h2, h3⟩)⟩⟩

theorem Spec.Corr.nil {n n' : Node} {ds : List Str} (h : Corr Free n n' [] ds) : ds = [] := by
  cases h
  rfl

theorem Spec.Corr.length {n n' : Node} {cs ds : List Str} (h : Corr Free n n' cs ds) :
    cs.length = ds.length := by
  induction h with
  | fixed => rfl
  | step _ _ _ ih => rw [List.length_cons, List.length_cons, ih]

/-- Corresponding paths lead to corresponding objects, or nowhere. -/
theorem Spec.Corr.resolve {cs : List Str} : ∀ {n n' : Node} {ds : List Str},
    Corr Free n n' cs ds → RNode env Free f f' n n' →
    (Punx.resolve n cs = none ∧ Punx.resolve n' ds = none) ∨
      ∃ m m', Punx.resolve n cs = some m ∧ Punx.resolve n' ds = some m' ∧
        Walk n n' cs ds m m' := by
  induction cs with
  | nil =>
    intro n n' ds h hn
    rw [h.nil]
    exact .inr ⟨n, n', by rw [Punx.resolve], by rw [Punx.resolve], .nil⟩
  | cons c cs ih =>
    intro n n' ds h hn
    obtain ⟨c', cs', rfl, hd⟩ := h.head hn
    rcases hd with ⟨h1, h2⟩ | ⟨s, a, ks, s', a', ks', rfl, rfl, h | h | ⟨i, m, m', h1, h2, h3, h4, h5⟩⟩
    · left
      cases n with
      | group => exact absurd rfl (h1 _ _ _)
      | _ =>
        cases n' with
        | group => exact absurd rfl (h2 _ _ _)
        | _ => exact ⟨by simp only [Punx.resolve], by simp only [Punx.resolve]⟩
    · left
      simp only [Punx.resolve, h.1, h.2, and_self]
    · left
      simp only [Punx.resolve, h.1, h.2, and_self]
    · simp only [Punx.resolve, h3, h4]
      rcases ih h5 (hn.get h1 h2) with h | ⟨k, k', e, e', h⟩
      · exact .inl h
      · exact .inr ⟨k, k', e, e', .step h1 h2 h⟩

theorem Spec.Corr.exists_ {cs : List Str} : ∀ {n n' : Node} {ds : List Str},
    Corr Free n n' cs ds → RNode env Free f f' n n' → linkExists n cs = linkExists n' ds := by
  induction cs with
  | nil =>
    intro n n' ds h hn
    rw [h.nil, linkExists, linkExists]
  | cons c cs ih =>
    intro n n' ds h hn
    have hc := h
    obtain ⟨c', cs', rfl, hd⟩ := h.head hn
    rcases hd with ⟨h1, h2⟩ | ⟨s, a, ks, s', a', ks', rfl, rfl, hk⟩
    · have hx : ∀ (m : Node) (c : Str) (cs : List Str), (∀ s a ks, m ≠ .group s a ks) →
          linkExists m (c :: cs) = false := by
        intro m c cs h
        cases m with
        | group => exact absurd rfl (h _ _ _)
        | _ => cases cs <;> simp only [linkExists]
      rw [hx _ _ _ h1, hx _ _ _ h2]
    · have hl := hc.length
      rw [List.length_cons, List.length_cons, Nat.add_right_cancel_iff] at hl
      cases cs with
      | nil =>
        cases cs' with
        | cons => cases hl
        | nil =>
          rw [linkExists, linkExists]
          rcases hk with h | h | ⟨_, _, _, _, _, h3, h4, _⟩
          · rw [h.1, h.2]
          · rw [h.1, h.2]
          · rw [h3, h4]; rfl
      | cons d cs =>
        cases cs' with
        | nil => cases hl
        | cons d' cs' =>
          rw [linkExists, linkExists]
          rcases hk with h | h | ⟨_, _, _, h1, h2, h3, h4, h5⟩
          · rw [h.1, h.2]
          · rw [h.1, h.2]
          · rw [h3, h4]
            exact ih h5 (hn.get h1 h2)

/-- The components that HDF5 skips are the same. -/
theorem Spec.Corr.filter {n n' : Node} {cs ds : List Str} (h : Corr Free n n' cs ds)
    (hn : RNode env Free f f' n n') :
    Corr Free n n' (cs.filter (fun c => c ≠ [] ∧ c ≠ s%".")) (ds.filter (fun c => c ≠ [] ∧ c ≠ s%".")) := by
  induction h with
  | fixed h => exact .fixed fun c hc => h c (List.mem_filter.1 hc).1
  | step h1 h2 h3 ih =>
    rcases re_get hn.re h1 h2 with ⟨_, _, _, _, l, l', _, _⟩ | ⟨_, e, _⟩
    · rw [List.filter_cons_of_pos (by simpa using ⟨l.empty, l.dot⟩),
        List.filter_cons_of_pos (by simpa using ⟨l'.empty, l'.dot⟩)]
      exact .step h1 h2 (ih (hn.get h1 h2))
    · cases e

/-- Corresponding paths lead to groups, or not. -/
theorem Spec.Corr.group {cs ds : List Str} {n n' : Node} (h : Corr Free n n' cs ds)
    (hn : RNode env Free f f' n n') : groupThere n cs = groupThere n' ds := by
  rcases h.resolve hn with ⟨h1, h2⟩ | ⟨m, m', h1, h2, h3⟩
  · rw [groupThere_eq, groupThere_eq, h1, h2]
  · rw [groupThere_eq, groupThere_eq, h1, h2]
    cases (h3.rnode hn).re <;> rfl

/-- Corresponding paths end with ".", or not. -/
theorem Spec.Corr.dot {cs ds : List Str} {n n' : Node} (h : Corr Free n n' cs ds)
    (hn : RNode env Free f f' n n') :
    ((cs.filter (· ≠ [])).getLast? == some s%".") = ((ds.filter (· ≠ [])).getLast? == some s%".") := by
  induction h with
  | fixed h => rfl
  | step h1 h2 h3 ih =>
    rename_i cs ds
    rcases re_get hn.re h1 h2 with ⟨_, _, _, _, l, l', _, _⟩ | ⟨_, e, _⟩
    · have ih := ih (hn.get h1 h2)
      rw [List.filter_cons_of_pos (by simpa using l.empty),
        List.filter_cons_of_pos (by simpa using l'.empty), List.getLast?_cons, List.getLast?_cons]
      revert ih
      generalize (cs.filter (· ≠ [])).getLast? = x
      generalize (ds.filter (· ≠ [])).getLast? = y
      have d := l.dot
      have d' := l'.dot
      cases x <;> cases y <;> simp [d, d']
    · cases e

/-- A path has one corresponding path. -/
theorem Spec.Corr.unique {cs : List Str} : ∀ {n n' : Node} {ds ds' : List Str},
    RNode env Free f f' n n' → Corr Free n n' cs ds → Corr Free n n' cs ds' → ds = ds' := by
  induction cs with
  | nil =>
    intro n n' ds ds' _ h h'
    rw [h.nil, h'.nil]
  | cons c cs ih =>
    intro n n' ds ds' hn h h'
    cases h with
    | fixed hf =>
      cases h' with
      | fixed => rfl
      | step h1 h2 h3 =>
        rcases (re_get hn.re h1 h2).label with e | e
        · rw [show c = _ from e, ih (hn.get h1 h2)
            (.fixed fun d hd => hf d (List.mem_cons_of_mem _ hd)) h3]
        · exact absurd e.1 (hf c (List.mem_cons_self ..))
    | step h1 h2 h3 =>
      cases h' with
      | fixed hf =>
        rcases (re_get hn.re h1 h2).label with e | e
        · rw [show c = _ from e, ih (hn.get h1 h2) h3
            (.fixed fun d hd => hf d (List.mem_cons_of_mem _ hd))]
        · exact absurd e.1 (hf c (List.mem_cons_self ..))
      | step k1 k2 k3 =>
        obtain ⟨rfl, e⟩ := nodup_get (distinct_group hn.one) h1 k1
        cases e
        rw [h2] at k2
        cases k2
        rw [ih (hn.get h1 h2) h3 k3]

/-! ## names of members -/

theorem Spec.NamesPart.name {n n' : Node} {s s' : Str} (h : NamesPart Free n n' s s')
    (hn : ReNode env Free f f' n n') : s = s' ∨ Free s ∧ Free s' := by
  rcases h with ⟨rfl, _⟩ | ⟨t, t', a, a', ks, ks', i, m, m', rfl, rfl, h3, h4⟩
  · exact .inl rfl
  · exact (re_get hn h3 h4).label

/-- Names of members are paths to the same place. -/
theorem Spec.NamesPart.corr {n n' : Node} {s s' : Str} (h : NamesPart Free n n' s s')
    (hn : ReNode env Free f f' n n') : Corr Free n n' (split '/' s) (split '/' s') := by
  rcases h with ⟨rfl, h⟩ | ⟨t, t', a, a', ks, ks', i, m, m', rfl, rfl, h3, h4⟩
  · exact .fixed h
  · rcases re_get hn h3 h4 with ⟨_, _, _, _, l, l', _, _⟩ | ⟨_, e, _⟩
    · rw [split_noSep l.slash, split_noSep l'.slash]
      exact .step h3 h4 (.fixed nofun)
    · cases e

theorem Spec.NamesPart.empty {n n' : Node} {s : Str} (h : NamesPart Free n n' s [])
    (hn : ReNode env Free f f' n n') : s = [] := by
  rcases h with ⟨rfl, _⟩ | ⟨t, t', a, a', ks, ks', i, m, m', rfl, rfl, h3, h4⟩
  · rfl
  · rcases re_get hn h3 h4 with ⟨_, _, _, _, _, l', _, _⟩ | ⟨_, e, _⟩
    · exact absurd rfl l'.empty
    · cases e

/-! ## class paths -/

/-- Class paths that differ in the name of a field, which is followed by an attribute or nothing. -/
def RePath (Free : Str → Prop) (p p' : Str) : Prop :=
  p = p' ∨ ∃ q l l' r, (Label l ∧ Label l') ∧ (Free l ∧ Free l') ∧ p = q ++ '/' :: l ++ r ∧
    p' = q ++ '/' :: l' ++ r ∧ (r = [] ∨ ∃ x, r = '@' :: x)

namespace RePath
variable {p p' : Str}

theorem symm (h : RePath Free p p') : RePath Free p' p := by
  rcases h with rfl | ⟨q, l, l', r, h1, h2, h3, h4, h5⟩
  · exact .inl rfl
  · exact .inr ⟨q, l', l, r, h1.symm, h2.symm, h4, h3, h5⟩

theorem attr (h : RePath Free p p') (k : Str) : RePath Free (p ++ '@' :: k) (p' ++ '@' :: k) := by
  rcases h with rfl | ⟨q, l, l', r, h1, h2, rfl, rfl, h5⟩
  · exact .inl rfl
  · refine .inr ⟨q, l, l', r ++ '@' :: k, h1, h2, by simp, by simp, .inr ?_⟩
    rcases h5 with rfl | ⟨x, rfl⟩
    · exact ⟨k, rfl⟩
    · exact ⟨x ++ '@' :: k, rfl⟩

theorem outside (h : RePath Free p p') (e : p = s%"non-NeXus content") : p = p' := by
  rcases h with h | ⟨q, l, l', r, h1, h2, rfl, rfl, h5⟩
  · exact h
  · have : '/' ∈ s%"non-NeXus content" := by rw [← e]; simp
    exact absurd this (by decide)

theorem outside_iff (h : RePath Free p p') :
    p = s%"non-NeXus content" ↔ p' = s%"non-NeXus content" :=
  ⟨fun e => h.outside e ▸ e, fun e => h.symm.outside e ▸ e⟩

theorem at_ (h : RePath Free p p') (e : '@' ∈ p) : '@' ∈ p' := by
  rcases h with rfl | ⟨q, l, l', r, h1, h2, rfl, rfl, h5⟩
  · exact e
  · have := h1.1.at_
    simp only [List.mem_append, List.mem_cons] at e ⊢
    tauto

theorem at_iff (h : RePath Free p p') : '@' ∈ p ↔ '@' ∈ p' := ⟨h.at_, h.symm.at_⟩

/-- What can be at the end of a class path: part of the attribute, or the name itself. -/
theorem tail {q l r t : Str} (ht : '/' ∉ t) (h : t <:+ q ++ '/' :: l ++ r) :
    t <:+ r ∨ ∃ w, w <:+ l ∧ w ≠ [] ∧ t = w ++ r := by
  obtain ⟨z, e⟩ := h
  rcases List.append_eq_append_iff.1 e with ⟨w, e1, e2⟩ | ⟨w, e1, e2⟩
  · by_cases hw : w = []
    · subst hw
      exact .inl (by rw [e2]; exact List.suffix_refl _)
    refine .inr ⟨w, ?_, hw, e2⟩
    have h1 : w <:+ q ++ '/' :: l := ⟨z, e1.symm⟩
    have h2 : '/' :: l <:+ q ++ '/' :: l := List.suffix_append _ _
    rcases List.suffix_or_suffix_of_suffix h1 h2 with h3 | h3
    · rcases List.suffix_cons_iff.1 h3 with h3 | h3
      · exact absurd (e2 ▸ List.mem_append_left _ (h3 ▸ List.mem_cons_self ..)) ht
      · exact h3
    · exact absurd (e2 ▸ List.mem_append_left _ (h3.subset (List.mem_cons_self ..))) ht
  · exact .inl ⟨w, e2.symm⟩

theorem signal (h : RePath Free p p') (e : s%"@signal" <:+ p) : s%"@signal" <:+ p' := by
  rcases h with rfl | ⟨q, l, l', r, h1, h2, rfl, rfl, h5⟩
  · exact e
  · rcases tail (by decide) e with h | ⟨w, h3, h4, h6⟩
    · exact h.trans (List.suffix_append _ _)
    · cases w with
      | nil => exact absurd rfl h4
      | cons c w =>
        injection h6 with h6 _
        subst h6
        exact absurd (h3.subset (List.mem_cons_self ..)) h1.1.at_

theorem slash (h : RePath Free p p') (e : s%"/" <:+ p) : s%"/" <:+ p' := by
  rcases h with rfl | ⟨q, l, l', r, h1, h2, rfl, rfl, h5⟩
  · exact e
  · have key : s%"/" <:+ r := by
      rw [List.append_assoc, List.cons_append] at e
      have h6 := slash_suffix (by simp [h1.1.empty]) e
      rcases h5 with rfl | ⟨x, rfl⟩
      · rw [List.append_nil] at h6
        exact absurd (h6.subset (List.mem_cons_self ..)) h1.1.slash
      · obtain ⟨z, h6⟩ := h6
        rcases List.append_eq_append_iff.1 h6 with ⟨w, e1, e2⟩ | ⟨w, e1, e2⟩
        · rcases List.append_eq_singleton_iff.1 e2.symm with ⟨_, e3⟩ | ⟨_, e3⟩
          · injection e3 with e3 _
            exact absurd e3 (by decide)
          · cases e3
        · exact ⟨w, e2.symm⟩
    exact key.trans (List.suffix_append _ _)

/-- A name that was not exchanged. -/
theorem fixed {u s : Str} (hs : '/' ∉ s) (hf : ¬ Free s) (h : RePath Free (u ++ '/' :: s) p')
    (ha : '@' ∉ u ∧ '@' ∉ s) : u ++ '/' :: s = p' := by
  rcases h with h | ⟨q, l, l', r, h1, h2, h3, rfl, h5⟩
  · exact h
  · rcases h5 with rfl | ⟨x, rfl⟩
    · rw [List.append_nil] at h3
      have e := congrArg Spec.baseName h3
      rw [baseName_member hs, baseName_member h1.1.slash] at e
      exact absurd (e ▸ h2.1) hf
    · have : '@' ∈ u ++ '/' :: s := by rw [h3]; simp
      simp [ha] at this

theorem fixed_attr {u s k : Str} (hs : '/' ∉ s) (hf : ¬ Free s) (hk : '/' ∉ k ∧ '@' ∉ k)
    (h : RePath Free (u ++ '/' :: s ++ '@' :: k) p') (ha : '@' ∉ u ∧ '@' ∉ s) :
    u ++ '/' :: s ++ '@' :: k = p' := by
  rcases h with h | ⟨q, l, l', r, h1, h2, h3, rfl, h5⟩
  · exact h
  · exfalso
    rcases h5 with rfl | ⟨x, rfl⟩
    · rw [List.append_nil, List.append_assoc, List.cons_append] at h3
      have e := congrArg Spec.baseName h3
      rw [baseName_member (by simp [hs, hk.1]), baseName_member h1.1.slash] at e
      exact h1.1.at_ (e ▸ by simp)
    · have key : '@' ∉ q := by
        intro hq
        have := congrArg (List.count '@') h3
        simp only [List.count_append, List.count_cons, List.count_eq_zero.2 ha.1,
          List.count_eq_zero.2 ha.2, List.count_eq_zero.2 hk.2] at this
        have h7 := List.count_pos_iff.2 hq
        simp at this
        omega
      obtain ⟨e, _⟩ := split_at (by simp [ha]) (by simp [key, h1.1.at_]) h3
      have e := congrArg Spec.baseName e
      rw [baseName_member hs, baseName_member h1.1.slash] at e
      exact hf (e ▸ h2.1)

end RePath

end Punx

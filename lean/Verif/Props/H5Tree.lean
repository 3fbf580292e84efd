import Verif.Spec.H5Tree
import Verif.Props.Utils

/-!
# C38: the tree report shows everything
-/

namespace Punx
open Spec

/-! ## lists of outputs -/

theorem forall₂_insertBy {α β : Type} {R : α → β → Prop} {le : α → α → Bool} {le' : β → β → Bool}
    (hle : ∀ a a' b b', R a b → R a' b' → le a a' = le' b b') {a : α} {b : β} (hab : R a b)
    {l : List α} {l' : List β} (h : List.Forall₂ R l l') :
    List.Forall₂ R (insertBy le a l) (insertBy le' b l') := by
  induction h with
  | nil => exact .cons hab .nil
  | @cons x y xs ys hxy hr ih =>
    simp only [insertBy]
    rw [hle a x b y hab hxy]
    split
    · exact .cons hab (.cons hxy hr)
    · exact .cons hxy ih

theorem forall₂_sortBy {α β : Type} {R : α → β → Prop} {le : α → α → Bool} {le' : β → β → Bool}
    (hle : ∀ a a' b b', R a b → R a' b' → le a a' = le' b b')
    {l : List α} {l' : List β} (h : List.Forall₂ R l l') :
    List.Forall₂ R (sortBy le l) (sortBy le' l') := by
  induction h with
  | nil => exact .nil
  | cons hxy _ ih => exact forall₂_insertBy hle hxy ih

theorem forall₂_filter {α β : Type} {R : α → β → Prop} {p : α → Bool} {q : β → Bool}
    (hpq : ∀ a b, R a b → p a = q b) {l : List α} {l' : List β} (h : List.Forall₂ R l l') :
    List.Forall₂ R (l.filter p) (l'.filter q) := by
  induction h with
  | nil => exact .nil
  | @cons x y xs ys hxy hr ih =>
    simp only [List.filter_cons, hpq x y hxy]
    split
    · exact .cons hxy ih
    · exact ih

theorem concatE_ok {l : List (Except PyErr (List TLine))} {ls : List TLine} :
    concatE l = .ok ls ↔ ∃ outs : List (List TLine), l = outs.map Except.ok ∧ ls = outs.flatten := by
  induction l generalizing ls with
  | nil =>
    constructor
    · intro h
      injection h with h
      exact ⟨[], rfl, h.symm⟩
    · rintro ⟨outs, h, rfl⟩
      cases outs with
      | nil => rfl
      | cons _ _ => cases h
  | cons x xs ih =>
    cases x with
    | error e =>
      simp only [concatE, reduceCtorEq, false_iff]
      rintro ⟨outs, h, _⟩
      cases outs with
      | nil => cases h
      | cons _ _ => simp at h
    | ok l =>
      simp only [concatE]
      constructor
      · intro h
        cases hr : concatE xs with
        | error e => rw [hr] at h; cases h
        | ok r =>
          rw [hr] at h
          injection h with h
          obtain ⟨outs, rfl, rfl⟩ := ih.1 hr
          exact ⟨l :: outs, rfl, by rw [← h]; rfl⟩
      · rintro ⟨outs, h, rfl⟩
        cases outs with
        | nil => cases h
        | cons o outs =>
          simp only [List.map_cons, List.cons.injEq, Except.ok.injEq] at h
          rw [ih.2 ⟨outs, h.2, rfl⟩, h.1]
          rfl

theorem mapE_ok {α β : Type} {f : α → Except PyErr β} {l : List α} {r : List β} :
    mapE f l = .ok r ↔ List.Forall₂ (fun b a => f a = .ok b) r l := by
  induction l generalizing r with
  | nil =>
    simp only [mapE, Except.ok.injEq, List.forall₂_nil_right_iff]
    exact eq_comm
  | cons a as ih =>
    simp only [mapE]
    constructor
    · intro h
      cases ha : f a with
      | error e => rw [ha] at h; cases h
      | ok b =>
        rw [ha] at h
        cases hr : mapE f as with
        | error e => simp only [hr] at h; cases h
        | ok bs =>
          simp only [hr, Except.ok.injEq] at h
          rw [← h]
          exact .cons ha (ih.1 hr)
    · intro h
      cases h with
      | cons h1 h2 =>
        rw [h1]
        simp only [ih.2 h2]

/-! ## lines -/

theorem Spec.ShowsAll.nil {env : Env} {sa : Bool} : ShowsAll env sa [] [] := ⟨[], rfl, .nil⟩

theorem Spec.ShowsAll.append {env : Env} {sa : Bool} {l1 l2 : List TLine} {e1 e2 : List TreeEntry}
    (h1 : ShowsAll env sa l1 e1) (h2 : ShowsAll env sa l2 e2) :
    ShowsAll env sa (l1 ++ l2) (e1 ++ e2) := by
  obtain ⟨b1, rfl, h1⟩ := h1
  obtain ⟨b2, rfl, h2⟩ := h2
  exact ⟨b1 ++ b2, by simp, List.rel_append h1 h2⟩

theorem Spec.ShowsAll.single {env : Env} {sa : Bool} {l : List TLine} {e : TreeEntry}
    (h : ShowsEntry env sa l e) : ShowsAll env sa l [e] :=
  ⟨[l], by simp, .cons h .nil⟩

theorem renderAttr_ok {env : Env} {d : Nat} {a : Str × Val} {l : TLine}
    (h : renderAttr env (spaces d) a.1 a.2 = .ok l) : ShowsAttr env d l a := by
  obtain ⟨n, v⟩ := a
  unfold renderAttr at h
  cases hd : decodeByteString env v with
  | error e => rw [hd] at h; cases h
  | ok r =>
    rw [hd] at h
    simp only [bind, Except.bind, Except.ok.injEq] at h
    subst h
    refine ⟨rfl, _, ?_, rfl⟩
    cases v with
    | str s => injection hd with hd; subst hd; exact .inl ⟨s, .inl rfl, rfl⟩
    | bytes b =>
      simp only [decodeByteString] at hd
      split at hd
      · rename_i s hs
        injection hd with hd; subst hd
        exact .inl ⟨s, .inr ⟨b, rfl, hs⟩, rfl⟩
      · cases hd
    | arrO xs =>
      rw [decode_objects] at hd
      injection hd with hd
      by_cases hx : xs = []
      · rw [if_pos hx] at hd
        subst hd; subst hx
        exact .inr (.inr (.inl ⟨.inl rfl, rfl⟩))
      · rw [if_neg hx] at hd
        subst hd
        exact .inr (.inl ⟨xs, .inr ⟨hx, .inl rfl⟩, rfl⟩)
    | arrS xs =>
      rcases (decode_array env xs r).1 hd with ⟨rfl, rfl⟩ | ⟨hx, ss, rfl, hs⟩
      · exact .inr (.inr (.inl ⟨.inr rfl, rfl⟩))
      · refine .inr (.inl ⟨ss, .inr ⟨?_, .inr ⟨xs, rfl, ?_⟩⟩, rfl⟩)
        · rintro rfl
          cases hs
          exact hx rfl
        · exact hs.imp fun b s h => (asciiDecode_spec b s).1 h
    | list xs =>
      injection hd with hd
      subst hd
      exact .inr (.inl ⟨xs, .inl rfl, rfl⟩)
    | _ =>
      injection hd with hd
      subst hd
      exact .inr (.inr (.inr ⟨⟨fun _ => by simp, fun _ => by simp, fun _ => by simp⟩,
        fun _ => by simp, fun _ => by simp, rfl⟩))

theorem mapE_attr_ok {env : Env} {d : Nat} {as : List (Str × Val)} {ls : List TLine}
    (h : mapE (fun a => renderAttr env (spaces d) a.1 a.2) as = .ok ls) :
    List.Forall₂ (ShowsAttr env d) ls as :=
  (mapE_ok.1 h).imp fun _ _ h => renderAttr_ok h

theorem ite_attr_ok {env : Env} {sa : Bool} {d : Nat} {as : List (Str × Val)} {ls : List TLine}
    (h : (if sa = true then mapE (fun a => renderAttr env (spaces d) a.1 a.2) as
      else .ok []) = .ok ls) :
    if sa then List.Forall₂ (ShowsAttr env d) ls as else ls = [] := by
  cases sa with
  | true => exact mapE_attr_ok h
  | false => injection h with h; exact h.symm

theorem spaces_succ (d : Nat) : spaces d ++ s%"  " = spaces (d + 1) := by
  simp only [spaces, Nat.mul_add, Nat.mul_one, List.replicate_add]
  rfl

theorem externalAttrs_eq (k : LinkKind) : externalAttrs k = location k := by
  cases k <;> rfl

/-- The text for NX_class. -/
theorem nxClassText_ok {env : Env} {attrs : List (Str × Val)} {t : Str}
    (h : nxClassText env attrs = .ok t) : ClassTail env attrs t := by
  unfold nxClassText at h
  rw [attrGet_eq] at h
  cases hv : attrs.lookup s%"NX_class" with
  | none => rw [hv] at h; injection h with h; exact .inl ⟨.inl hv, h.symm⟩
  | some v =>
    rw [hv] at h
    cases v with
    | str s =>
      cases s with
      | nil => injection h with h; exact .inl ⟨.inr hv, h.symm⟩
      | cons c s =>
        injection h with h
        exact .inr ⟨_, _, hv, by simp, .inl (.inl rfl), h.symm⟩
    | bytes b =>
      simp only [decodeByteString] at h
      split at h
      · split at h
        · cases h
        · rename_i s hs
          split at hs
          · rename_i t ht
            injection hs with hs; injection hs with hs; subst hs
            injection h with h
            exact .inr ⟨_, _, hv, by simp, .inl (.inr ⟨b, rfl, ht⟩), h.symm⟩
          · cases hs
        · cases h
      · cases h
    | arrO xs =>
      cases xs with
      | nil => cases h
      | cons x xs =>
        injection h with h
        exact .inr ⟨_, _, hv, by simp, .inr (.inl ⟨xs, rfl⟩), h.symm⟩
    | arrS xs =>
      cases xs with
      | nil => cases h
      | cons x xs =>
        simp only [decodeByteString] at h
        split at h
        · cases h
        · rename_i s hs
          split at hs
          · rename_i t ht
            injection hs with hs; injection hs with hs; subst hs
            injection h with h
            exact .inr ⟨_, _, hv, by simp, .inr (.inr ⟨x, xs, rfl, ht⟩), h.symm⟩
          · cases hs
        · cases h
    | _ => cases h

theorem renderHead_ok {c : TreeCfg} {attrs : List (Str × Val)} {name : Str} {d : Nat}
    {kind : LinkKind} {ls : List TLine} (h : renderHead c attrs name (spaces d) kind = .ok ls) :
    ShowsEntry c.env c.showAttrs ls ⟨d, name, .group attrs, attrs ++ location kind⟩ := by
  unfold renderHead at h
  cases hc : nxClassText c.env attrs with
  | error e => rw [hc] at h; cases h
  | ok t =>
    rw [hc] at h
    simp only [bind, Except.bind] at h
    split at h
    · cases h
    · rename_i as ha
      injection h with h
      subst h
      rw [renderAttrs, externalAttrs_eq] at ha
      exact ⟨_, [], as, rfl, rfl, ⟨t, rfl, nxClassText_ok hc⟩, by simp, by simp, ite_attr_ok ha⟩

theorem targetText_of_decode {env : Env} {v d : Val} (h : decodeByteString env v = .ok d) :
    TargetText env v (pyStr env d) := by
  refine ⟨?_, d, h, rfl⟩
  rintro s (rfl | ⟨b, rfl, hb⟩)
  · injection h with h; rw [← h]; rfl
  · simp only [decodeByteString, hb] at h
    injection h with h; rw [← h]; rfl

theorem renderLinked_ok {c : TreeCfg} {attrs : List (Str × Val)} {name : Str} {d : Nat}
    {ls : List TLine} (h : renderLinked c attrs name (spaces d) = .ok ls) :
    ∃ hd, ls = [hd] ∧ hd.tag = .header ∧ ShowsHeader c.env hd.text
      ⟨d, name, .link ((attrs.lookup s%"target").getD .none), []⟩ := by
  unfold renderLinked at h
  rw [attrGet_eq] at h
  cases hv : attrs.lookup s%"target" with
  | none => rw [hv] at h; cases h
  | some v =>
    rw [hv] at h
    simp only [bind, Except.bind] at h
    split at h
    · cases h
    · rename_i t ht
      injection h with h
      subst h
      refine ⟨_, rfl, rfl, s%" --> " ++ pyStr c.env t, ?_, _, targetText_of_decode ht, rfl⟩
      simp only [List.append_assoc]

theorem renderLinked_shows {c : TreeCfg} {attrs : List (Str × Val)} {name : Str} {d : Nat}
    {ls as : List TLine} {extra : List (Str × Val)}
    (h : renderLinked c attrs name (spaces d) = .ok ls)
    (ha : if c.showAttrs then List.Forall₂ (ShowsAttr c.env d) as extra else as = []) :
    ShowsEntry c.env c.showAttrs (ls ++ as)
      ⟨d, name, .link ((attrs.lookup s%"target").getD .none), extra⟩ := by
  obtain ⟨hd, rfl, ht, hs⟩ := renderLinked_ok h
  exact ⟨hd, [], as, rfl, ht, hs, by simp, by simp, ha⟩

theorem renderDsType_ok {c : TreeCfg} {di : DataInfo} {ty sh : Str} (h : renderDsType c di = .ok ty)
    (hs : renderDsShape di = .ok sh) :
    shownType c.isNeXus di = ty ++ (if di.kind = .other then sh else []) := by
  obtain ⟨v, k, dt, shape, sizes, text, cell, first⟩ := di
  unfold renderDsType at h
  unfold renderDsShape at hs
  simp only at h hs
  unfold shownType asciiUpper at *
  cases k with
  | S =>
    cases shape with
    | none => cases hs
    | some l =>
      cases l with
      | nil =>
        simp only at h
        injection h with h
        subst h
        cases c.isNeXus <;> simp
      | cons n l =>
        simp only at h
        injection h with h
        subst h
        cases c.isNeXus <;> simp
  | O =>
    simp only at h
    injection h with h
    subst h
    cases c.isNeXus <;> simp
  | other =>
    simp only at h
    injection h with h
    subst h
    split at hs
    · cases hs
    · injection hs with hs
      subst hs
      cases c.isNeXus <;> simp
    · injection hs with hs
      subst hs
      cases c.isNeXus <;> simp

theorem renderData_ok {c : TreeCfg} {di : DataInfo} {name : Str} {d : Nat} {ls : List TLine}
    (h : renderData c di name (spaces d) = .ok ls) :
    ∃ hd arr, ls = hd :: arr ∧ hd.tag = .header ∧
      (∃ s, hd.text = spaces d ++ name ++ (':' :: shownType c.isNeXus di ++ s%" = " ++ s)) ∧
      arr.length ≤ 1 ∧
      ∀ l ∈ arr, l.tag = .array ∧ ∃ s, l.text = spaces d ++ s%"  __array = " ++ s := by
  unfold renderData at h
  simp only [bind, Except.bind] at h
  split at h
  · cases h
  rename_i ty hty
  split at h
  · cases h
  rename_i sh hsh
  rw [renderDsType_ok hty hsh]
  split at h
  · rename_i hk
    rw [if_neg (by rw [hk]; decide)]
    split at h
    · cases h
    · rename_i v hv
      injection h with h
      subst h
      refine ⟨_, [], rfl, rfl, ?_, by simp, by simp⟩
      have : ∃ s, v = s%" = " ++ s ∨ v = s%" = [" ++ s := by
        unfold renderStrings at hv
        simp only [bind, Except.bind] at hv
        split at hv
        · split at hv
          · cases hv
          · split at hv
            · cases hv
            · injection hv with hv
              subst hv
              split
              · exact ⟨_, .inr rfl⟩
              · exact ⟨_, .inl rfl⟩
        · split at hv
          · cases hv
          · injection hv with hv
            subst hv
            exact ⟨_, .inl rfl⟩
      obtain ⟨s, rfl | rfl⟩ := this
      · exact ⟨s, by simp⟩
      · exact ⟨'[' :: s, by simp⟩
  · rename_i hk
    rw [if_neg (by rw [hk]; decide)]
    injection h with h
    subst h
    exact ⟨_, [], rfl, rfl, ⟨di.text, by simp⟩, by simp, by simp⟩
  · rename_i hk _
    rw [if_pos hk]
    injection h with h
    subst h
    exact ⟨_, [], rfl, rfl, ⟨di.first, by simp⟩, by simp, by simp⟩
  · cases h
  · rename_i hk _
    rw [if_pos hk]
    split at h
    · split at h
      · injection h with h
        subst h
        exact ⟨_, [], rfl, rfl, ⟨_, by simp; rfl⟩, by simp, by simp⟩
      · injection h with h
        subst h
        refine ⟨_, [_], rfl, rfl, ⟨s%"__array", by simp⟩, by simp, ?_⟩
        intro l hl
        rw [List.mem_singleton] at hl
        subst hl
        exact ⟨rfl, _, rfl⟩
    · injection h with h
      subst h
      exact ⟨_, [], rfl, rfl, ⟨s%"[ ... ]", by simp⟩, by simp, by simp⟩

/-! ## links by attribute -/

theorem isNeXusLink_ok {env : Env} {attrs : List (Str × Val)} {oname : Str} {b : Bool}
    (h : isNeXusLink env attrs oname = .ok b) : b = true ↔ NexusLink env attrs oname := by
  unfold isNeXusLink at h
  rw [attrGet_eq] at h
  unfold NexusLink
  cases hv : attrs.lookup s%"target" with
  | none =>
    rw [hv] at h
    injection h with h
    simp [← h]
  | some v =>
    rw [hv] at h
    simp only [Option.getD_some, bind, Except.bind] at h
    simp only [Option.some.injEq, exists_eq_left']
    cases v with
    | str s =>
      simp only [decodeByteString, pyLen] at h
      cases s with
      | nil => injection h with h; simp [← h, TextOf]
      | cons c s =>
        simp only [List.length_cons] at h
        injection h with h
        simp [← h, TextOf]
    | bytes x =>
      simp only [decodeByteString] at h
      cases hx : env.dec x with
      | none => rw [hx] at h; cases h
      | some s =>
        rw [hx] at h
        simp only [pyLen] at h
        cases s with
        | nil => injection h with h; simp [← h, TextOf, hx]
        | cons c s =>
          simp only [List.length_cons] at h
          injection h with h
          simp [← h, TextOf, hx]
    | arrO xs =>
      rw [decode_objects] at h
      cases xs with
      | nil => cases h
      | cons x xs => injection h with h; simp [← h, TextOf]
    | arrS xs =>
      cases hd : decodeByteString env (.arrS xs) with
      | error e => rw [hd] at h; cases h
      | ok r =>
        rw [hd] at h
        rcases (decode_array env xs r).1 hd with ⟨rfl, rfl⟩ | ⟨hx, ss, rfl, hs⟩
        · cases h
        · cases hs with
          | nil => exact absurd rfl hx
          | cons _ _ => injection h with h; simp [← h, TextOf]
    | arrNum xs =>
      match xs, h with
      | [], h => injection h with h; simp [← h]
      | [x], h => injection h with h; simp [← h, TextOf]
      | x :: y :: zs, h => cases h
    | list xs =>
      cases xs with
      | nil => injection h with h; simp [← h]
      | cons x xs => injection h with h; simp [← h, TextOf]
    | _ => cases h

theorem renderAsLink_ok {c : TreeCfg} {attrs : List (Str × Val)} {oname : Str} {b : Bool}
    (h : renderAsLink c oname attrs = .ok b) :
    b = true ↔ c.isNeXus = true ∧ AnyTarget c.env attrs oname := by
  unfold renderAsLink at h
  rw [attrGet_eq] at h
  unfold AnyTarget
  cases hn : c.isNeXus with
  | false => rw [hn] at h; injection h with h; simp [← h]
  | true =>
    rw [hn] at h
    simp only [if_true] at h
    cases hv : attrs.lookup s%"target" with
    | none =>
      rw [hv] at h
      injection h with h
      simp [← h]
    | some v =>
      rw [hv] at h
      simp only [bind, Except.bind] at h
      simp only [Option.some.injEq, exists_eq_left', true_and]
      cases v with
      | str s => injection h with h; simp [← h, TextOf]
      | bytes x =>
        simp only [decodeByteString] at h
        cases hx : c.env.dec x with
        | none => rw [hx] at h; cases h
        | some s => rw [hx] at h; injection h with h; simp [← h, TextOf, hx]
      | arrO xs =>
        rw [decode_objects] at h
        cases xs with
        | nil => injection h with h; simp [← h, TextOf]
        | cons x xs => injection h with h; simp [← h, TextOf]
      | arrS xs =>
        cases hd : decodeByteString c.env (.arrS xs) with
        | error e => rw [hd] at h; cases h
        | ok r =>
          rw [hd] at h
          rcases (decode_array c.env xs r).1 hd with ⟨rfl, rfl⟩ | ⟨hx, ss, rfl, hs⟩
          · injection h with h; simp [← h, TextOf]
          · injection h with h; simp [← h, TextOf]
      | arrNum xs =>
        match xs, h with
        | [], h => cases h
        | [x], h => injection h with h; simp [← h, TextOf]
        | x :: y :: zs, h => cases h
      | _ => injection h with h; simp [← h, TextOf]

/-! ## the hierarchy -/

/-- What is shown for a member. -/
def Renders (env : Env) (sa : Bool) (m : Member) (o : Outlined) : Prop :=
  m.name = o.name ∧ ∀ ls, m.out = .ok ls → m.isGroup = o.isGroup ∧ ShowsAll env sa ls o.entries

theorem concat_shows {env : Env} {sa : Bool} {ms : List Member} {os : List Outlined}
    (h : List.Forall₂ (Renders env sa) ms os) {outs : List (List TLine)}
    (ho : ms.map Member.out = outs.map Except.ok) :
    ShowsAll env sa outs.flatten (os.flatMap Outlined.entries) := by
  induction h generalizing outs with
  | nil =>
    cases outs with
    | nil => exact .nil
    | cons _ _ => cases ho
  | @cons m o ms os hmo _ ih =>
    cases outs with
    | nil => cases ho
    | cons l outs =>
      simp only [List.map_cons, List.cons.injEq] at ho
      exact (hmo.2 l ho.1).2.append (ih ho.2)

theorem assemble_shows {env : Env} {sa : Bool} {ms : List Member} {os : List Outlined}
    (h : List.Forall₂ (Renders env sa) ms os) {ls : List TLine} (hl : assemble ms = .ok ls) :
    ShowsAll env sa ls (arrange os) := by
  unfold assemble at hl
  obtain ⟨outs, ho, rfl⟩ := concatE_ok.1 hl
  have hs := forall₂_sortBy (le := fun a b => strLe a.name b.name)
    (le' := fun a b => strLe a.name b.name) (fun a a' b b' h h' => by
    simp only [h.1, h'.1]) h
  -- every member is shown
  have hok : ∀ m ∈ sortBy (fun a b => strLe a.name b.name) ms, ∃ l, m.out = .ok l := by
    intro m hm
    have : m.out ∈ outs.map Except.ok := by
      rw [← ho, List.mem_append]
      cases hg : m.isGroup with
      | true => exact .inr (List.mem_map.2 ⟨m, List.mem_filter.2 ⟨hm, hg⟩, rfl⟩)
      | false => exact .inl (List.mem_map.2 ⟨m, List.mem_filter.2 ⟨hm, by simp [hg]⟩, rfl⟩)
    obtain ⟨l, _, hl⟩ := List.mem_map.1 this
    exact ⟨l, hl.symm⟩
  have hs' : List.Forall₂ (fun m o => Renders env sa m o ∧ m.isGroup = o.isGroup)
      (sortBy (fun a b => strLe a.name b.name) ms) (sortBy (fun a b => strLe a.name b.name) os) := by
    rw [List.forall₂_iff_zip] at hs ⊢
    refine ⟨hs.1, fun {a b} hab => ⟨hs.2 hab, ?_⟩⟩
    obtain ⟨l, hl⟩ := hok a (List.of_mem_zip hab).1
    exact ((hs.2 hab).2 l hl).1
  obtain ⟨o1, o2, rfl, h1, h2⟩ := List.append_eq_map_iff.1 ho
  rw [List.flatten_append]
  refine .append ?_ ?_
  · exact concat_shows ((forall₂_filter (fun m o h => by rw [h.2]) hs').imp fun _ _ h => h.1) h1.symm
  · exact concat_shows ((forall₂_filter (fun m o h => h.2) hs').imp fun _ _ h => h.1) h2.symm

theorem renderUnfollowed_ok {c : TreeCfg} {link : Str} {kind : LinkKind} {d : Nat}
    {ls : List TLine} (h : renderUnfollowed c link kind (spaces d) = .ok ls) :
    ShowsEntry c.env c.showAttrs ls (unfollowedEntry (d + 1) link kind) := by
  have miss : ∀ k : LinkKind, (do
      let a ← renderAttrs c (spaces d ++ s%"  ") (externalAttrs k) []
      Except.ok (⟨.header, spaces d ++ s%"  " ++ link ++ s%": missing external file"⟩ :: a) :
        Except PyErr (List TLine)) = .ok ls →
      ShowsEntry c.env c.showAttrs ls ⟨d + 1, link, .missing, location k⟩ := by
    intro k h
    simp only [bind, Except.bind, spaces_succ, externalAttrs_eq] at h
    split at h
    · cases h
    · rename_i as ha
      injection h with h
      subst h
      rw [renderAttrs, List.append_nil] at ha
      exact ⟨_, [], as, rfl, rfl, ⟨_, rfl, rfl⟩, by simp, by simp, ite_attr_ok ha⟩
  cases kind with
  | soft path =>
    injection h with h
    subst h
    refine ⟨_, [], [], rfl, rfl, ⟨s%": --> " ++ path, ?_, rfl⟩, by simp, by simp, ?_⟩
    · show spaces d ++ s%"  " ++ link ++ s%": --> " ++ path = _
      rw [spaces_succ]
      simp only [List.append_assoc]
      rfl
    · cases c.showAttrs with
      | true => exact .nil
      | false => rfl
  | hard => exact miss .hard h
  | external file path ex => exact miss (.external file path ex) h

mutual
theorem renderMember_shows (c : TreeCfg) (d : Nat) (link : Str) (kind : LinkKind) :
    ∀ n : Node, Renders c.env c.showAttrs (renderMember c link kind (spaces d) n)
      (outlineMember c.env c.isNeXus (d + 1) link kind n)
  | .group oname attrs kids => by
    have ih := renderMembers_shows c (d + 1) kids
    rw [renderMember, outlineMember]
    cases hb : isNeXusLink c.env attrs oname with
    | error e => exact ⟨by by_cases hx : NexusLink c.env attrs oname <;> simp [hx], fun ls h => by cases h⟩
    | ok b =>
      have hb' := isNeXusLink_ok hb
      cases b with
      | true =>
        rw [if_pos (hb'.1 rfl)]
        refine ⟨rfl, fun ls h => ⟨rfl, .single ?_⟩⟩
        simp only [spaces_succ] at h
        have := renderLinked_shows (as := []) (extra := []) h (by
          cases c.showAttrs with
          | true => exact .nil
          | false => rfl)
        rwa [List.append_nil] at this
      | false =>
        rw [if_neg (fun h => by cases hb'.2 h)]
        refine ⟨rfl, fun ls h => ⟨rfl, ?_⟩⟩
        simp only [spaces_succ, bind, Except.bind] at h
        split at h
        · cases h
        rename_i hd hhd
        split at h
        · cases h
        rename_i m hm
        injection h with h
        subst h
        exact (ShowsAll.single (renderHead_ok hhd)).append (assemble_shows ih hm)
  | .dataset oname attrs di => by
    rw [renderMember, outlineMember]
    cases hb : isNeXusLink c.env attrs oname with
    | error e => exact ⟨by
        by_cases hx : NexusLink c.env attrs oname <;>
          by_cases hy : c.isNeXus = true ∧ AnyTarget c.env attrs oname <;> simp [hx, hy], fun ls h => by cases h⟩
    | ok b =>
      have hb' := isNeXusLink_ok hb
      cases b with
      | true =>
        rw [if_pos (hb'.1 rfl)]
        refine ⟨rfl, fun ls h => ⟨rfl, .single ?_⟩⟩
        simp only [spaces_succ] at h
        have := renderLinked_shows (as := []) (extra := []) h (by
          cases c.showAttrs with
          | true => exact .nil
          | false => rfl)
        rwa [List.append_nil] at this
      | false =>
        rw [if_neg (fun h => by cases hb'.2 h)]
        refine ⟨by by_cases hy : c.isNeXus = true ∧ AnyTarget c.env attrs oname <;> simp [hy],
          fun ls h => ⟨by by_cases hy : c.isNeXus = true ∧ AnyTarget c.env attrs oname <;> simp [hy], ?_⟩⟩
        simp only [spaces_succ, bind, Except.bind, renderDataset, externalAttrs_eq] at h
        split at h
        · cases h
        rename_i s hs
        split at h
        · cases h
        rename_i a ha
        rw [renderAttrs, List.append_nil] at ha
        injection h with h
        subst h
        split at hs
        · cases hs
        rename_i r hr
        have hr' := renderAsLink_ok hr
        cases r with
        | true =>
          rw [if_pos (hr'.1 rfl)]
          exact .single (renderLinked_shows hs (ite_attr_ok ha))
        | false =>
          rw [if_neg (fun h => by cases hr'.2 h)]
          simp only [Bool.false_eq_true, if_false] at hs
          split at hs
          · cases hs
          rename_i x hx
          split at hs
          · cases hs
          rename_i y hy
          injection hs with hs
          subst hs
          obtain ⟨hd, arr, rfl, ht, ⟨t, htx⟩, hlen, harr⟩ := renderData_ok hx
          rw [renderAttrs, List.append_nil] at hy
          refine .single ⟨hd, arr, y ++ a, by simp, ht, ⟨_, htx, t, rfl⟩, hlen,
            fun l hl => ⟨(harr l hl).1, (harr l hl).2, _, _, rfl⟩, ?_⟩
          have h1 := ite_attr_ok hy
          have h2 := ite_attr_ok ha
          cases hsa : c.showAttrs with
          | true =>
            rw [hsa] at h1 h2
            exact List.rel_append h1 h2
          | false =>
            rw [hsa] at h1 h2
            simp only [Bool.false_eq_true, if_false] at h1 h2 ⊢
            rw [h1, h2]
            rfl
  | .datatype oname attrs => by
    rw [renderMember, outlineMember]
    cases hb : isNeXusLink c.env attrs oname with
    | error e => exact ⟨rfl, fun ls h => by cases h⟩
    | ok b =>
      cases b with
      | true =>
        refine ⟨rfl, fun ls h => ⟨rfl, .single ?_⟩⟩
        simp only [spaces_succ] at h
        have := renderLinked_shows (as := []) (extra := []) h (by
          cases c.showAttrs with
          | true => exact .nil
          | false => rfl)
        rwa [List.append_nil] at this
      | false => exact ⟨rfl, fun ls h => by cases h⟩
theorem renderMembers_shows (c : TreeCfg) (d : Nat) :
    ∀ kids : Kids, List.Forall₂ (Renders c.env c.showAttrs) (renderMembers c (spaces d) kids)
      (outlineMembers c.env c.isNeXus (d + 1) kids)
  | .nil => .nil
  | .cons link kind n rest => by
    rw [renderMembers, outlineMembers]
    refine .cons ?_ (renderMembers_shows c d rest)
    by_cases hf : followed kind = true
    · rw [if_pos hf, if_pos hf]
      exact renderMember_shows c d link kind n
    · rw [if_neg hf, if_neg hf]
      exact ⟨rfl, fun ls h => ⟨rfl, .single (renderUnfollowed_ok h)⟩⟩
  | .broken link kind rest => by
    rw [renderMembers, outlineMembers]
    exact .cons ⟨rfl, fun ls h => ⟨rfl, .single (renderUnfollowed_ok h)⟩⟩
      (renderMembers_shows c d rest)
end

/-- The report shows the file and all entries of its outline, in this order, and nothing else. -/
theorem tree_shows_all (c : TreeCfg) (fname : Str) (f : H5File) (ls : List TLine)
    (h : renderFile c fname f = .ok ls) :
    ShowsAll c.env c.showAttrs ls (outlineFile c.env c.isNeXus
      (if c.isNeXus then fname ++ s%" : NeXus data file" else fname) f) := by
  unfold renderFile at h
  simp only [bind, Except.bind] at h
  split at h
  · cases h
  rename_i hd hhd
  split at h
  · cases h
  rename_i m hm
  injection h with h
  subst h
  have h1 := renderHead_ok (d := 0) hhd
  rw [show location .hard = [] from rfl, List.append_nil] at h1
  exact (ShowsAll.single h1).append (assemble_shows (renderMembers_shows c 0 f.kids) hm)

end Punx

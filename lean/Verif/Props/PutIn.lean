import Verif.Props.NxdlSchema3
import Verif.Spec.PutIn

/-!
# C80: what comes of putting types in their places
-/

namespace Punx
open Spec

theorem restricted_iff {i i' : SInfo} {r : SRef} : Restricted i r i' ↔ i' = i.restrict r := by
  cases r with
  | simple s => simp [Restricted, SInfo.restrict]
  | other ks => simp [Restricted, SInfo.restrict]

theorem copied_iff {cs ds : List SObj} :
    Copied cs ds ↔ ds = cs.filter (fun c => !c.isGroupGroup) := by
  constructor
  · intro h
    induction h with
    | nil => rfl
    | @skip c cs ds h1 h2 _ ih =>
      rw [List.filter_cons_of_neg, ih]
      rw [isGroupGroup_iff]
      exact fun h => h ⟨h1, h2⟩
    | @copy c cs ds h _ ih => rw [List.filter_cons_of_pos (p := fun c : SObj => !c.isGroupGroup) ((isGroupGroup_iff c).2 h), ih]
  · rintro rfl
    induction cs with
    | nil => exact .nil
    | cons c cs ih =>
      by_cases h : (!c.isGroupGroup) = true
      · rw [List.filter_cons_of_pos (p := fun c : SObj => !c.isGroupGroup) h]
        exact .copy ((isGroupGroup_iff c).1 h) ih
      · rw [List.filter_cons_of_neg (p := fun c : SObj => !c.isGroupGroup) h]
        rw [isGroupGroup_iff, not_not] at h
        exact .skip h.1 h.2 ih

theorem no_type {schema : Dict (Option Str) SRef} {k : Option Str} :
    Dict.get? schema k = none ↔ ∀ r, (k, r) ∉ schema := by
  rw [Dict.get?_eq_none]
  simp [Dict.keys]

theorem putInAll_of {schema : Dict (Option Str) SRef} {f : SObj → Except PyErr SObj}
    (hf : ∀ o o', f o = .ok o' → PutIn schema o o') : ∀ {l l' : List SObj},
    l.mapM f = .ok l' → PutInAll schema l l'
  | [], l', h => by
    cases h
    exact .nil
  | o :: l, l', h => by
    rw [List.mapM_cons] at h
    cases ho : f o with
    | error e => rw [ho] at h; cases h
    | ok o' =>
      rw [ho] at h
      cases hl : l.mapM f with
      | error e => rw [hl] at h; cases h
      | ok l'' =>
        rw [hl] at h
        cases h
        exact .cons (hf o o' ho) (putInAll_of hf hl)

theorem putIn_of {schema : Dict (Option Str) SRef} : ∀ {fuel : Nat} {o o' : SObj},
    substitute schema fuel o = .ok o' → PutIn schema o o'
  | 0, o, o', h => by
    rw [substitute] at h
    cases h
  | fuel + 1, o, o', h => by
    rcases substitute_cases schema o with hn | ⟨h1, r, h2⟩ | ⟨k, r, h1, h2, h3⟩ | ⟨k, r, h1, h2, h3⟩
    · rw [substitute_none hn] at h
      cases h
      exact .same (no_type.1 hn)
    · rw [substitute_unnamed h1 h2] at h
      cases h
    · rw [substitute_attr h1 h2 h3] at h
      cases h
      obtain ⟨kind, name, key, info, kids⟩ := o
      simp only [SObj.kind, SObj.key] at h1 h2
      subst h1 h2
      exact .attr h3 (restricted_iff.2 rfl)
    · rw [substitute_parts h1 h2 h3] at h
      cases hm : (partsOf o r).mapM (substitute schema fuel) with
      | error e => rw [hm] at h; cases h
      | ok ks =>
        rw [hm] at h
        cases h
        obtain ⟨kind, name, key, info, kids⟩ := o
        simp only [SObj.kind, SObj.key] at h1 h2
        subst h2
        exact .parts h1 h3 (restricted_iff.2 rfl) (copied_iff.2 rfl) (putInAll_of (fun _ _ => putIn_of) hm)

mutual
theorem Spec.PutIn.fuel {schema : Dict (Option Str) SRef} : ∀ {o o' : SObj}, PutIn schema o o' →
    ∃ fuel, substitute schema fuel o = .ok o'
  | _, _, .same h => ⟨1, substitute_none (no_type.2 h) 0⟩
  | _, _, .attr h1 h2 => by
    rw [restricted_iff] at h2
    subst h2
    exact ⟨1, substitute_attr rfl rfl h1 0⟩
  | _, _, .parts (kind := kind) (name := name) (k := k) (info := info) (kids := kids) (kids' := kids') (r := r) h1 h2 h3 h4 h5 => by
    rw [restricted_iff] at h3
    rw [copied_iff] at h4
    subst h3 h4
    obtain ⟨fuel, hf⟩ := PutInAll.fuel h5
    refine ⟨fuel + 1, ?_⟩
    rw [substitute_parts (o := .mk kind name (some k) info kids) h1 rfl h2]
    simp only [partsOf, SObj.kids]
    rw [hf]
    rfl

theorem Spec.PutInAll.fuel {schema : Dict (Option Str) SRef} : ∀ {l l' : List SObj}, PutInAll schema l l' →
    ∃ fuel, l.mapM (substitute schema fuel) = .ok l'
  | _, _, .nil => ⟨0, rfl⟩
  | _, _, .cons (o := o) (o' := o') (os := os) (os' := os') h1 h2 => by
    obtain ⟨f1, hf1⟩ := PutIn.fuel h1
    obtain ⟨f2, hf2⟩ := PutInAll.fuel h2
    refine ⟨max f1 f2, ?_⟩
    rw [List.mapM_cons, substitute_mono_le (Nat.le_max_left _ _) hf1,
      mapM_mono (fun c _ b hb => substitute_mono_le (Nat.le_max_right f1 f2) hb) hf2]
    rfl
end

/-- **C80.** With enough stack, exactly this comes of an object. -/
theorem substitute_iff {schema : Dict (Option Str) SRef} {o o' : SObj} :
    (∃ fuel, substitute schema fuel o = .ok o') ↔ PutIn schema o o' :=
  ⟨fun ⟨_, h⟩ => putIn_of h, PutIn.fuel⟩

/-- **C80.** There is one result at most, however much stack there is. -/
theorem putIn_unique {schema : Dict (Option Str) SRef} {o a b : SObj} (ha : PutIn schema o a)
    (hb : PutIn schema o b) : a = b := by
  obtain ⟨f, hf⟩ := ha.fuel
  obtain ⟨g, hg⟩ := hb.fuel
  have h1 := substitute_mono_le (Nat.le_max_left f g) hf
  rw [substitute_mono_le (Nat.le_max_right f g) hg] at h1
  cases h1
  rfl

/-- **C80.** The definition element: the only element of the schema itself, with its own children and all
children of its type, which have their types put in. -/
theorem definition_element_iff {db : SchemaDb} {root : XsNode} {d : SObj} :
    (∃ fuel, definitionElement fuel db root = .ok d) ↔
      ∃ n kind name key info kids kids' t r types, root.select s%"element" = [n] ∧
        Dict.get? db.elems n.line = some (.mk kind name key info kids) ∧
        Dict.get? n.attrib s%"type" = some t ∧ db.schema = some types ∧
        Dict.get? types (some (stripNs t)) = some r ∧
        PutInAll types (kids ++ r.kids) kids' ∧ d = .mk kind name key info kids' := by
  unfold definitionElement
  constructor
  · rintro ⟨fuel, h⟩
    split at h
    · rename_i n hn
      unfold atLine at h
      cases ho : Dict.get? db.elems n.line with
      | none => rw [ho] at h; cases h
      | some o =>
        rw [ho] at h
        simp only [bind, Except.bind] at h
        cases ht : Dict.get? n.attrib s%"type" with
        | none => rw [ht] at h; cases h
        | some t =>
          rw [ht] at h
          simp only at h
          unfold SchemaDb.ref at h
          cases hs : db.schema with
          | none => rw [hs] at h; cases h
          | some types =>
            rw [hs] at h
            simp only [Option.bind, Option.getD] at h
            cases hr : Dict.get? types (some (stripNs t)) with
            | none => rw [hr] at h; cases h
            | some r =>
              rw [hr] at h
              simp only at h
              cases hm : (o.kids ++ r.kids).mapM (substitute types fuel) with
              | error e => rw [hm] at h; cases h
              | ok ks =>
                rw [hm] at h
                cases h
                obtain ⟨kind, name, key, info, kids⟩ := o
                exact ⟨n, kind, name, key, info, kids, ks, t, r, types, hn, ho, ht, rfl, hr,
                  putInAll_of (fun _ _ => putIn_of) hm, rfl⟩
    · cases h
  · rintro ⟨n, kind, name, key, info, kids, kids', t, r, types, hn, ho, ht, hs, hr, hp, rfl⟩
    obtain ⟨fuel, hf⟩ := hp.fuel
    refine ⟨fuel, ?_⟩
    rw [hn]
    simp only [atLine, ho, ht, SchemaDb.ref, hs, Option.bind, Option.getD, hr, bind, Except.bind, SObj.kids]
    rw [hf]
    rfl

/-- A type with an attribute of a simple type, an element of a type that is not there, and a
reference to the group of all elements. -/
def fieldTypes : Dict (Option Str) SRef :=
  [(some s%"nameType", .simple ⟨some s%"token", [s%"[a-z]+"], some 63⟩),
   (some s%"fieldType", .other
    [.mk .attribute (some s%"name") (some s%"nameType") { required := true } [],
     .mk .group none (some s%"groupGroup") {} [],
     .mk .element (some s%"doc") (some s%"docType") {} []])]

/-- **C80.** The attribute gets pattern and length, the reference to the group is left out, and an unknown
type stays. -/
theorem put_in_case : PutIn fieldTypes (.mk .element (some s%"field") (some s%"fieldType") {} [])
    (.mk .element (some s%"field") (some s%"__fieldType") {}
      [.mk .attribute (some s%"name") (some s%"__nameType")
        { required := true, patterns := [s%"[a-z]+"], maxLength := some 63 } [],
       .mk .element (some s%"doc") (some s%"docType") {} []]) := by
  refine .parts (by simp) rfl (.inr ⟨_, rfl, rfl⟩)
    (.copy (by simp [SObj.kind]) (.skip rfl rfl (.copy (by simp [SObj.kind]) .nil)))
    (.cons (.attr rfl (.inl ⟨_, rfl, rfl⟩)) (.cons (.same ?_) .nil))
  simp [fieldTypes, SObj.key]

end Punx

import Verif.Props.NxdlSchema2

/-!
# C80: references to types
-/

namespace Punx
open Spec

/-- the parts of an object whose type is known -/
def partsOf (o : SObj) (r : SRef) : List SObj :=
  o.kids ++ r.kids.filter (fun c => !c.isGroupGroup)

theorem isGroupGroup_iff (c : SObj) :
    (!c.isGroupGroup) = true ↔ ¬ (c.kind = .group ∧ c.key = some s%"groupGroup") := by
  rw [SObj.isGroupGroup]
  by_cases h1 : c.kind = .group <;> simp [h1]

theorem part_iff {schema : Dict (Option Str) SRef} {c o : SObj} {k : Str} {r : SRef}
    (hk : o.kind ≠ .attribute) (h1 : o.key = some k) (h2 : Dict.get? schema (some k) = some r) :
    Part schema c o ↔ c ∈ partsOf o r := by
  rw [Part, partsOf, List.mem_append, List.mem_filter, isGroupGroup_iff]
  constructor
  · rintro ⟨_, k', r', h3, h4, h5⟩
    rw [h1] at h3
    injection h3 with h3
    subst h3
    rw [h2] at h4
    injection h4 with h4
    exact h4 ▸ h5
  · exact fun h => ⟨hk, k, r, h1, h2, h⟩

theorem substitute_none {schema : Dict (Option Str) SRef} {o : SObj}
    (h : Dict.get? schema o.key = none) (fuel : Nat) : substitute schema (fuel + 1) o = .ok o := by
  obtain ⟨kind, name, key, info, kids⟩ := o
  rw [substitute]
  simp only [SObj.key] at h
  rw [h]

theorem substitute_attr {schema : Dict (Option Str) SRef} {o : SObj} {k : Str} {r : SRef}
    (hk : o.kind = .attribute) (h1 : o.key = some k) (h2 : Dict.get? schema (some k) = some r)
    (fuel : Nat) : substitute schema (fuel + 1) o =
      .ok (.mk o.kind o.name (some (s%"__" ++ k)) (o.info.restrict r) o.kids) := by
  obtain ⟨kind, name, key, info, kids⟩ := o
  simp only [SObj.kind, SObj.key] at hk h1
  subst hk
  subst h1
  unfold substitute
  simp only [h2]
  rfl

theorem substitute_parts {schema : Dict (Option Str) SRef} {o : SObj} {k : Str} {r : SRef}
    (hk : o.kind ≠ .attribute) (h1 : o.key = some k) (h2 : Dict.get? schema (some k) = some r)
    (fuel : Nat) : substitute schema (fuel + 1) o =
      ((partsOf o r).mapM (substitute schema fuel)).map fun kids =>
        .mk o.kind o.name (some (s%"__" ++ k)) (o.info.restrict r) kids := by
  obtain ⟨kind, name, key, info, kids⟩ := o
  simp only [SObj.kind, SObj.key] at hk h1
  subst h1
  unfold substitute
  simp only [h2, partsOf, SObj.kids]
  cases kind with
  | «attribute» => exact absurd rfl hk
  | element =>
    simp only [bind, Except.bind]
    cases (kids ++ r.kids.filter (fun c => !c.isGroupGroup)).mapM (substitute schema fuel) <;> rfl
  | group =>
    simp only [bind, Except.bind]
    cases (kids ++ r.kids.filter (fun c => !c.isGroupGroup)).mapM (substitute schema fuel) <;> rfl

theorem substitute_unnamed {schema : Dict (Option Str) SRef} {o : SObj} {r : SRef}
    (h1 : o.key = none) (h2 : Dict.get? schema none = some r) (fuel : Nat) :
    substitute schema (fuel + 1) o = .error .typeError := by
  obtain ⟨kind, name, key, info, kids⟩ := o
  simp only [SObj.key] at h1
  subst h1
  unfold substitute
  simp only [h2]

/-- the four cases of a turn -/
theorem substitute_cases (schema : Dict (Option Str) SRef) (o : SObj) :
    Dict.get? schema o.key = none ∨
    (o.key = none ∧ ∃ r, Dict.get? schema none = some r) ∨
    (∃ k r, o.kind = .attribute ∧ o.key = some k ∧ Dict.get? schema (some k) = some r) ∨
    (∃ k r, o.kind ≠ .attribute ∧ o.key = some k ∧ Dict.get? schema (some k) = some r) := by
  cases hg : Dict.get? schema o.key with
  | none => exact .inl rfl
  | some r =>
    right
    cases hk : o.key with
    | none => rw [hk] at hg; exact .inl ⟨rfl, r, hg⟩
    | some k =>
      rw [hk] at hg
      right
      by_cases ha : o.kind = .attribute
      · exact .inl ⟨k, r, ha, rfl, hg⟩
      · exact .inr ⟨k, r, ha, rfl, hg⟩

theorem mapM_mono {α β : Type} {f g : α → Except PyErr β} : ∀ {l : List α} {bs : List β},
    (∀ a ∈ l, ∀ b, f a = .ok b → g a = .ok b) → l.mapM f = .ok bs → l.mapM g = .ok bs
  | [], bs, _, h => h
  | a :: l, bs, hfg, h => by
    rw [List.mapM_cons] at h ⊢
    cases ha : f a with
    | error e => rw [ha] at h; cases h
    | ok b =>
      rw [ha] at h
      cases hl : l.mapM f with
      | error e => rw [hl] at h; cases h
      | ok bs' =>
        rw [hl] at h
        rw [hfg a (by simp) b ha, mapM_mono (fun x hx => hfg x (List.mem_cons_of_mem _ hx)) hl]
        exact h

/-- More room for recursion does not change a result. -/
theorem substitute_mono {schema : Dict (Option Str) SRef} : ∀ {fuel : Nat} {o o' : SObj},
    substitute schema fuel o = .ok o' → substitute schema (fuel + 1) o = .ok o'
  | 0, o, o', h => by
    rw [substitute] at h
    cases h
  | fuel + 1, o, o', h => by
    rcases substitute_cases schema o with hn | ⟨h1, r, h2⟩ | ⟨k, r, h1, h2, h3⟩ | ⟨k, r, h1, h2, h3⟩
    · rw [substitute_none hn] at h ⊢
      exact h
    · rw [substitute_unnamed h1 h2] at h
      cases h
    · rw [substitute_attr h1 h2 h3] at h ⊢
      exact h
    · rw [substitute_parts h1 h2 h3] at h ⊢
      cases hm : (partsOf o r).mapM (substitute schema fuel) with
      | error e => rw [hm] at h; cases h
      | ok ks =>
        rw [hm] at h
        rw [mapM_mono (fun c _ b hb => substitute_mono hb) hm]
        exact h

theorem substitute_mono_le {schema : Dict (Option Str) SRef} {fuel fuel' : Nat} {o o' : SObj}
    (hle : fuel ≤ fuel') (h : substitute schema fuel o = .ok o') :
    substitute schema fuel' o = .ok o' := by
  induction hle with
  | refl => exact h
  | step _ ih => exact substitute_mono ih

theorem exists_fuel {schema : Dict (Option Str) SRef} : ∀ (l : List SObj),
    (∀ c ∈ l, ∃ fuel o', substitute schema fuel c = .ok o') →
    ∃ fuel, ∀ c ∈ l, ∃ o', substitute schema fuel c = .ok o'
  | [], _ => ⟨0, by simp⟩
  | c :: l, h => by
    obtain ⟨f1, o1, h1⟩ := h c (by simp)
    obtain ⟨f2, h2⟩ := exists_fuel l fun x hx => h x (List.mem_cons_of_mem _ hx)
    refine ⟨max f1 f2, fun x hx => ?_⟩
    rcases List.mem_cons.1 hx with rfl | hx
    · exact ⟨o1, substitute_mono_le (Nat.le_max_left _ _) h1⟩
    · obtain ⟨o', ho⟩ := h2 x hx
      exact ⟨o', substitute_mono_le (Nat.le_max_right _ _) ho⟩

theorem reaches_part {schema : Dict (Option Str) SRef} {o c x : SObj}
    (hc : Part schema c o) (hx : ReachesPart schema c x) : ReachesPart schema o x := by
  induction hx with
  | self => exact .part .self hc
  | part _ hp ih => exact .part ih hp

theorem resolvable_part {schema : Dict (Option Str) SRef} {o c : SObj}
    (h : Resolvable schema o) (hc : Part schema c o) : Resolvable schema c :=
  ⟨h.1.inv hc, fun x hx hk => h.2 x (reaches_part hc hx) hk⟩

theorem resolvable_of_parts {schema : Dict (Option Str) SRef} {o : SObj}
    (h1 : ∀ c, Part schema c o → Resolvable schema c)
    (h2 : o.key = none → Dict.get? schema none = none) : Resolvable schema o := by
  refine ⟨⟨_, fun c hc => (h1 c hc).1⟩, fun x hx hk => ?_⟩
  have key : ∀ x, ReachesPart schema o x → x = o ∨ ∃ c, Part schema c o ∧ ReachesPart schema c x := by
    intro x hx
    induction hx with
    | self => exact .inl rfl
    | part _ hp ih =>
      rcases ih with rfl | ⟨c, h3, h4⟩
      · exact .inr ⟨_, hp, .self⟩
      · exact .inr ⟨c, h3, .part h4 hp⟩
  rcases key x hx with rfl | ⟨c, h3, h4⟩
  · exact h2 hk
  · exact (h1 c h3).2 x h4 hk

theorem no_parts_attr {schema : Dict (Option Str) SRef} {o : SObj} (h : o.kind = .attribute)
    (c : SObj) : ¬ Part schema c o := fun hp => hp.1 h

theorem no_parts_none {schema : Dict (Option Str) SRef} {o : SObj}
    (h : Dict.get? schema o.key = none) (c : SObj) : ¬ Part schema c o := by
  rintro ⟨_, k, r, h1, h2, _⟩
  rw [h1, h2] at h
  cases h

/-- C80: with enough room for the recursion the types of an object can be put in exactly if this
comes to an end. -/
theorem substitute_ends_iff (schema : Dict (Option Str) SRef) (o : SObj) :
    (∃ fuel o', substitute schema fuel o = .ok o') ↔ Resolvable schema o := by
  constructor
  · rintro ⟨fuel, o', h⟩
    induction fuel generalizing o o' with
    | zero => rw [substitute] at h; cases h
    | succ fuel ih =>
      rcases substitute_cases schema o with hn | ⟨h1, r, h2⟩ | ⟨k, r, h1, h2, h3⟩ |
        ⟨k, r, h1, h2, h3⟩
      · exact resolvable_of_parts (fun c hc => absurd hc (no_parts_none hn c))
          fun hk => hk ▸ hn
      · rw [substitute_unnamed h1 h2] at h
        cases h
      · exact resolvable_of_parts (fun c hc => absurd hc (no_parts_attr h1 c))
          fun hk => by rw [hk] at h2; cases h2
      · rw [substitute_parts h1 h2 h3] at h
        cases hm : (partsOf o r).mapM (substitute schema fuel) with
        | error e => rw [hm] at h; cases h
        | ok ks =>
          refine resolvable_of_parts (fun c hc => ?_) fun hk => by rw [hk] at h2; cases h2
          obtain ⟨c', hc'⟩ := mapM_ok_iff.1 ⟨ks, hm⟩ c ((part_iff h1 h2 h3).1 hc)
          exact ih c c' hc'
  · rintro ⟨hacc, hnone⟩
    induction hacc with
    | intro o _ ih =>
      rcases substitute_cases schema o with hn | ⟨h1, r, h2⟩ | ⟨k, r, h1, h2, h3⟩ |
        ⟨k, r, h1, h2, h3⟩
      · exact ⟨1, o, substitute_none hn 0⟩
      · rw [hnone o .self h1] at h2
        cases h2
      · exact ⟨1, _, substitute_attr h1 h2 h3 0⟩
      · obtain ⟨fuel, hf⟩ := exists_fuel (partsOf o r) fun c hc => by
          have hp := (part_iff h1 h2 h3).2 hc
          exact ih c hp fun x hx => hnone x (reaches_part hp hx)
        obtain ⟨ks, hk⟩ := mapM_ok_iff.2 hf
        exact ⟨fuel + 1, _, by rw [substitute_parts h1 h2 h3, hk]; rfl⟩

/-- What becomes of an attribute. -/
theorem substitute_attribute {schema : Dict (Option Str) SRef} {fuel : Nat} {c c' : SObj}
    (hk : c.kind = .attribute) (h : substitute schema fuel c = .ok c') : c' = resolved schema c := by
  cases fuel with
  | zero => rw [substitute] at h; cases h
  | succ fuel =>
    rw [resolved]
    rcases substitute_cases schema c with hn | ⟨h1, r, h2⟩ | ⟨k, r, h1, h2, h3⟩ |
      ⟨k, r, h1, h2, h3⟩
    · rw [substitute_none hn] at h
      injection h with h
      cases hc : c.key with
      | none => exact h.symm
      | some k =>
        rw [hc] at hn
        simp only [hn]
        exact h.symm
    · rw [substitute_unnamed h1 h2] at h
      cases h
    · rw [substitute_attr h1 h2 h3] at h
      injection h with h
      rw [h2]
      simp only [h3]
      rw [← h]
      cases r <;> rfl
    · exact absurd hk h1

theorem substitute_kind {schema : Dict (Option Str) SRef} {fuel : Nat} {c c' : SObj}
    (h : substitute schema fuel c = .ok c') : c'.kind = c.kind ∧ c'.name = c.name := by
  cases fuel with
  | zero => rw [substitute] at h; cases h
  | succ fuel =>
    rcases substitute_cases schema c with hn | ⟨h1, r, h2⟩ | ⟨k, r, h1, h2, h3⟩ |
      ⟨k, r, h1, h2, h3⟩
    · rw [substitute_none hn] at h
      injection h with h
      subst h
      exact ⟨rfl, rfl⟩
    · rw [substitute_unnamed h1 h2] at h
      cases h
    · rw [substitute_attr h1 h2 h3] at h
      injection h with h
      subst h
      exact ⟨rfl, rfl⟩
    · rw [substitute_parts h1 h2 h3] at h
      cases hm : (partsOf c r).mapM (substitute schema fuel) with
      | error e => rw [hm] at h; cases h
      | ok ks =>
        rw [hm] at h
        injection h with h
        subst h
        exact ⟨rfl, rfl⟩

theorem mapM_attributes {schema : Dict (Option Str) SRef} {fuel : Nat} : ∀ {l ks : List SObj},
    l.mapM (substitute schema fuel) = .ok ks →
    ks.filter (·.kind = .attribute) = (l.filter (·.kind = .attribute)).map (resolved schema)
  | [], ks, h => by
    injection h with h
    subst h
    rfl
  | c :: l, ks, h => by
    rw [List.mapM_cons] at h
    cases hc : substitute schema fuel c with
    | error e => rw [hc] at h; cases h
    | ok c' =>
      rw [hc] at h
      cases hl : l.mapM (substitute schema fuel) with
      | error e => rw [hl] at h; cases h
      | ok ks' =>
        rw [hl] at h
        injection h with h
        subst h
        have hk := (substitute_kind hc).1
        by_cases ha : c.kind = .attribute
        · rw [List.filter_cons_of_pos (by simpa using hk.trans ha),
            List.filter_cons_of_pos (by simpa using ha), List.map_cons, mapM_attributes hl,
            substitute_attribute ha hc]
        · rw [List.filter_cons_of_neg (by simpa [hk] using ha),
            List.filter_cons_of_neg (by simpa using ha), mapM_attributes hl]

/-- The attributes of an element once its type was put in: its own and those of the type. -/
theorem substitute_attributes {schema : Dict (Option Str) SRef} {fuel : Nat} {o o' : SObj}
    {k : Str} {r : SRef} (h : substitute schema fuel o = .ok o') (hk : o.kind ≠ .attribute)
    (h1 : o.key = some k) (h2 : Dict.get? schema (some k) = some r) :
    o'.kids.filter (·.kind = .attribute) =
      ((o.kids ++ r.kids).filter (·.kind = .attribute)).map (resolved schema) := by
  cases fuel with
  | zero => rw [substitute] at h; cases h
  | succ fuel =>
    rw [substitute_parts hk h1 h2] at h
    cases hm : (partsOf o r).mapM (substitute schema fuel) with
    | error e => rw [hm] at h; cases h
    | ok ks =>
      rw [hm] at h
      injection h with h
      subst h
      refine (mapM_attributes hm).trans ?_
      congr 1
      rw [partsOf, List.filter_append, List.filter_append, List.filter_filter]
      congr 1
      refine List.filter_congr fun c _ => ?_
      by_cases ha : c.kind = .attribute <;> simp [ha, SObj.isGroupGroup]

/-! ## types that contain themselves -/

/-- A group may contain groups. -/
def nestedType : XsNode := .elem true s%"complexType" 10 [(s%"name", s%"groupType")]
  [.elem true s%"sequence" 11 []
    [.elem true s%"element" 12 [(s%"name", s%"group"), (s%"type", s%"nx:groupType")] []]]

/-- A schema that says so without the group `groupGroup`. -/
def recursiveXsd : XsNode := schemaOf
  [.elem true s%"element" 2 [(s%"name", s%"definition"), (s%"type", s%"nx:definitionType")] [],
   .elem true s%"complexType" 3 [(s%"name", s%"definitionType")]
    [.elem true s%"sequence" 4 []
      [.elem true s%"element" 5 [(s%"name", s%"group"), (s%"type", s%"nx:groupType")] []]],
   nestedType]

def nestedGroup : SObj := .mk .element (some s%"group") (some s%"groupType") {} []

theorem nested_never (schema : Dict (Option Str) SRef)
    (h : Dict.get? schema (some s%"groupType") = some (.other [nestedGroup])) :
    ∀ fuel, substitute schema fuel nestedGroup = .error .recursionError
  | 0 => rfl
  | fuel + 1 => by
    rw [substitute_parts (by decide) rfl h fuel]
    have : partsOf nestedGroup (.other [nestedGroup]) = [nestedGroup] := rfl
    rw [this, List.mapM_cons, nested_never schema h fuel]
    rfl

/-- C80: recursion in a type is noticed only if it goes through a group called `groupGroup`; any
other recursion, though the schema can be catalogued, exhausts the stack. -/
theorem recursive_type_stops :
    SchemaReadable xsdInt recursiveXsd ∧ DistinctLines recursiveXsd ∧
      ∀ fuel, summarize fuel xsdInt recursiveXsd = .error .recursionError := by
  refine ⟨?_, ?_, fun fuel => ?_⟩
  · rw [← schema_read_iff]
    exact ⟨_, rfl⟩
  · unfold DistinctLines
    decide +kernel
  · have hr : readSchema xsdInt recursiveXsd = .ok
        { elems := [(2, .mk .element (some s%"definition") (some s%"definitionType") {} []),
                    (5, nestedGroup), (12, nestedGroup)]
          schema := some [(some s%"definitionType", .other [nestedGroup]),
                          (some s%"groupType", .other [nestedGroup])] } := rfl
    rw [summarize, hr]
    simp only [bind, Except.bind]
    have hd : ∀ db : SchemaDb,
        db.elems = [(2, .mk .element (some s%"definition") (some s%"definitionType") {} []),
                    (5, nestedGroup), (12, nestedGroup)] →
        db.schema = some [(some s%"definitionType", .other [nestedGroup]),
                          (some s%"groupType", .other [nestedGroup])] →
        definitionElement fuel db recursiveXsd =
          ([nestedGroup].mapM (substitute (db.schema.getD []) fuel)).map fun kids =>
            .mk .element (some s%"definition") (some s%"definitionType") {} kids := by
      intro db h1 h2
      obtain ⟨a, e, g, s, t⟩ := db
      simp only at h1 h2
      subst h1
      subst h2
      simp only [definitionElement, Option.getD_some]
      change (do
        let kids ← [nestedGroup].mapM _
        Except.ok _) = _
      cases [nestedGroup].mapM (substitute [(some s%"definitionType", .other [nestedGroup]),
                          (some s%"groupType", .other [nestedGroup])] fuel) <;> rfl
    rw [hd _ rfl rfl, List.mapM_cons, nested_never _ rfl fuel]
    rfl

/-- The field element of the shipped schema can be resolved. -/
example : ∃ db, readSchema xsdInt (nxdlXsd 705) = .ok db ∧
    Resolvable (db.schema.getD []) (.mk .element (some s%"field") (some s%"fieldType") {} []) := by
  have h : (match readSchema xsdInt (nxdlXsd 705) with
    | .ok db => (substitute (db.schema.getD []) 10
        (.mk .element (some s%"field") (some s%"fieldType") {} [])).isOk
    | .error _ => false) = true := by decide +kernel
  cases hr : readSchema xsdInt (nxdlXsd 705) with
  | error e => rw [hr] at h; cases h
  | ok db =>
    rw [hr] at h
    refine ⟨db, rfl, (substitute_ends_iff _ _).1 ⟨10, ?_⟩⟩
    simp only [] at h
    cases hs : substitute (db.schema.getD []) 10
        (.mk .element (some s%"field") (some s%"fieldType") {} []) with
    | error e => rw [hs] at h; cases h
    | ok o => exact ⟨o, rfl⟩

end Punx

import Verif.Spec.SummaryParts
import Verif.Props.Describe2
import Verif.Props.NxdlSchemaSample
import Verif.Model.Process

/-!
# C143: where the summary of a schema takes its parts from
-/

namespace Punx
open Spec

theorem found_iff {k : SKind} {o c : SObj} {n : Str} :
    Dict.get? (o.table k) n = some c ↔ Found k o n c := by
  rw [table_last, Found, listedAs_iff]
  constructor
  · rintro ⟨h1, h2, h3⟩; exact ⟨h1, h2, h3.symm⟩
  · rintro ⟨h1, h2, h3⟩; exact ⟨h1, h2, h3.symm⟩

theorem head_fold (l : List SObj) : ∀ (a : Str) (x : SObj) (d : Dict Str SObj), ∃ y t,
    l.foldl (fun d c => Dict.set d c.label c) ((a, x) :: d) = (a, y) :: t := by
  induction l with
  | nil => exact fun a x d => ⟨x, d, rfl⟩
  | cons c l ih =>
    intro a x d
    rw [List.foldl_cons]
    by_cases h : a = c.label
    · have : Dict.set ((a, x) :: d) c.label c = (a, c) :: d := by simp [Dict.set, h]
      rw [this]
      exact ih _ _ _
    · have : Dict.set ((a, x) :: d) c.label c = (a, x) :: Dict.set d c.label c := by simp [Dict.set, h]
      rw [this]
      exact ih _ _ _

theorem firstValue_ok {k : SKind} {o c : SObj} :
    firstValue (o.table k) = .ok c ↔ FoundFirst k o c := by
  have hg : ∀ a y t, o.table k = (a, y) :: t → Dict.get? (o.table k) a = some y := by
    intro a y t h; rw [h]; simp [Dict.get?]
  have key : ∀ pre x post, o.kids = pre ++ x :: post → x.kind = k → (∀ y ∈ pre, y.kind ≠ k) →
      ∃ y t, o.table k = (x.label, y) :: t := by
    intro pre x post h1 h2 h3
    unfold SObj.table
    rw [h1, List.filter_append, List.filter_eq_nil_iff.2 (by simpa using h3), List.nil_append,
      List.filter_cons_of_pos (by simp [h2]), List.foldl_cons]
    exact head_fold _ _ _ _
  constructor
  · intro h
    by_cases hx : ∃ x ∈ o.kids, x.kind = k
    · obtain ⟨pre, x, post, h1, h2, h3⟩ : ∃ pre x post, o.kids = pre ++ x :: post ∧ x.kind = k ∧
          ∀ y ∈ pre, y.kind ≠ k := by
        generalize o.kids = l at hx
        induction l with
        | nil => simp at hx
        | cons z l ih =>
          by_cases hz : z.kind = k
          · exact ⟨[], z, l, rfl, hz, by simp⟩
          · obtain ⟨x, hx, hk⟩ := hx
            rcases List.mem_cons.1 hx with rfl | hx
            · exact absurd hk hz
            · obtain ⟨pre, x, post, rfl, h2, h3⟩ := ih ⟨x, hx, hk⟩
              exact ⟨z :: pre, x, post, rfl, h2, by simpa [hz] using h3⟩
      obtain ⟨y, t, ht⟩ := key pre x post h1 h2 h3
      refine ⟨pre, x, post, x.label, h1, h2, h3, listedAs_iff.2 rfl, found_iff.1 ?_⟩
      rw [ht] at h ⊢
      simp only [firstValue, Except.ok.injEq] at h
      simp [Dict.get?, h]
    · have : o.table k = [] := by
        unfold SObj.table
        rw [List.filter_eq_nil_iff.2 (by simpa using hx)]
        rfl
      rw [this] at h
      cases h
  · rintro ⟨pre, x, post, n, h1, h2, h3, h4, h5⟩
    obtain ⟨y, t, ht⟩ := key pre x post h1 h2 h3
    rw [listedAs_iff] at h4
    subst h4
    rw [← found_iff, hg _ _ _ ht] at h5
    injection h5 with h5
    rw [ht, ← h5]
    rfl

theorem firstValue_error {k : SKind} {o : SObj} (h : ∀ c, ¬ FoundFirst k o c) :
    firstValue (o.table k) = .error .indexError := by
  cases hf : firstValue (o.table k) with
  | ok c => exact absurd (firstValue_ok.1 hf) (h c)
  | error e =>
    unfold firstValue at hf
    split at hf
    · injection hf with hf; rw [← hf]
    · cases hf

theorem needKey_ok {k : SKind} {o c : SObj} {n : Str} :
    needKey (o.table k) n = .ok c ↔ Found k o n c := by
  rw [← found_iff]
  unfold needKey
  cases Dict.get? (o.table k) n <;> simp

theorem needKey_error {k : SKind} {o : SObj} {n : Str} (h : ∀ c, ¬ Found k o n c) :
    needKey (o.table k) n = .error .keyError := by
  unfold needKey
  cases hf : Dict.get? (o.table k) n with
  | none => rfl
  | some c => exact absurd (found_iff.1 hf) (h c)

/-- **C143.** The tables of an object: the children of a kind by name, of several with one name the
last. -/
theorem attributes_found {o c : SObj} {n : Str} :
    Dict.get? o.attributes n = some c ↔ Found .attribute o n c := found_iff

/-- **C143.** The summary of a schema: which one it is, and that there is only one. -/
theorem summary_iff {fuel : Nat} {int : Str → Option Int} {root : XsNode} {db : SchemaDb} {d : SObj}
    (hdb : readSchema int root = .ok db) (hd : definitionElement fuel db root = .ok d) (s : Summary) :
    summarize fuel int root = .ok s ↔
      (∃ g gg, PartsOf d g gg s) ∧ db.simple = some s.simpleType := by
  unfold summarize
  rw [hdb]
  simp only [bind, Except.bind, hd]
  constructor
  · intro h
    cases h1 : firstValue d.groups with
    | error e => simp only [h1] at h; cases h
    | ok g =>
    simp only [h1] at h
    cases h2 : needKey g.components s%"group" with
    | error e => simp only [h2] at h; cases h
    | ok gg =>
    simp only [h2] at h
    cases h3 : needKey g.components s%"attribute" with
    | error e => simp only [h3] at h; cases h
    | ok attr =>
    simp only [h3] at h
    cases h4 : needKey g.components s%"doc" with
    | error e => simp only [h4] at h; cases h
    | ok doc =>
    simp only [h4] at h
    cases h5 : needKey g.components s%"field" with
    | error e => simp only [h5] at h; cases h
    | ok field =>
    simp only [h5] at h
    cases h6 : needKey g.components s%"link" with
    | error e => simp only [h6] at h; cases h
    | ok link =>
    simp only [h6] at h
    cases h7 : firstValue d.components with
    | error e => simp only [h7] at h; cases h
    | ok symbols =>
    simp only [h7] at h
    cases h8 : db.simple with
    | none => simp only [h8] at h; cases h
    | some simple =>
    simp only [h8] at h
    injection h with h
    subst h
    exact ⟨⟨g, gg, rfl, firstValue_ok.1 h1, needKey_ok.1 h2, rfl, needKey_ok.1 h3, needKey_ok.1 h4,
      needKey_ok.1 h5, needKey_ok.1 h6, firstValue_ok.1 h7⟩, rfl⟩
  · rintro ⟨⟨g, gg, p⟩, hs⟩
    have h1 : firstValue d.groups = .ok g := firstValue_ok.2 p.group
    have h2 : needKey g.components s%"group" = .ok gg := needKey_ok.2 p.inner
    have h3 : needKey g.components s%"attribute" = .ok s.attr := needKey_ok.2 p.attr
    have h4 : needKey g.components s%"doc" = .ok s.doc := needKey_ok.2 p.doc
    have h5 : needKey g.components s%"field" = .ok s.field := needKey_ok.2 p.field
    have h6 : needKey g.components s%"link" = .ok s.link := needKey_ok.2 p.link
    have h7 : firstValue d.components = .ok s.symbols := firstValue_ok.2 p.symbols
    simp only [h1, h2, h3, h4, h5, h6, h7, hs]
    rw [← p.definition, ← p.groupAttributes]

/-- **C143.** What is raised if a part is missing. -/
theorem summary_errors {fuel : Nat} {int : Str → Option Int} {root : XsNode} {db : SchemaDb} {d : SObj}
    (hdb : readSchema int root = .ok db) (hd : definitionElement fuel db root = .ok d) :
    ((∀ c ∈ d.kids, c.kind ≠ .group) → summarize fuel int root = .error .indexError) ∧
    (∀ g n, FoundFirst .group d g → n ∈ wantedNames → (∀ c, ¬ Found .element g n c) →
      summarize fuel int root = .error .keyError) ∧
    (∀ g, FoundFirst .group d g → (∀ n ∈ wantedNames, ∃ c, Found .element g n c) →
      (∀ c ∈ d.kids, c.kind ≠ .element) → summarize fuel int root = .error .indexError) := by
  have hnone : ∀ k, (∀ c ∈ d.kids, c.kind ≠ k) → firstValue (d.table k) = .error .indexError := by
    intro k h
    refine firstValue_error ?_
    rintro c ⟨pre, x, post, n, h1, h2, _⟩
    exact h x (by rw [h1]; simp) h2
  have hkey : ∀ (g : SObj) (n : Str), needKey g.components n = .error .keyError ∨
      ∃ c, needKey g.components n = .ok c := by
    intro g n
    unfold needKey
    cases Dict.get? g.components n with
    | none => exact .inl rfl
    | some c => exact .inr ⟨c, rfl⟩
  unfold summarize
  rw [hdb]
  simp only [bind, Except.bind, hd]
  refine ⟨fun h => ?_, fun g n hg hn hmiss => ?_, fun g hg hall h => ?_⟩
  · have h1 : firstValue d.groups = .error .indexError := hnone _ h
    rw [h1]
  · have h1 : firstValue d.groups = .ok g := firstValue_ok.2 hg
    rw [h1]
    have hm : needKey g.components n = .error .keyError := needKey_error hmiss
    simp only
    rcases hkey g s%"group" with e1 | ⟨c1, e1⟩
    · rw [e1]
    rw [e1]; simp only
    rcases hkey g s%"attribute" with e2 | ⟨c2, e2⟩
    · rw [e2]
    rw [e2]; simp only
    rcases hkey g s%"doc" with e3 | ⟨c3, e3⟩
    · rw [e3]
    rw [e3]; simp only
    rcases hkey g s%"field" with e4 | ⟨c4, e4⟩
    · rw [e4]
    rw [e4]; simp only
    rcases hkey g s%"link" with e5 | ⟨c5, e5⟩
    · rw [e5]
    simp only [wantedNames, List.mem_cons, List.not_mem_nil, or_false] at hn
    rcases hn with rfl | rfl | rfl | rfl | rfl
    · rw [e1] at hm; cases hm
    · rw [e2] at hm; cases hm
    · rw [e3] at hm; cases hm
    · rw [e4] at hm; cases hm
    · rw [e5] at hm; cases hm
  · have h1 : firstValue d.groups = .ok g := firstValue_ok.2 hg
    have h7 : firstValue d.components = .error .indexError := hnone _ h
    have hk : ∀ n ∈ wantedNames, ∃ c, needKey g.components n = .ok c := fun n hn => by
      obtain ⟨c, hc⟩ := hall n hn
      exact ⟨c, needKey_ok.2 hc⟩
    obtain ⟨c1, e1⟩ := hk s%"group" (by simp [wantedNames])
    obtain ⟨c2, e2⟩ := hk s%"attribute" (by simp [wantedNames])
    obtain ⟨c3, e3⟩ := hk s%"doc" (by simp [wantedNames])
    obtain ⟨c4, e4⟩ := hk s%"field" (by simp [wantedNames])
    obtain ⟨c5, e5⟩ := hk s%"link" (by simp [wantedNames])
    simp only [h1, e1, e2, e3, e4, e5, h7]

theorem defaultOf_spec (o : SObj) (n : Str) : DefaultOf o n (defaultOf o.attributes n) := by
  unfold defaultOf
  cases h : Dict.get? o.attributes n with
  | none =>
    refine .missing fun c hc => ?_
    rw [attributes_found.2 hc] at h
    cases h
  | some c =>
    have hc := attributes_found.1 h
    cases hd : c.info.default with
    | none => simpa [hd] using DefaultOf.undeclared hc hd
    | some t => simpa [hd] using DefaultOf.declared hc hd

/-- **C143.** The defaults that are used when definitions are read. -/
theorem defaults_from {d g gg : SObj} {s : Summary} (h : PartsOf d g gg s) :
    DefaultOf s.attr s%"optional" s.defaults.attrOptional ∧
    DefaultOf s.field s%"minOccurs" s.defaults.fieldMinOccurs ∧
    DefaultOf gg s%"minOccurs" s.defaults.groupMinOccurs ∧
    (s.defaults.dimensions = true ↔ ∃ c, Found .element s.field s%"dimensions" c) ∧
    (s.defaults.dim = true ↔ ∃ c c', Found .element s.field s%"dimensions" c ∧
      Found .element c s%"dim" c') := by
  have hc : ∀ (o : SObj) n, (Dict.get? o.components n).isSome = true ↔
      ∃ c, Found .element o n c := by
    intro o n
    rw [Option.isSome_iff_exists]
    exact exists_congr fun c => found_iff
  refine ⟨defaultOf_spec _ _, defaultOf_spec _ _, ?_, hc _ _, ?_⟩
  · have := defaultOf_spec gg s%"minOccurs"
    rwa [← h.groupAttributes] at this
  · show ((Dict.get? s.field.components s%"dimensions").bind fun o =>
      Dict.get? o.components s%"dim").isSome = true ↔ _
    rw [Option.isSome_iff_exists]
    constructor
    · rintro ⟨c', h⟩
      obtain ⟨c, h1, h2⟩ := Option.bind_eq_some_iff.1 h
      exact ⟨c, c', found_iff.1 h1, found_iff.1 h2⟩
    · rintro ⟨c, c', h1, h2⟩
      exact ⟨c', Option.bind_eq_some_iff.2 ⟨c, found_iff.2 h1, found_iff.2 h2⟩⟩

/-- **C143.** The defaults of a directory: none without a schema, else those of the summary. -/
theorem directory_defaults (lib : Lib) (d : SetDir) (ds : Option Defaults) :
    readDefaults lib d = .ok ds ↔ (d.xsd = none ∧ ds = none) ∨
      ∃ x s, d.xsd = some x ∧ summarize lib.fuel lib.int x = .ok s ∧ ds = some s.defaults := by
  unfold readDefaults
  cases d.xsd with
  | none => simp [eq_comm]
  | some x =>
    cases h : summarize lib.fuel lib.int x with
    | error e => simp [Except.map, h]
    | ok s => simp [Except.map, h, eq_comm]

/-- The two defaults of an attribute are never mixed up: there is one only. -/
theorem defaultOf_unique {o : SObj} {n : Str} {v w : Option DefVal} (h : DefaultOf o n v)
    (h' : DefaultOf o n w) : v = w := by
  have hu : ∀ {c c'}, Found .attribute o n c → Found .attribute o n c' → c = c' := by
    intro c c' h h'
    have := (attributes_found.2 h).symm.trans (attributes_found.2 h')
    injection this
  cases h with
  | missing h =>
    cases h' with
    | missing => rfl
    | undeclared h2 => exact absurd h2 (h _)
    | declared h2 => exact absurd h2 (h _)
  | undeclared h e =>
    cases h' with
    | missing h2 => exact absurd h (h2 _)
    | undeclared => rfl
    | declared h2 e2 => rw [hu h h2, e2] at e; cases e
  | declared h e =>
    cases h' with
    | missing h2 => exact absurd h (h2 _)
    | undeclared h2 e2 => rw [hu h h2, e2] at e; cases e
    | declared h2 e2 =>
      rw [hu h h2, e2] at e
      injection e with e
      rw [e]

/-- **C143 (case).** A schema like the shipped ones has all parts. -/
theorem shipped_parts : ∃ db d g gg s, readSchema xsdInt (nxdlXsd 705) = .ok db ∧
    definitionElement 10 db (nxdlXsd 705) = .ok d ∧ summarize 10 xsdInt (nxdlXsd 705) = .ok s ∧
    PartsOf d g gg s := by
  have h : (summarize 10 xsdInt (nxdlXsd 705)).isOk = true := by decide +kernel
  cases hs : summarize 10 xsdInt (nxdlXsd 705) with
  | error e => rw [hs] at h; cases h
  | ok s =>
    have hs' := hs
    unfold summarize at hs'
    cases hdb : readSchema xsdInt (nxdlXsd 705) with
    | error e => rw [hdb] at hs'; cases hs'
    | ok db =>
      rw [hdb] at hs'
      simp only [bind, Except.bind] at hs'
      cases hd : definitionElement 10 db (nxdlXsd 705) with
      | error e => rw [hd] at hs'; cases hs'
      | ok d =>
        obtain ⟨⟨g, gg, p⟩, _⟩ := (summary_iff hdb hd s).1 hs
        exact ⟨db, d, g, gg, s, rfl, hd, rfl, p⟩

/-- A schema whose definitions have no group. -/
def grouplessXsd : XsNode := schemaOf
  [.elem true s%"element" 2 [(s%"name", s%"definition"), (s%"type", s%"nx:definitionType")] [],
   .elem true s%"complexType" 3 [(s%"name", s%"definitionType")]
    [.elem true s%"attribute" 4 [(s%"name", s%"name")] []]]

/-- **C143 (case).** Such a schema has no summary. -/
theorem groupless_case : ∃ db d, readSchema xsdInt grouplessXsd = .ok db ∧
    definitionElement 10 db grouplessXsd = .ok d ∧ (∀ c ∈ d.kids, c.kind ≠ .group) ∧
    summarize 10 xsdInt grouplessXsd = .error .indexError := by
  refine ⟨_, _, rfl, rfl, ?_, ?_⟩
  · intro c hc
    have : c.kind = .attribute := by
      rcases List.mem_cons.1 hc with rfl | hc
      · rfl
      · cases hc
    rw [this]
    decide
  · refine (summary_errors rfl rfl).1 ?_
    intro c hc
    have : c.kind = .attribute := by
      rcases List.mem_cons.1 hc with rfl | hc
      · rfl
      · cases hc
    rw [this]
    decide

end Punx

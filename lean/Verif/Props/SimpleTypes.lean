import Verif.Props.NxdlSchema2
import Verif.Spec.SimpleTypes
import Mathlib.Data.List.Induction

/-!
# The simple types of a schema
-/

namespace Punx
open Spec

theorem select_eq_xsKids (tag : Str) (n : XsNode) : n.select tag = xsKids tag n := by
  cases n with
  | comment => rfl
  | elem xs t l a k =>
    rw [XsNode.select, xsKids, XsNode.kids]
    congr 1
    funext m
    rcases m with _ | ⟨_ | _, t', _, _, _⟩ <;> simp [XsNode.isXs]

theorem attrib_eq_xsAttr (k : Str) (n : XsNode) : Dict.get? n.attrib k = xsAttr k n := by
  cases n <;> rfl

theorem last_colon : ∀ s : Str, ':' ∉ s ∨ ∃ p w, s = p ++ ':' :: w ∧ ':' ∉ w
  | [] => .inl (by simp)
  | c :: s => by
    rcases last_colon s with h | ⟨p, w, rfl, h⟩
    · by_cases hc : ':' = c
      · exact .inr ⟨[], s, by simp [hc.symm], h⟩
      · exact .inl (by simp [hc, h])
    · exact .inr ⟨c :: p, w, rfl, h⟩

theorem stripNs_of_localPart {s l : Str} (h : LocalPart s l) : stripNs s = l := by
  obtain ⟨h, rfl | ⟨p, rfl⟩⟩ := h
  · rw [stripNs, lastComp, split_noSep h]; rfl
  · exact lastComp_append _ _ h

theorem lastComp_localPart (s : Str) : LocalPart s (stripNs s) := by
  have key : ∀ l, LocalPart s l → LocalPart s (stripNs s) := fun l h => by
    rw [stripNs_of_localPart h]; exact h
  rcases last_colon s with h | ⟨p, w, h, hw⟩
  · exact key s ⟨h, .inl rfl⟩
  · exact key w ⟨hw, .inr ⟨p, h⟩⟩

/-! ## one type -/

theorem readValues_ok {ns : List XsNode} : ∀ {s s' : SSimple}, readValues ns s = .ok s' →
    s'.base = s.base ∧ s'.maxLength = s.maxLength ∧
    s'.patterns.map some = s.patterns.map some ++ ns.map (xsAttr s%"value") := by
  induction ns with
  | nil => rintro s s' h; cases h; simp
  | cons n ns ih =>
    intro s s' h
    rw [readValues, attrib_eq_xsAttr] at h
    cases hv : xsAttr s%"value" n with
    | none => rw [hv] at h; cases h
    | some v =>
      rw [hv] at h
      obtain ⟨h1, h2, h3⟩ := ih h
      exact ⟨h1, h2, by rw [h3]; simp [hv]⟩

theorem readLengths_ok {int : Str → Option Int} {ns : List XsNode} : ∀ {s s' : SSimple},
    readLengths int ns s = .ok s' → s'.base = s.base ∧ s'.patterns = s.patterns ∧
    s'.maxLength = (((ns.filterMap (xsAttr s%"value")).filterMap int).getLast?).or s.maxLength := by
  induction ns with
  | nil => rintro s s' h; cases h; simp
  | cons n ns ih =>
    intro s s' h
    rw [readLengths, attrib_eq_xsAttr] at h
    cases hv : xsAttr s%"value" n with
    | none => rw [hv] at h; cases h
    | some v =>
      rw [hv] at h
      dsimp only at h
      cases hi : int v with
      | none => rw [hi] at h; cases h
      | some k =>
        rw [hi] at h
        obtain ⟨h1, h2, h3⟩ := ih h
        refine ⟨h1, h2, ?_⟩
        rw [h3, List.filterMap_cons_some hv, List.filterMap_cons_some hi, List.getLast?_cons]
        cases ((ns.filterMap (xsAttr s%"value")).filterMap int).getLast? <;> simp

theorem noteBase_eq (s : SSimple) (n : XsNode) :
    (s.noteBase n).patterns = s.patterns ∧ (s.noteBase n).maxLength = s.maxLength ∧
    (s.noteBase n).base = ((xsAttr s%"base" n).map stripNs).or s.base := by
  unfold SSimple.noteBase
  rw [attrib_eq_xsAttr]
  cases xsAttr s%"base" n <;> simp

theorem readRestrictions_ok {int : Str → Option Int} {ns : List XsNode} : ∀ {s s' : SSimple},
    readRestrictions int ns s = .ok s' →
    s'.base = (((ns.filterMap (xsAttr s%"base")).getLast?).map stripNs).or s.base ∧
    s'.patterns.map some = s.patterns.map some ++
      (ns.flatMap (xsKids s%"pattern")).map (xsAttr s%"value") ∧
    s'.maxLength = ((((ns.flatMap (xsKids s%"maxLength")).filterMap
      (xsAttr s%"value")).filterMap int).getLast?).or s.maxLength := by
  induction ns with
  | nil => rintro s s' h; cases h; simp
  | cons n ns ih =>
    intro s s' h
    rw [readRestrictions, select_eq_xsKids, select_eq_xsKids] at h
    cases h2 : readValues (xsKids s%"pattern" n) (s.noteBase n) with
    | error e => rw [h2] at h; cases h
    | ok s2 =>
      rw [h2] at h
      simp only [bind, Except.bind] at h
      cases h3 : readLengths int (xsKids s%"maxLength" n) s2 with
      | error e => rw [h3] at h; cases h
      | ok s3 =>
        rw [h3] at h
        obtain ⟨a1, a2, a3⟩ := readValues_ok h2
        obtain ⟨b1, b2, b3⟩ := readLengths_ok h3
        obtain ⟨c1, c2, c3⟩ := ih h
        obtain ⟨n1, n2, n3⟩ := noteBase_eq s n
        refine ⟨?_, ?_, ?_⟩
        · rw [c1, b1, a1, n3]
          cases hb : xsAttr s%"base" n with
          | none => rw [List.filterMap_cons_none hb]; simp
          | some b =>
            rw [List.filterMap_cons_some hb, List.getLast?_cons]
            cases (ns.filterMap (xsAttr s%"base")).getLast? <;> simp
        · rw [c2, b2, a3, n1]
          simp
        · rw [c3, b3, a2, n2, List.flatMap_cons, List.filterMap_append, List.filterMap_append,
            List.getLast?_append, Option.or_assoc]

/-- **C138.** What is read from one simple type. -/
theorem simple_read {int : Str → Option Int} {n : XsNode} {s : SSimple}
    (h : parseSimple int n = .ok s) : DeclaresSimple int n s := by
  unfold parseSimple at h
  rw [select_eq_xsKids] at h
  obtain ⟨h1, h2, h3⟩ := readRestrictions_ok h
  refine ⟨?_, by simpa using h2, by simpa using h3⟩
  cases hl : ((xsKids s%"restriction" n).filterMap (xsAttr s%"base")).getLast? with
  | none => simpa [hl] using h1
  | some b => exact ⟨stripNs b, lastComp_localPart b, by simpa [hl] using h1⟩

/-- What is declared is unique. -/
theorem localPart_unique {s l l' : Str} (h : LocalPart s l) (h' : LocalPart s l') : l = l' :=
  (stripNs_of_localPart h).symm.trans (stripNs_of_localPart h')

theorem declaresSimple_unique {int : Str → Option Int} {n : XsNode} {s s' : SSimple}
    (h : DeclaresSimple int n s) (h' : DeclaresSimple int n s') : s = s' := by
  obtain ⟨b, p, m⟩ := s
  obtain ⟨b', p', m'⟩ := s'
  obtain ⟨h1, h2, h3⟩ := h
  obtain ⟨h1', h2', h3'⟩ := h'
  have e2 : p = p' := List.map_injective_iff.2 (Option.some_injective _) (h2.trans h2'.symm)
  have e3 : m = m' := h3.trans h3'.symm
  have e1 : b = b' := by
    split at h1
    · rename_i hn; rw [hn] at h1'; exact h1.trans h1'.symm
    · rename_i x hx
      rw [hx] at h1'
      obtain ⟨l, hl, rfl⟩ := h1
      obtain ⟨l', hl', rfl⟩ := h1'
      rw [localPart_unique hl hl']
  rw [e1, e2, e3]

/-! ## the table -/

theorem readSimples_get {int : Str → Option Int} {ns : List XsNode} : ∀ {d d' : Dict (Option Str) SSimple},
    readSimples int ns d = .ok d' → ∀ k,
    (∃ before n after s, ns = before ++ n :: after ∧ xsAttr s%"name" n = k ∧
      (∀ m ∈ after, xsAttr s%"name" m ≠ k) ∧ parseSimple int n = .ok s ∧ Dict.get? d' k = some s) ∨
    ((∀ m ∈ ns, xsAttr s%"name" m ≠ k) ∧ Dict.get? d' k = Dict.get? d k) := by
  induction ns with
  | nil => rintro d d' h k; cases h; exact .inr ⟨by simp, rfl⟩
  | cons n ns ih =>
    intro d d' h k
    rw [readSimples] at h
    cases hp : parseSimple int n with
    | error e => rw [hp] at h; cases h
    | ok s =>
      rw [hp] at h
      simp only [bind, Except.bind, attrib_eq_xsAttr] at h
      rcases ih h k with ⟨before, m, after, s', rfl, h1, h2, h3, h4⟩ | ⟨h1, h2⟩
      · exact .inl ⟨n :: before, m, after, s', rfl, h1, h2, h3, h4⟩
      · rw [Dict.get?_set] at h2
        by_cases hk : xsAttr s%"name" n = k
        · rw [if_pos hk] at h2
          exact .inl ⟨[], n, ns, s, rfl, hk, h1, hp, h2⟩
        · rw [if_neg hk] at h2
          exact .inr ⟨by simpa [hk] using h1, h2⟩

/-- `a` comes before any `k`. -/
def Precedes (l : List (Option Str)) (a k : Option Str) : Prop :=
  a ≠ k ∧ ∃ p q, l = p ++ a :: q ∧ k ∉ p

/-- The names without repetitions, as they get into a table. -/
def addName (l : List (Option Str)) (x : Option Str) : List (Option Str) :=
  if x ∈ l then l else l ++ [x]

theorem precedes_concat (l : List (Option Str)) (x a k : Option Str) :
    Precedes (l ++ [x]) a k ↔ Precedes l a k ∨ (a = x ∧ k ∉ l ∧ a ≠ k) := by
  constructor
  · rintro ⟨hne, p, q, h, hk⟩
    rcases List.eq_nil_or_concat q with rfl | ⟨q', y, rfl⟩
    · obtain ⟨rfl, h2⟩ := List.append_inj' h rfl
      cases h2
      exact .inr ⟨rfl, hk, hne⟩
    · rw [List.concat_eq_append, ← List.cons_append, ← List.append_assoc] at h
      exact .inl ⟨hne, p, q', (List.append_inj' h rfl).1, hk⟩
  · rintro (⟨hne, p, q, rfl, hk⟩ | ⟨rfl, hk, hne⟩)
    · exact ⟨hne, p, q ++ [x], by simp, hk⟩
    · exact ⟨hne, l, [], rfl, hk⟩

theorem addNames_spec (xs : List (Option Str)) :
    (xs.foldl addName []).Nodup ∧ (∀ k, k ∈ xs.foldl addName [] ↔ k ∈ xs) ∧
    ∀ a k, Precedes (xs.foldl addName []) a k ↔ Precedes xs a k := by
  induction xs using List.reverseRecOn with
  | nil => exact ⟨List.nodup_nil, fun _ => Iff.rfl, fun _ _ => Iff.rfl⟩
  | append_singleton xs x ih =>
    obtain ⟨h1, h2, h3⟩ := ih
    rw [List.foldl_append, List.foldl_cons, List.foldl_nil]
    generalize xs.foldl addName [] = D at *
    unfold addName
    by_cases hx : x ∈ D
    · rw [if_pos hx]
      refine ⟨h1, fun k => ?_, fun a k => ?_⟩
      · rw [h2, List.mem_append, List.mem_singleton]
        exact ⟨.inl, fun h => h.elim id fun h => h ▸ (h2 x).1 hx⟩
      · rw [h3, precedes_concat]
        refine ⟨.inl, fun h => h.elim id ?_⟩
        rintro ⟨rfl, hk, hne⟩
        obtain ⟨p, q, h⟩ := List.append_of_mem ((h2 a).1 hx)
        exact ⟨hne, p, q, h, fun hc => hk (by rw [h]; simp [hc])⟩
    · rw [if_neg hx]
      refine ⟨List.nodup_append.2 ⟨h1, List.nodup_singleton _, ?_⟩, fun k => ?_, fun a k => ?_⟩
      · rintro a ha b hb rfl
        rw [List.mem_singleton] at hb
        exact hx (hb ▸ ha)
      · rw [List.mem_append, List.mem_append, h2]
      · rw [precedes_concat, precedes_concat, h3, h2]

theorem readSimples_names {int : Str → Option Int} {ns : List XsNode} :
    ∀ {d d' : Dict (Option Str) SSimple}, readSimples int ns d = .ok d' →
    Dict.keys d' = (ns.map (xsAttr s%"name")).foldl addName (Dict.keys d) := by
  induction ns with
  | nil => rintro d d' h; cases h; rfl
  | cons n ns ih =>
    intro d d' h
    rw [readSimples] at h
    cases hp : parseSimple int n with
    | error e => rw [hp] at h; cases h
    | ok s =>
      rw [hp] at h
      simp only [bind, Except.bind, attrib_eq_xsAttr] at h
      rw [ih h, Dict.keys_set, List.map_cons, List.foldl_cons]
      congr 1
      unfold addName
      split <;> simp_all

theorem inheritSimple_other {d : Dict (Option Str) SSimple} {k j : Option Str} (h : k ≠ j) :
    Dict.get? (inheritSimple d k) j = Dict.get? d j := by
  unfold inheritSimple
  split
  · rfl
  · split
    · rfl
    · rw [Dict.get?_set, if_neg h]

theorem inheritSimples_other {l : List (Option Str)} {j : Option Str} (h : j ∉ l) :
    ∀ d : Dict (Option Str) SSimple, Dict.get? (l.foldl inheritSimple d) j = Dict.get? d j := by
  induction l with
  | nil => intro d; rfl
  | cons k l ih =>
    intro d
    rw [List.foldl_cons, ih (fun hc => h (by simp [hc])), inheritSimple_other fun e => h (by simp [e])]

/-- What becomes of a type in the loop. -/
theorem inheritSimples_self {d : Dict (Option Str) SSimple} {pre post : List (Option Str)}
    {k : Option Str} (hn : (pre ++ k :: post).Nodup) {v : SSimple} (hv : Dict.get? d k = some v) :
    Dict.get? ((pre ++ k :: post).foldl inheritSimple d) k = some
      (match Dict.get? (pre.foldl inheritSimple d) v.base with
      | none => v
      | some b => ⟨b.base, v.patterns ++ b.patterns, b.maxLength⟩) := by
  obtain ⟨-, n2, n3⟩ := List.nodup_append.1 hn
  have h1 : k ∉ pre := fun hc => n3 k hc k (by simp) rfl
  rw [List.foldl_append, List.foldl_cons, inheritSimples_other (List.nodup_cons.1 n2).1]
  have hp : Dict.get? (pre.foldl inheritSimple d) k = some v := by rw [inheritSimples_other h1, hv]
  generalize pre.foldl inheritSimple d = D at *
  unfold inheritSimple
  rw [hp]
  dsimp only
  cases Dict.get? D v.base with
  | none => exact hp
  | some b => dsimp only; rw [Dict.get?_set, if_pos rfl]

/-- **C138.** The table of the simple types of a schema: it has the declared names.  A type whose base
is no simple type of the schema is as declared.  Any other type gets its own patterns, then those of
its base, and the base and length of that: as they are in the table if the base was declared
earlier, and as they were declared otherwise. -/
theorem simple_types_table {int : Str → Option Int} {root : XsNode} {d : Dict (Option Str) SSimple}
    (h : simpleTypes int root = .ok d) :
    (∀ k, k ∈ Dict.keys d ↔ ∃ v, SimpleDeclared int root k v) ∧
    ∀ k v, SimpleDeclared int root k v →
      ((∀ n ∈ xsKids s%"simpleType" root, xsAttr s%"name" n ≠ v.base) → Dict.get? d k = some v) ∧
      (SimpleEarlier root v.base k → ∃ b, Dict.get? d v.base = some b ∧
        Dict.get? d k = some ⟨b.base, v.patterns ++ b.patterns, b.maxLength⟩) ∧
      (¬ SimpleEarlier root v.base k → ∀ b, SimpleDeclared int root v.base b →
        Dict.get? d k = some ⟨b.base, v.patterns ++ b.patterns, b.maxLength⟩) := by
  rw [simpleTypes, select_eq_xsKids] at h
  cases hr : readSimples int (xsKids s%"simpleType" root) [] with
  | error e => rw [hr] at h; cases h
  | ok d0 =>
    rw [hr] at h
    simp only [bind, Except.bind, Except.ok.injEq] at h
    have hkeys := readSimples_names hr
    rw [show Dict.keys ([] : Dict (Option Str) SSimple) = [] from rfl] at hkeys
    obtain ⟨a1, a2, a3⟩ := addNames_spec ((xsKids s%"simpleType" root).map (xsAttr s%"name"))
    rw [← hkeys] at a1 a2 a3
    have hget := readSimples_get hr
    have hdecl : ∀ k v, SimpleDeclared int root k v ↔ Dict.get? d0 k = some v := by
      intro k v
      constructor
      · rintro ⟨before, n, after, hn, hk, hl, hd⟩
        rcases hget k with ⟨b', n', a', s, e, hk', hl', hp, hg⟩ | ⟨hno, -⟩
        · have : n' = n := by
            rw [hn] at e
            rcases List.append_eq_append_iff.1 e with ⟨x, e1, e2⟩ | ⟨x, e1, e2⟩
            · cases x with
              | nil => simp at e2; exact e2.1.symm
              | cons y x =>
                obtain ⟨-, rfl⟩ := List.cons.inj e2
                exact absurd hk' (hl n' (by simp))
            · cases x with
              | nil => simp at e2; exact e2.1
              | cons y x =>
                obtain ⟨-, rfl⟩ := List.cons.inj e2
                exact absurd hk (hl' n (by simp))
          subst this
          rw [hg, declaresSimple_unique (simple_read hp) hd]
        · exact absurd hk (hno n (by rw [hn]; simp))
      · intro hv
        rcases hget k with ⟨b', n', a', s, e, hk', hl', hp, hg⟩ | ⟨-, hg⟩
        · rw [hg] at hv
          cases hv
          exact ⟨b', n', a', e, hk', hl', simple_read hp⟩
        · rw [hg] at hv; cases hv
    have hmem : ∀ k, k ∈ Dict.keys d0 ↔ ∃ v, Dict.get? d0 k = some v := by
      intro k
      rw [← Dict.has_iff, Dict.has, Option.isSome_iff_exists]
    have hearly : ∀ a k, SimpleEarlier root a k ↔ Precedes (Dict.keys d0) a k := by
      intro a k
      rw [a3]
      unfold SimpleEarlier Precedes
      constructor
      · rintro ⟨h0, p, n, q, e, hn, hk⟩
        refine ⟨h0, p.map (xsAttr s%"name"), q.map (xsAttr s%"name"), by rw [e]; simp [hn], ?_⟩
        intro hc
        obtain ⟨m, hm, he⟩ := List.mem_map.1 hc
        exact hk m hm he
      · rintro ⟨h0, p, q, e, hk⟩
        obtain ⟨p', r, e1, e2, e3⟩ := List.map_eq_append_iff.1 e
        obtain ⟨n, q', e4, e5, -⟩ := List.map_eq_cons_iff.1 e3
        refine ⟨h0, p', n, q', by rw [e1, e4], e5, fun m hm he => hk ?_⟩
        rw [← e2]
        exact List.mem_map.2 ⟨m, hm, he⟩
    refine ⟨fun k => ?_, fun k v hv => ?_⟩
    · rw [← h, keys_foldl_inheritSimple, hmem]
      simp only [hdecl]
    · rw [hdecl] at hv
      obtain ⟨pre, post, hs⟩ := List.append_of_mem ((hmem k).2 ⟨v, hv⟩)
      have hnd : (pre ++ k :: post).Nodup := hs ▸ a1
      obtain ⟨-, n2, n3⟩ := List.nodup_append.1 hnd
      have hkpre : k ∉ pre := fun hc => n3 k hc k (by simp) rfl
      have hself := inheritSimples_self hnd hv
      rw [← hs, h] at hself
      have hprec : ∀ a, Precedes (Dict.keys d0) a k ↔ a ∈ pre := by
        intro a
        rw [hs]
        constructor
        · rintro ⟨hne, p, q, e, hk⟩
          rcases List.append_eq_append_iff.1 e with ⟨x, e1, e2⟩ | ⟨x, e1, e2⟩
          · cases x with
            | nil => simp at e2; exact absurd e2.1.symm hne
            | cons y x =>
              obtain ⟨rfl, -⟩ := List.cons.inj e2
              exact absurd (by rw [e1]; simp) hk
          · cases x with
            | nil => simp at e2; exact absurd e2.1 hne
            | cons y x =>
              obtain ⟨rfl, -⟩ := List.cons.inj e2
              rw [e1]; simp
        · intro ha
          obtain ⟨p, q, rfl⟩ := List.append_of_mem ha
          exact ⟨fun e => hkpre (e ▸ ha), p, q ++ k :: post, by simp, fun hc => hkpre (by simp [hc])⟩
      refine ⟨fun hb => ?_, fun hb => ?_, fun hb b hd => ?_⟩
      · have hno : v.base ∉ Dict.keys d0 := by
          rw [a2]
          intro hc
          obtain ⟨n, hn, he⟩ := List.mem_map.1 hc
          exact hb n hn he
        have hpre : v.base ∉ pre := fun hc => hno (by rw [hs]; simp [hc])
        rw [hself, inheritSimples_other hpre, Dict.get?_eq_none.2 hno]
      · have hin := (hprec _).1 ((hearly _ _).1 hb)
        have hfin : Dict.get? d v.base = Dict.get? (pre.foldl inheritSimple d0) v.base := by
          rw [← h, hs, List.foldl_append, inheritSimples_other]
          exact fun hc => n3 _ hin _ hc rfl
        have hmb : v.base ∈ Dict.keys d := by
          rw [← h, keys_foldl_inheritSimple, hs]; simp [hin]
        rw [← Dict.has_iff, Dict.has, Option.isSome_iff_exists] at hmb
        obtain ⟨b, hb'⟩ := hmb
        refine ⟨b, hb', ?_⟩
        rw [hself, ← hfin, hb']
      · have hpre : v.base ∉ pre := fun hc => hb ((hearly _ _).2 ((hprec _).2 hc))
        rw [hself, inheritSimples_other hpre, (hdecl _ _).1 hd]

/-! ## a case -/

/-- A simple type with a restriction. -/
def simpleNode (name base pattern : Str) (length : Str) : XsNode :=
  .elem true s%"simpleType" 1 [(s%"name", name)]
    [.comment, .elem true s%"restriction" 2 [(s%"base", base)]
      [.elem true s%"pattern" 3 [(s%"value", pattern)] [],
       .elem false s%"pattern" 4 [(s%"value", s%"other")] [],
       .elem true s%"maxLength" 5 [(s%"value", length)] []]]

/-- A schema with these simple types. -/
def simpleSchema (ts : List XsNode) : XsNode := .elem true s%"schema" 1 [] ts

/-- Reads `5` and `9`. -/
def fewInts (s : Str) : Option Int := if s = s%"5" then some 5 else if s = s%"9" then some 9 else none

/-- The own length of a type that restricts another one is lost; a base that is declared later counts
as it is declared. -/
theorem simple_types_case :
    simpleTypes fewInts (simpleSchema [simpleNode s%"a" s%"xs:token" s%"p" s%"5",
        simpleNode s%"b" s%"nx:a" s%"q" s%"9", simpleNode s%"c" s%"nx:b" s%"r" s%"9"]) =
      .ok [(some s%"a", ⟨some s%"token", [s%"p"], some 5⟩),
        (some s%"b", ⟨some s%"token", [s%"q", s%"p"], some 5⟩),
        (some s%"c", ⟨some s%"token", [s%"r", s%"q", s%"p"], some 5⟩)] ∧
    simpleTypes fewInts (simpleSchema [simpleNode s%"c" s%"nx:b" s%"r" s%"9",
        simpleNode s%"a" s%"xs:token" s%"p" s%"5", simpleNode s%"b" s%"nx:a" s%"q" s%"9"]) =
      .ok [(some s%"c", ⟨some s%"a", [s%"r", s%"q"], some 9⟩),
        (some s%"a", ⟨some s%"token", [s%"p"], some 5⟩),
        (some s%"b", ⟨some s%"token", [s%"q", s%"p"], some 5⟩)] := by
  constructor <;> rfl

example := simple_types_table simple_types_case.1

end Punx

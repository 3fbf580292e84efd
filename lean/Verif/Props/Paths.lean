import Verif.Props.Attribute3
import Verif.Spec.Paths

/-!
# C148: which paths are found
-/

namespace Punx
open Spec

variable {f : H5File} {g m : Node} {p : Str}

theorem pathIs_iff {segs : List Str} : PathIs p segs ↔ segs = split '/' p := by
  constructor
  · rintro ⟨h1, h2⟩
    have h := split_slashed h1
    rw [← h2, split_cons_sep] at h
    injection h with _ h
    exact h.symm
  · rintro rfl
    refine ⟨fun s hs => ?_, (slashed_split p).symm⟩
    exact sep_notMem_split hs

theorem startsAt_iff {s : Node} : StartsAt f g p s ↔ s = startNode f g p := by
  constructor
  · rintro (_ | h)
    · rw [startNode, if_pos (by rw [startsWith_iff]; exact ⟨_, rfl⟩), H5File.root]
    · rw [startNode, if_neg]
      rw [startsWith_iff]
      rintro ⟨q, rfl⟩
      exact h q rfl
  · rintro rfl
    by_cases h : ∃ q, p = '/' :: q
    · obtain ⟨q, rfl⟩ := h
      rw [startNode, if_pos (by rw [startsWith_iff]; exact ⟨_, rfl⟩)]
      exact .absolute
    · rw [startNode, if_neg]
      · exact .relative fun q e => h ⟨q, e⟩
      · rw [startsWith_iff]
        rintro ⟨q, rfl⟩
        exact h ⟨q, rfl⟩

theorem resolve_reaches : ∀ {cs : List Str} {s : Node}, resolve s cs = some m ↔ Reaches s cs m
  | [], s => by
    rw [resolve]
    constructor
    · intro h; cases h; exact .here _
    · intro h; cases h; rfl
  | c :: cs, .group n a ks => by
    rw [resolve]
    constructor
    · intro h
      split at h
      · next k e => exact .step e (resolve_reaches.1 h)
      · cases h
    · intro h
      cases h with
      | step e h =>
        have e' : ks.find c = some (some _) := e
        rw [e']
        exact resolve_reaches.2 h
  | c :: cs, .dataset .. => by
    constructor
    · intro h; simp [resolve] at h
    · intro h; cases h
  | c :: cs, .datatype .. => by
    constructor
    · intro h; simp [resolve] at h
    · intro h; cases h

theorem find_isSome {ks : Kids} {c : Str} : (ks.find c).isSome = true ↔ c ∈ ks.toList.map (·.1) := by
  rw [Kids.find]
  generalize ks.toList = l
  induction l with
  | nil => simp
  | cons x xs ih =>
    rw [List.lookup_cons]
    by_cases h : c = x.1
    · simp [h]
    · have : (c == x.1) = false := by simpa using h
      rw [this]
      simp [h]

theorem linkExists_path : ∀ {cs : List Str} {s : Node}, linkExists s cs = true ↔
    cs = [] ∨ ∃ pre l n a ks, cs = pre ++ [l] ∧ Reaches s pre (.group n a ks) ∧
      l ∈ ks.toList.map (·.1)
  | [], s => by simp [linkExists]
  | [c], s => by
    constructor
    · intro h
      cases s with
      | group n a ks =>
        exact .inr ⟨[], c, n, a, ks, rfl, .here _, find_isSome.1 h⟩
      | dataset => cases h
      | datatype => cases h
    · rintro (h | ⟨pre, l, n, a, ks, h1, h2, h3⟩)
      · cases h
      · cases pre with
        | nil =>
          cases h1
          cases h2
          exact find_isSome.2 h3
        | cons x xs => simp at h1
  | c :: d :: cs, s => by
    cases s with
    | group n a ks =>
      rw [linkExists]
      constructor
      · intro h
        split at h
        · next k e =>
          rcases linkExists_path.1 h with h | ⟨pre, l, n', a', ks', h1, h2, h3⟩
          · cases h
          · exact .inr ⟨c :: pre, l, n', a', ks', by rw [h1]; rfl, .step e h2, h3⟩
        · cases h
      · rintro (h | ⟨pre, l, n', a', ks', h1, h2, h3⟩)
        · cases h
        · cases pre with
          | nil => simp at h1
          | cons x xs =>
            injection h1 with h0 h1
            subst h0
            cases h2 with
            | step e h2 =>
              have e' : ks.find c = some (some _) := e
              rw [e']
              exact linkExists_path.2 (.inr ⟨xs, l, n', a', ks', h1, h2, h3⟩)
    | dataset =>
      constructor
      · intro h
        simp [linkExists] at h
      · rintro (h | ⟨pre, l, n', a', ks', h1, h2, h3⟩)
        · cases h
        · cases pre with
          | nil => simp at h1
          | cons x xs => cases h2
    | datatype =>
      constructor
      · intro h
        simp [linkExists] at h
      · rintro (h | ⟨pre, l, n', a', ks', h1, h2, h3⟩)
        · cases h
        · cases pre with
          | nil => simp at h1
          | cons x xs => cases h2

theorem dotted_iff {segs : List Str} :
    ((segs.filter (· ≠ [])).getLast? == some s%".") = true ↔ Dotted segs := by
  rw [beq_iff_eq]
  induction segs using List.reverseRecOn with
  | nil =>
    constructor
    · intro h
      simp at h
    · rintro ⟨pre, post, h, _⟩
      simp at h
  | append_singleton xs x ih =>
    by_cases hx : x = []
    · subst hx
      rw [List.filter_append, List.filter_cons_of_neg (by simp), List.filter_nil, List.append_nil, ih]
      constructor
      · rintro ⟨pre, post, rfl, h⟩
        exact ⟨pre, post ++ [[]], by simp, by simpa [or_imp, forall_and] using h⟩
      · rintro ⟨pre, post, h1, h2⟩
        rcases post.eq_nil_or_concat with rfl | ⟨ys, y, rfl⟩
        · have := congrArg List.getLast? h1
          simp at this
        · rw [List.concat_eq_append, ← List.cons_append, ← List.append_assoc] at h1
          have := (List.append_inj' h1 rfl).1
          exact ⟨pre, ys, this, fun s hs => h2 s (by simp [hs])⟩
    · rw [List.filter_append, List.filter_cons_of_pos (by simpa using hx), List.filter_nil,
        List.getLast?_concat]
      constructor
      · intro h
        cases h
        exact ⟨xs, [], rfl, by simp⟩
      · rintro ⟨pre, post, h1, h2⟩
        rcases post.eq_nil_or_concat with rfl | ⟨ys, y, rfl⟩
        · have := (List.append_inj' h1 rfl).2
          simpa using this
        · rw [List.concat_eq_append, ← List.cons_append, ← List.append_assoc] at h1
          have := (List.append_inj' h1 rfl).2
          have hy := h2 y (by simp)
          simp only [List.cons.injEq, and_true] at this
          exact absurd (this.trans hy) hx

/-- **C148**: `group.get(path)` is refused for the empty path; other paths give the object to which they
lead, and `None` if there is none. -/
theorem path_object : (p = [] → h5get f g p = .error .valueError) ∧
    (p ≠ [] → (LeadsTo f g p m ↔ h5get f g p = .ok (some m)) ∧
      ((∀ k, ¬ LeadsTo f g p k) ↔ h5get f g p = .ok none)) := by
  have key : ∀ k, LeadsTo f g p k ↔ resolve (startNode f g p) (pathParts p) = some k := by
    intro k
    rw [resolve_reaches]
    constructor
    · rintro ⟨segs, s, h1, h2, h3⟩
      rw [pathIs_iff] at h1
      rw [startsAt_iff] at h2
      subst h1 h2
      exact h3
    · intro h
      exact ⟨_, _, pathIs_iff.2 rfl, startsAt_iff.2 rfl, h⟩
  refine ⟨fun h => by rw [h5get, if_pos h], fun h => ?_⟩
  rw [h5get, if_neg h]
  refine ⟨by rw [key]; simp, ?_⟩
  simp only [key]
  rw [Except.ok.injEq, Option.eq_none_iff_forall_ne_some]

/-- **C148**: `path in group` holds if there is a link with this path, and not for the empty path. -/
theorem path_contained : h5contains f g p = true ↔ p ≠ [] ∧ LinkAt f g p := by
  rw [h5contains]
  by_cases hp : p = []
  · simp [hp]
  rw [if_neg hp]
  have hd : endsInDot p = true ↔ Dotted (split '/' p) := by rw [endsInDot, dotted_iff]
  have hL : LinkAt f g p ↔
      (Dotted (split '/' p) ∧ ∃ n a ks, Reaches (startNode f g p) (pathParts p) (.group n a ks)) ∨
      (¬ Dotted (split '/' p) ∧ linkExists (startNode f g p) (pathParts p) = true) := by
    rw [linkExists_path]
    constructor
    · rintro ⟨segs, s, h1, h2, h3⟩
      rw [pathIs_iff] at h1
      rw [startsAt_iff] at h2
      subst h1 h2
      exact h3
    · intro h
      exact ⟨_, _, pathIs_iff.2 rfl, startsAt_iff.2 rfl, h⟩
  rw [hL]
  by_cases h : endsInDot p = true
  · rw [if_pos h, groupThere]
    simp only [hp, ne_eq, not_false_eq_true, true_and, hd.1 h, not_true_eq_false, false_and, or_false,
      ← resolve_reaches]
    constructor
    · intro h
      split at h
      · next e => exact ⟨_, _, _, e⟩
      · cases h
    · rintro ⟨n, a, ks, e⟩
      rw [e]
  · rw [if_neg h]
    have h' : ¬ Dotted (split '/' p) := fun x => h (hd.2 x)
    simp [hp, h']

/-- **C148**, for the attribute `signal` of a group: its value is found exactly if it is the path of a
link. -/
theorem signal_path {env : Env} {mgr : Manager} {mins : Dict (Str × Str) Int}
    (h : (validateOpen env mgr mins f).res = .ok ()) {it owner : Item}
    (hit : it ∈ (catalog env f).log) {v : Val} (hobj : it.obj = .val v) {a : Str}
    (ha : it.addr = some a) (hn : it.name = s%"signal") (hp : it.parent = some owner)
    {gn : Str} {ga : List (Str × Val)} {gk : Kids} (ho : owner.obj = .node (.group gn ga gk)) :
    ∃ s st c st' c', TextOf env v s ∧
      attrFindings (validateOpen env mgr mins f).log it.oid =
        [⟨some a, s%"valid name @signal=" ++ s, st, c⟩, ⟨some a, s%"attribute value", st', c'⟩] ∧
      (st' = .ok ↔ s ≠ [] ∧ LinkAt f (.group gn ga gk) s) ∧
      (st' = .error ↔ ¬ (s ≠ [] ∧ LinkAt f (.group gn ga gk) s)) := by
  obtain ⟨s, st, c, st', c', h1, h2, _, h4, h5⟩ := signal_of_group h hit hobj ha hn hp ho
  refine ⟨s, st, c, st', c', h1, h2, ?_⟩
  rw [← path_contained]
  cases e : h5contains f (.group gn ga gk) s with
  | true => simp [h4 e]
  | false => simp [h5 e]

end Punx

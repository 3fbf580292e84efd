import Verif.Model.Report
import Verif.Spec.Report
import Verif.Lemmas.Basic
import Mathlib.Tactic.Linarith
import Mathlib.Tactic.Ring
import Mathlib.Algebra.Order.Field.Basic

/-!
# C01–C05, C59: scores, summaries and reports
-/

namespace Punx

/-! ## C01: score arithmetic -/

theorem scoreLoop_eq (t : Int) (n : Nat) (fs : List Finding) :
    scoreLoop t n fs = (t + Spec.total fs, n + Spec.scored fs) := by
  induction fs generalizing t n with
  | nil => simp [scoreLoop, Spec.total, Spec.scored]
  | cons f fs ih =>
    have h1 : f.status.value = Spec.weight f.status := by cases f.status <;> rfl
    have h2 : Spec.total (f :: fs) = Spec.weight f.status + Spec.total fs := by
      simp [Spec.total]
    have h3 : Spec.scored (f :: fs) =
        (if Spec.weight f.status ≠ 0 then 1 else 0) + Spec.scored fs := by
      simp only [Spec.scored, List.filter_cons]
      cases f.status <;> simp [Spec.unscored, Spec.weight, Nat.add_comm]
    rw [scoreLoop, h1, h2, h3]
    by_cases h : Spec.weight f.status = 0
    · simp [h, ih]
    · simp [h, ih, Int.add_assoc, Nat.add_assoc]

/-- C01: total, count and average are the sum of the documented weights, the number of
findings with a scored status, and their quotient (0 if nothing was scored). -/
theorem findingScore_exact (fs : List Finding) :
    (findingScore fs).total = Spec.total fs ∧
    (findingScore fs).count = Spec.scored fs ∧
    ((findingScore fs).avgNum : Rat) / (findingScore fs).avgDen =
      if Spec.scored fs = 0 then 0 else (Spec.total fs : Rat) / Spec.scored fs := by
  have h := scoreLoop_eq 0 0 fs
  simp only [Int.zero_add, Nat.zero_add] at h
  simp only [findingScore, h]
  by_cases h0 : Spec.scored fs = 0 <;> simp [h0]

/-- C01: the order in which the findings were recorded does not matter. -/
theorem findingScore_perm {fs gs : List Finding} (h : fs.Perm gs) :
    findingScore fs = findingScore gs := by
  have ht : Spec.total fs = Spec.total gs := (h.map _).sum_eq
  have hc : Spec.scored fs = Spec.scored gs := (h.filter _).length_eq
  simp [findingScore, scoreLoop_eq, ht, hc]

/-- C01: two lists of findings that agree (up to order) once TODO, UNUSED and COMMENT
findings are removed have the same score. -/
theorem findingScore_ignores_unscored {fs gs : List Finding}
    (h : (fs.filter (fun f => ¬ Spec.unscored f.status)).Perm
         (gs.filter (fun f => ¬ Spec.unscored f.status))) :
    findingScore fs = findingScore gs := by
  have tot : ∀ l : List Finding,
      Spec.total l = Spec.total (l.filter (fun f => ¬ Spec.unscored f.status)) := by
    intro l
    induction l with
    | nil => rfl
    | cons f l ih =>
      have e : Spec.total (f :: l) = Spec.weight f.status + Spec.total l := by
        simp [Spec.total]
      rw [e, List.filter_cons]
      by_cases hu : Spec.unscored f.status
      · have : Spec.weight f.status = 0 := by
          rcases hu with hu | hu | hu <;> simp [hu, Spec.weight]
        simp [hu, this, ih]
      · simp only [hu, not_false_eq_true, decide_true, if_true]
        rw [ih]
        simp [Spec.total]
  have ht : Spec.total fs = Spec.total gs := by
    rw [tot fs, tot gs]; exact (h.map _).sum_eq
  have hc : Spec.scored fs = Spec.scored gs := h.length_eq
  simp [findingScore, scoreLoop_eq, ht, hc]

/-- Sample findings used in the non-vacuity examples. -/
def sampleFinding (s : Status) : Finding := ⟨some s%"/entry", s%"test", s, s%"comment"⟩

example : findingScore [sampleFinding .ok, sampleFinding .todo, sampleFinding .note] =
    findingScore [sampleFinding .note, sampleFinding .ok] :=
  findingScore_ignores_unscored (by decide)

example : findingScore [sampleFinding .ok, sampleFinding .note] = ⟨175, 2, 175, 2⟩ := by decide

/-! ## C02: an ERROR makes the score negative, up to a threshold -/

theorem total_eq_counts (fs : List Finding) :
    Spec.total fs = 100 * Spec.count .ok fs + 99 * Spec.count .optional fs +
      75 * Spec.count .note fs + 25 * Spec.count .warn fs -
      10000000 * Spec.count .error fs := by
  induction fs with
  | nil => rfl
  | cons f fs ih =>
    have e : Spec.total (f :: fs) = Spec.weight f.status + Spec.total fs := by
      simp [Spec.total]
    rw [e, ih]
    have c : ∀ s, Spec.count s (f :: fs) =
        (if f.status = s then 1 else 0) + Spec.count s fs := by
      intro s
      simp only [Spec.count, List.filter_cons]
      by_cases h : f.status = s <;> simp [h, Nat.add_comm]
    simp only [c]
    cases f.status <;> simp [Spec.weight] <;> ring

theorem counts_le_length (fs : List Finding) :
    Spec.count .ok fs + Spec.count .optional fs + Spec.count .note fs +
      Spec.count .warn fs + Spec.count .error fs ≤ fs.length := by
  induction fs with
  | nil => simp [Spec.count]
  | cons f fs ih =>
    have c : ∀ s, Spec.count s (f :: fs) =
        (if f.status = s then 1 else 0) + Spec.count s fs := by
      intro s
      simp only [Spec.count, List.filter_cons]
      by_cases h : f.status = s <;> simp [h, Nat.add_comm]
    simp only [c, List.length_cons]
    cases f.status <;> simp <;> omega

/-- C02: exactly when the average reported by `finding_score` is negative. -/
theorem score_negative_iff (fs : List Finding) :
    (((findingScore fs).avgNum : Rat) / (findingScore fs).avgDen < 0) ↔
      100 * Spec.count .ok fs + 99 * Spec.count .optional fs + 75 * Spec.count .note fs +
        25 * Spec.count .warn fs < 10000000 * Spec.count .error fs := by
  rw [(findingScore_exact fs).2.2]
  have ht := total_eq_counts fs
  by_cases h0 : Spec.scored fs = 0
  · simp only [h0, if_true, lt_irrefl, false_iff]
    have hnil : fs.filter (fun f => ¬ Spec.unscored f.status) = [] :=
      List.length_eq_zero_iff.1 h0
    have hcount : Spec.count .error fs = 0 := by
      rw [Spec.count, List.length_eq_zero_iff, List.filter_eq_nil_iff]
      intro f hf
      have := List.filter_eq_nil_iff.1 hnil f hf
      intro he
      simp only [decide_eq_true_eq] at he
      apply this
      simp [Spec.unscored, he]
    omega
  · simp only [h0, if_false]
    have hpos : (0 : Rat) < Spec.scored fs := by
      have : 0 < Spec.scored fs := Nat.pos_of_ne_zero h0
      exact_mod_cast this
    rw [div_neg_iff]
    constructor
    · rintro (⟨_, h⟩ | ⟨h, _⟩)
      · exact absurd hpos (not_lt.2 (le_of_lt h))
      · have h' : Spec.total fs < 0 := by exact_mod_cast h
        omega
    · intro h
      right
      refine ⟨?_, hpos⟩
      have h' : Spec.total fs < 0 := by omega
      exact_mod_cast h'

/-- C02: with at most 100,000 findings, one of them an ERROR, the average is negative. -/
theorem error_score_negative_partial {fs : List Finding} (he : ∃ f ∈ fs, f.status = .error)
    (hlen : fs.length ≤ 100000) :
    ((findingScore fs).avgNum : Rat) / (findingScore fs).avgDen < 0 := by
  rw [score_negative_iff]
  have h := counts_le_length fs
  have he' : 0 < Spec.count .error fs := by
    obtain ⟨f, hf, hs⟩ := he
    rw [Spec.count, List.length_pos_iff]
    intro hn
    have := List.filter_eq_nil_iff.1 hn f hf
    simp [hs] at this
  omega

/-- C02: without any ERROR the average is never negative. -/
theorem no_error_score_nonneg {fs : List Finding} (he : ∀ f ∈ fs, f.status ≠ .error) :
    ¬ ((findingScore fs).avgNum : Rat) / (findingScore fs).avgDen < 0 := by
  rw [score_negative_iff]
  have : Spec.count .error fs = 0 := by
    rw [Spec.count, List.length_eq_zero_iff, List.filter_eq_nil_iff]
    intro f hf
    simpa using he f hf
  omega

theorem count_replicate (s t : Status) (n : Nat) (f : Finding) (h : f.status = t) :
    Spec.count s (List.replicate n f) = if t = s then n else 0 := by
  rw [Spec.count, List.filter_replicate]
  by_cases hs : t = s <;> simp [h, hs]

theorem count_cons (s : Status) (f : Finding) (fs : List Finding) :
    Spec.count s (f :: fs) = (if f.status = s then 1 else 0) + Spec.count s fs := by
  simp only [Spec.count, List.filter_cons]
  by_cases h : f.status = s <;> simp [h, Nat.add_comm]

/-- C02 (negation): the unrestricted claim is false.  One ERROR among 100,000 OK
findings gives an average that is not negative, and the bound of
`error_score_negative_partial` is the best possible. -/
theorem error_score_negative_fails :
    ∃ fs : List Finding, (∃ f ∈ fs, f.status = .error) ∧ fs.length = 100001 ∧
      ¬ ((findingScore fs).avgNum : Rat) / (findingScore fs).avgDen < 0 := by
  refine ⟨sampleFinding .error :: List.replicate 100000 (sampleFinding .ok),
    ⟨_, List.mem_cons_self .., rfl⟩, by rw [List.length_cons, List.length_replicate], ?_⟩
  rw [score_negative_iff]
  simp only [count_cons, count_replicate _ .ok 100000 (sampleFinding .ok) rfl]
  simp [sampleFinding]

example : ∃ fs : List Finding, (∃ f ∈ fs, f.status = .error) ∧ fs.length ≤ 100000 :=
  ⟨[sampleFinding .ok, sampleFinding .error], ⟨sampleFinding .error, by simp, rfl⟩, by decide⟩

/-! ## C03: the summary -/

theorem summaryInit_get (sts : List Status) (d : Dict Status Nat) (s : Status) :
    Dict.get? (sts.foldl (fun d s => Dict.set d s 0) d) s =
      if s ∈ sts then some 0 else Dict.get? d s := by
  induction sts generalizing d with
  | nil => simp
  | cons t sts ih =>
    simp only [List.foldl_cons, ih, Dict.get?_set, List.mem_cons]
    by_cases h1 : s ∈ sts
    · simp [h1]
    · by_cases h2 : t = s
      · simp [h2]
      · have : ¬ s = t := fun e => h2 e.symm
        simp [h1, h2, this]

theorem keys_set_of_has {d : Dict Status Nat} {s : Status} {n m : Nat}
    (h : Dict.get? d s = some n) : Dict.keys (Dict.set d s m) = Dict.keys d := by
  rw [Dict.keys_set]
  have : s ∈ Dict.keys d := by
    by_contra hc
    rw [Dict.get?_eq_none.2 hc] at h
    simp at h
  simp [this]

theorem summaryLoop_spec (d : Dict Status Nat) (fs : List Finding) :
    (∀ r, summaryLoop d fs = .ok r →
      Dict.keys r = Dict.keys d ∧
      ∀ s, Dict.get? r s = (Dict.get? d s).map (· + Spec.count s fs)) ∧
    (summaryLoop d fs = .error .keyError ↔ ∃ f ∈ fs, f.status ∉ Dict.keys d) ∧
    (∀ e, summaryLoop d fs = .error e → e = .keyError) := by
  induction fs generalizing d with
  | nil =>
    refine ⟨?_, by simp [summaryLoop], by simp [summaryLoop]⟩
    intro r hr
    simp [summaryLoop] at hr
    subst hr
    refine ⟨rfl, fun s => ?_⟩
    cases Dict.get? d s <;> simp [Spec.count]
  | cons f fs ih =>
    rw [summaryLoop]
    cases hg : Dict.get? d f.status with
    | none =>
      have : f.status ∉ Dict.keys d := Dict.get?_eq_none.1 hg
      refine ⟨by simp, ?_, ?_⟩
      · simp [this]
      · intro e he
        injection he with he
        exact he.symm
    | some n =>
      have hk : f.status ∈ Dict.keys d := by
        by_contra hc
        rw [Dict.get?_eq_none.2 hc] at hg
        simp at hg
      have hkeys := keys_set_of_has (m := n + 1) hg
      obtain ⟨i1, i2, i3⟩ := ih (Dict.set d f.status (n + 1))
      refine ⟨?_, ?_, i3⟩
      · intro r hr
        obtain ⟨a, b⟩ := i1 r hr
        refine ⟨a.trans hkeys, fun s => ?_⟩
        rw [b, Dict.get?_set, count_cons]
        by_cases h : f.status = s
        · subst h
          simp [hg]; omega
        · simp [h]
      · simp only
        rw [i2, hkeys]
        constructor
        · rintro ⟨g, hgm, h⟩
          exact ⟨g, by simp [hgm], h⟩
        · rintro ⟨g, hgm, h⟩
          rcases List.mem_cons.1 hgm with rfl | hgm
          · exact absurd hk h
          · exact ⟨g, hgm, h⟩

theorem mem_keys_summaryInit (sts : List Status) (s : Status) :
    s ∈ Dict.keys (summaryInit sts) ↔ s ∈ sts := by
  have h := summaryInit_get sts [] s
  constructor
  · intro hk
    by_contra hs
    simp only [hs, if_false] at h
    exact (Dict.get?_eq_none.1 (h.trans rfl)) hk
  · intro hs
    by_contra hk
    rw [if_pos hs] at h
    rw [summaryInit] at hk
    rw [Dict.get?_eq_none.2 hk] at h
    simp at h

theorem nodup_keys_summaryInit (sts : List Status) :
    (Dict.keys (summaryInit sts)).Nodup := by
  have : ∀ d : Dict Status Nat, (Dict.keys d).Nodup →
      (Dict.keys (sts.foldl (fun d s => Dict.set d s 0) d)).Nodup := by
    induction sts with
    | nil => exact fun d h => h
    | cons t sts ih => exact fun d h => ih _ (Dict.nodup_keys_set h _ _)
  exact this [] List.nodup_nil

/-- The statuses a summary is made for: those requested, or all eight. -/
def requested (sts : List Status) : List Status :=
  if sts = [] then [.ok, .note, .warn, .error, .todo, .unused, .comment, .optional] else sts

/-- C03: `finding_summary(sts)` raises exactly when a finding has a status that is not
requested, and then raises `KeyError`. -/
theorem findingSummary_error_iff (sts : List Status) (fs : List Finding) (e : PyErr) :
    findingSummary sts fs = .error e ↔
      e = .keyError ∧ ∃ f ∈ fs, f.status ∉ requested sts := by
  have hr : (if sts = [] then Status.all else sts) = requested sts := rfl
  obtain ⟨_, h2, h3⟩ := summaryLoop_spec (summaryInit (requested sts)) fs
  rw [findingSummary, hr]
  simp only [mem_keys_summaryInit] at h2
  constructor
  · intro h
    have := h3 e h
    subst this
    exact ⟨rfl, h2.1 h⟩
  · rintro ⟨rfl, h⟩
    exact h2.2 h

/-- C03: a summary that is returned has exactly one entry for every requested status, and
it is the number of findings with that status. -/
theorem findingSummary_exact {sts : List Status} {fs : List Finding} {r : Dict Status Nat}
    (h : findingSummary sts fs = .ok r) :
    (Dict.keys r).Nodup ∧ ∀ s n, (s, n) ∈ r ↔ s ∈ requested sts ∧ n = Spec.count s fs := by
  have hr : (if sts = [] then Status.all else sts) = requested sts := rfl
  rw [findingSummary, hr] at h
  obtain ⟨h1, _, _⟩ := summaryLoop_spec (summaryInit (requested sts)) fs
  obtain ⟨hk, hg⟩ := h1 r h
  have hn : (Dict.keys r).Nodup := hk ▸ nodup_keys_summaryInit _
  refine ⟨hn, fun s n => ?_⟩
  have hs := hg s
  rw [summaryInit, summaryInit_get] at hs
  constructor
  · intro hm
    rw [Dict.get?_of_mem hn hm] at hs
    by_cases hq : s ∈ requested sts
    · simp only [hq, if_true, Option.map_some, Option.some.injEq] at hs
      exact ⟨hq, by omega⟩
    · simp [hq, Dict.get?] at hs
  · rintro ⟨hq, rfl⟩
    simp only [hq, if_true, Option.map_some] at hs
    exact Dict.mem_of_get? (by simpa using hs)

/-- C03: without a selection the summary always exists, lists the eight statuses in their
published order, and its counts add up to the number of findings. -/
theorem findingSummary_total (fs : List Finding) :
    ∃ r, findingSummary [] fs = .ok r ∧
      Dict.keys r = [.ok, .note, .warn, .error, .todo, .unused, .comment, .optional] ∧
      (Dict.values r).sum = fs.length := by
  have hne : ∀ e, findingSummary [] fs ≠ .error e := by
    intro e he
    obtain ⟨_, f, _, hf⟩ := (findingSummary_error_iff [] fs e).1 he
    apply hf
    cases f.status <;> simp [requested]
  cases h : findingSummary [] fs with
  | error e => exact absurd h (hne e)
  | ok r =>
    refine ⟨r, rfl, ?_, ?_⟩
    · have h' := h
      rw [findingSummary] at h'
      exact ((summaryLoop_spec _ fs).1 r h').1
    · have h' := h
      rw [findingSummary] at h'
      have hk := ((summaryLoop_spec _ fs).1 r h').1
      obtain ⟨_, he⟩ := findingSummary_exact h
      have hv : Dict.values r = (Dict.keys r).map (fun s => Spec.count s fs) := by
        rw [Dict.values, Dict.keys, List.map_map]
        apply List.map_congr_left
        rintro ⟨s, n⟩ hm
        exact ((he s n).1 hm).2
      rw [hv, hk]
      have hlen : ∀ l : List Finding,
          ((Dict.keys (summaryInit (if ([] : List Status) = [] then Status.all else []))).map
            (fun s => Spec.count s l)).sum = l.length := by
        intro l
        induction l with
        | nil => rfl
        | cons f l ih =>
          rw [List.length_cons, ← ih]
          have hk8 : Dict.keys (summaryInit (if ([] : List Status) = [] then Status.all else []))
            = [.ok, .note, .warn, .error, .todo, .unused, .comment, .optional] := rfl
          rw [hk8]
          simp only [List.map_cons, List.map_nil, List.sum_cons, List.sum_nil, count_cons]
          cases f.status <;> simp <;> omega
      exact hlen fs

example : findingSummary [.ok, .note] [sampleFinding .ok] = .ok [(.ok, 1), (.note, 0)] := by
  decide

example : findingSummary [.note] [sampleFinding .ok] = .error .keyError := by decide

/-! ## C04: the report -/

/-- The documented sort key of a row: address, value and description as text, with a
blank inserted before every `@`. -/
def rowKey (a : Str) (s : Status) : Str :=
  (a ++ [' '] ++
    (match s with
      | .ok => s%"-100" | .note => s%"-75" | .warn => s%"-25" | .error => s%"10000000"
      | .optional => s%"-99" | .todo | .unused | .comment => s%"  0") ++
    [' '] ++ s.description).flatMap (fun c => if c = '@' then [' ', '@'] else [c])

/-- Key of a finding with an address (findings without address make the report fail). -/
def findingKey (f : Finding) : Str := rowKey (f.addr.getD []) f.status

theorem sortKey_eq (f : Finding) :
    sortKey f = if f.addr = none then .error .typeError else .ok (findingKey f) := by
  rcases f with ⟨a, t, s, c⟩
  cases a with
  | none => simp [sortKey]
  | some a => cases s <;> rfl

theorem withKeys_eq (fs : List Finding) :
    withKeys fs = if ∃ f ∈ fs, f.addr = none then .error .typeError
      else .ok (fs.map (fun f => (findingKey f, f))) := by
  induction fs with
  | nil => simp [withKeys]
  | cons f fs ih =>
    rw [withKeys, sortKey_eq, ih]
    by_cases h : f.addr = none
    · simp [h]; rfl
    · by_cases h2 : ∃ f ∈ fs, f.addr = none
      · have h3 : ∃ g ∈ f :: fs, g.addr = none := by
          obtain ⟨g, hg, h'⟩ := h2; exact ⟨g, by simp [hg], h'⟩
        rw [if_neg h, if_pos h2, if_pos h3]; rfl
      · have h3 : ¬ ∃ g ∈ f :: fs, g.addr = none := by
          rintro ⟨g, hg, h'⟩
          rcases List.mem_cons.1 hg with rfl | hg
          · exact h h'
          · exact h2 ⟨g, hg, h'⟩
        rw [if_neg h, if_neg h2, if_neg h3]; rfl

/-- The statuses a report shows: those named in the selection, or all if it is empty. -/
def isSelected (sel : List Str) (f : Finding) : Bool :=
  sel.isEmpty || sel.contains f.status.key

theorem reportRows_eq (sel : List Str) (fs : List Finding) :
    reportRows sel fs = if ∃ f ∈ fs, f.addr = none then .error .typeError
      else .ok ((sortBy (fun f g => strLe (findingKey f) (findingKey g)) fs).filter
        (isSelected sel)) := by
  rw [reportRows, withKeys_eq]
  by_cases h : ∃ f ∈ fs, f.addr = none
  · simp only [h, if_true]; rfl
  · simp only [h, if_false]
    have hm := sortBy_map (le := fun f g => strLe (findingKey f) (findingKey g))
      (le' := fun a b : Str × Finding => strLe a.1 b.1) (fun f => (findingKey f, f))
      (fun _ _ => rfl) fs
    show Except.ok _ = Except.ok _
    rw [← hm, List.map_map]
    simp only [Function.comp_def, List.map_id']
    congr 1
    apply List.filter_congr
    intro f _
    by_cases hs : sel = []
    · subst hs
      simp only [isSelected]
      cases f.status <;> decide
    · cases sel with
      | nil => exact absurd rfl hs
      | cons a l => simp [isSelected]

/-- C04: the report fails exactly when some finding has no address (`TypeError`). -/
theorem reportRows_error_iff (sel : List Str) (fs : List Finding) (e : PyErr) :
    reportRows sel fs = .error e ↔ e = .typeError ∧ ∃ f ∈ fs, f.addr = none := by
  rw [reportRows_eq]
  by_cases h : ∃ f ∈ fs, f.addr = none
  · simp [h, eq_comm]
  · simp [h]

/-- C04: every report that is printed contains each finding whose status is selected,
exactly as often as it was recorded, and nothing else. -/
theorem reportRows_perm {sel : List Str} {fs rows : List Finding}
    (h : reportRows sel fs = .ok rows) :
    rows.Perm (fs.filter (fun f => sel = [] ∨ f.status.key ∈ sel)) := by
  rw [reportRows_eq] at h
  split at h
  · simp at h
  · injection h with h
    subst h
    have hf : fs.filter (fun f => decide (sel = [] ∨ f.status.key ∈ sel)) =
        fs.filter (isSelected sel) := by
      apply List.filter_congr
      intro f _
      cases sel <;> simp [isSelected]
    rw [hf]
    exact (sortBy_perm fs).filter _

/-- C04: the rows are in ascending order of their key. -/
theorem reportRows_sorted {sel : List Str} {fs rows : List Finding}
    (h : reportRows sel fs = .ok rows) :
    rows.Pairwise (fun f g => strLe (findingKey f) (findingKey g) = true) := by
  rw [reportRows_eq] at h
  split at h
  · simp at h
  · injection h with h
    subst h
    exact List.Pairwise.filter _
      (sortBy_sorted (le := fun f g => strLe (findingKey f) (findingKey g))
        (fun a b => strLe_total _ _) (fun a b c => strLe_trans) fs)

/-- C04: rows with equal keys are in the order in which they were recorded. -/
theorem reportRows_stable {sel : List Str} {fs rows : List Finding}
    (h : reportRows sel fs = .ok rows) (k : Str) :
    rows.filter (fun f => findingKey f = k) =
      (fs.filter (fun f => sel = [] ∨ f.status.key ∈ sel)).filter (fun f => findingKey f = k) := by
  rw [reportRows_eq] at h
  split at h
  · simp at h
  · injection h with h
    subst h
    have hf : fs.filter (fun f => decide (sel = [] ∨ f.status.key ∈ sel)) =
        fs.filter (isSelected sel) := by
      apply List.filter_congr
      intro f _
      cases sel <;> simp [isSelected]
    rw [hf, List.filter_comm, List.filter_comm (l := fs)]
    rw [sortBy_filter]
    intro a b ha hb
    simp only [decide_eq_true_eq] at ha hb
    rw [ha, hb]
    exact strLe_refl _

/-- C04: the report for a selection is the full report without the other rows. -/
theorem reportRows_selection (sel : List Str) (fs : List Finding) (hsel : sel ≠ []) :
    reportRows sel fs =
      (reportRows [] fs).map (fun rows => rows.filter (fun f => f.status.key ∈ sel)) := by
  rw [reportRows_eq, reportRows_eq]
  by_cases h : ∃ f ∈ fs, f.addr = none
  · simp only [h, if_true]; rfl
  · simp only [h, if_false]
    show Except.ok _ = Except.ok _
    congr 1
    show _ = List.filter _ (List.filter _ _)
    rw [List.filter_filter]
    apply List.filter_congr
    intro f _
    cases sel with
    | nil => exact absurd rfl hsel
    | cons a l => simp [isSelected]

example : reportRows [s%"NOTE"]
    [⟨some s%"/b", [], .note, []⟩, ⟨some s%"/c", [], .ok, []⟩, ⟨some s%"/a", [], .note, []⟩] =
    .ok [⟨some s%"/a", [], .note, []⟩, ⟨some s%"/b", [], .note, []⟩] := by decide

/-! ## C59: order of the rows -/

theorem strLe_append_left (p x y : Str) : strLe (p ++ x) (p ++ y) = strLe x y := by
  induction p with
  | nil => rfl
  | cons a p ih => simp [strLe, ih]

/-- The text after the address in the key. -/
def keyTail (s : Status) : Str := rowKey [] s

theorem rowKey_append (a : Str) (s : Status) :
    rowKey a s = a.flatMap (fun c => if c = '@' then [' ', '@'] else [c]) ++ keyTail s := by
  cases s <;> simp [rowKey, keyTail]

/-- Keys of rows at one address. -/
theorem same_address_order (a : Str) (s t : Status) :
    strLe (rowKey a s) (rowKey a t) = true ↔ Spec.printedRank s ≤ Spec.printedRank t := by
  rw [rowKey_append, rowKey_append, strLe_append_left]
  cases s <;> cases t <;> decide

/-- Keys of an object and of its attributes. -/
theorem object_before_attribute (a n : Str) (s t : Status) :
    strLe (rowKey a s) (rowKey (a ++ '@' :: n) t) = true ∧
    ¬ strLe (rowKey (a ++ '@' :: n) t) (rowKey a s) = true := by
  rw [rowKey_append, rowKey_append, List.flatMap_append, List.append_assoc, strLe_append_left,
    strLe_append_left]
  cases s <;> simp [keyTail, rowKey, strLe, Status.description]

/-- Keys of an object and of what is below it. -/
theorem object_before_children (a r : Str) (c : Char) (hc : 32 < c.toNat) (hat : c ≠ '@')
    (s t : Status) :
    (strLe (rowKey a s) (rowKey (a ++ c :: r) t) = true ∧
      ¬ strLe (rowKey (a ++ c :: r) t) (rowKey a s) = true) ∧
    ∀ n u, strLe (rowKey (a ++ '@' :: n) u) (rowKey (a ++ c :: r) t) = true ∧
      ¬ strLe (rowKey (a ++ c :: r) t) (rowKey (a ++ '@' :: n) u) = true := by
  have h1 : ¬ ' ' = c := by rintro rfl; revert hc; decide
  have h2 : ¬ c = ' ' := fun e => h1 e.symm
  have h3 : (' ').toNat = 32 := rfl
  constructor
  · rw [rowKey_append, rowKey_append, List.flatMap_append, List.append_assoc, strLe_append_left,
      strLe_append_left]
    cases s <;> simp [keyTail, rowKey, strLe, hat, h1, h2] <;> omega
  · intro n u
    rw [rowKey_append, rowKey_append, List.flatMap_append, List.flatMap_append, List.append_assoc,
      List.append_assoc, strLe_append_left, strLe_append_left]
    simp [strLe, hat, h1, h2]
    omega

theorem rows_ordered {sel : List Str} {fs rows : List Finding}
    (h : reportRows sel fs = .ok rows) :
    rows.Pairwise (fun f g => ∀ a b, f.addr = some a → g.addr = some b →
      strLe (rowKey a f.status) (rowKey b g.status) = true) := by
  refine (reportRows_sorted h).imp ?_
  intro f g hfg a b ha hb
  simpa [findingKey, ha, hb] using hfg

/-- C59: at one address rows are printed in the order COMMENT, UNUSED, TODO, OK, WARN, NOTE,
OPTIONAL, ERROR. -/
theorem rows_same_address_partial {sel : List Str} {fs rows : List Finding}
    (h : reportRows sel fs = .ok rows) :
    rows.Pairwise (fun f g => f.addr = g.addr →
      Spec.printedRank f.status ≤ Spec.printedRank g.status) := by
  have hno : ∀ f ∈ rows, f.addr ≠ none := by
    intro f hf hn
    have hm := (List.mem_filter.1 ((reportRows_perm h).mem_iff.1 hf)).1
    have := (reportRows_error_iff sel fs .typeError).2 ⟨rfl, f, hm, hn⟩
    rw [h] at this
    cases this
  refine List.Pairwise.imp_of_mem ?_ (rows_ordered h)
  intro f g hf _ hfg he
  cases ha : f.addr with
  | none => exact absurd ha (hno f hf)
  | some a => exact (same_address_order a _ _).1 (hfg a a ha (he ▸ ha))

/-- C59 (negation): the comment in the code says "sort from best to worst", but a WARN
(25) comes before a NOTE (75) at the same address, in whatever order they were found. -/
theorem not_best_to_worst :
    ∃ s t : Status, Spec.weight s < Spec.weight t ∧ ∀ a n m c d,
      reportRows [] [⟨some a, n, s, c⟩, ⟨some a, m, t, d⟩] =
        .ok [⟨some a, n, s, c⟩, ⟨some a, m, t, d⟩] ∧
      reportRows [] [⟨some a, m, t, d⟩, ⟨some a, n, s, c⟩] =
        .ok [⟨some a, n, s, c⟩, ⟨some a, m, t, d⟩] := by
  refine ⟨.warn, .note, by decide, fun a n m c d => ?_⟩
  have h1 : strLe (rowKey a .warn) (rowKey a .note) = true :=
    (same_address_order a _ _).2 (by decide)
  have h2 : strLe (rowKey a .note) (rowKey a .warn) = false := by
    rw [Bool.eq_false_iff]
    intro hc
    exact absurd ((same_address_order a _ _).1 hc) (by decide)
  constructor <;> rw [reportRows_eq] <;>
    simp [sortBy, insertBy, findingKey, h1, h2, isSelected]

/-- C59: no row of an object comes after a row of one of its attributes. -/
theorem rows_object_before_attribute {sel : List Str} {fs rows : List Finding}
    (h : reportRows sel fs = .ok rows) :
    rows.Pairwise (fun f g => ¬ ∃ a n, f.addr = some (a ++ '@' :: n) ∧ g.addr = some a) := by
  refine (rows_ordered h).imp ?_
  rintro f g hfg ⟨a, n, hf, hg⟩
  exact (object_before_attribute a n g.status f.status).2 (hfg _ _ hf hg)

/-- C59: no row of an object or of one of its attributes comes after a row of something
whose address continues that of the object with a visible character other than `@`. -/
theorem rows_object_before_children {sel : List Str} {fs rows : List Finding}
    (h : reportRows sel fs = .ok rows) :
    rows.Pairwise (fun f g => ¬ ∃ a c r, 32 < Char.toNat c ∧ c ≠ '@' ∧
      f.addr = some (a ++ c :: r) ∧ (g.addr = some a ∨ ∃ n, g.addr = some (a ++ '@' :: n))) := by
  refine (rows_ordered h).imp ?_
  rintro f g hfg ⟨a, c, r, hc, hat, hf, hg | ⟨n, hg⟩⟩
  · exact (object_before_children a r c hc hat g.status f.status).1.2 (hfg _ _ hf hg)
  · exact ((object_before_children a r c hc hat g.status f.status).2 n g.status).2 (hfg _ _ hf hg)

example : reportRows []
    [⟨some s%"/a/b", [], .ok, []⟩, ⟨some s%"/a@x", [], .ok, []⟩, ⟨some s%"/a", [], .note, []⟩,
      ⟨some s%"/a", [], .warn, []⟩] =
    .ok [⟨some s%"/a", [], .warn, []⟩, ⟨some s%"/a", [], .note, []⟩,
      ⟨some s%"/a@x", [], .ok, []⟩, ⟨some s%"/a/b", [], .ok, []⟩] := by decide

/-! ## C05: construction and identity of findings -/

/-- C05: a `Finding` is built exactly for the eight published statuses; any other status
object raises `ValueError`. -/
theorem mkFinding_iff (a : Option Str) (t c : Str) (s : StatusObj) :
    (∀ f, mkFinding a t s c = .ok f ↔ ∃ st, s = .valid st ∧ f = ⟨a, t, st, c⟩) ∧
    (∀ e, mkFinding a t s c = .error e ↔ e = .valueError ∧ ∃ n, s = .other n) := by
  cases s with
  | valid st =>
    have : st ∈ Status.all := by cases st <;> decide
    simp [mkFinding, this, eq_comm]
  | other n => simp [mkFinding, eq_comm]

theorem append_sep_inj {c : Char} {a a' t t' : Str} (h1 : c ∉ a) (h2 : c ∉ a')
    (h : a ++ [c] ++ t = a' ++ [c] ++ t') : a = a' ∧ t = t' := by
  induction a generalizing a' with
  | nil =>
    cases a' with
    | nil => simpa using h
    | cons b bs =>
      simp at h
      exact absurd (by simp [h.1]) h2
  | cons b bs ih =>
    cases a' with
    | nil =>
      simp at h
      exact absurd (by simp [h.1]) h1
    | cons b' bs' =>
      simp only [List.cons_append, List.cons.injEq] at h
      obtain ⟨e1, e2⟩ := ih (a' := bs') (fun m => h1 (by simp [m])) (fun m => h2 (by simp [m])) h.2
      simp [h.1, e1, e2]

/-- C05: the text that is hashed identifies address and test name, when addresses contain
no newline. -/
theorem md5Preimage_injective {f g : Finding} {x : Str}
    (hf : md5Preimage f = .ok x) (hg : md5Preimage g = .ok x)
    (nf : ∀ a, f.addr = some a → '\n' ∉ a) (ng : ∀ a, g.addr = some a → '\n' ∉ a) :
    f.addr = g.addr ∧ f.test = g.test := by
  rcases f with ⟨_ | a, t, s, c⟩ <;> rcases g with ⟨_ | a', t', s', c'⟩ <;>
    simp [md5Preimage] at hf hg
  have := append_sep_inj (nf a rfl) (ng a' rfl) (by simpa using hf.trans hg.symm)
  simp [this.1, this.2]

/-- C05: with newlines in addresses two different pairs can collide. -/
theorem md5Preimage_collision :
    ∃ f g : Finding, f.addr ≠ g.addr ∧ f.test ≠ g.test ∧ md5Preimage f = md5Preimage g :=
  ⟨⟨some s%"/a", s%"b\nc", .ok, []⟩, ⟨some s%"/a\nb", s%"c", .ok, []⟩, by decide⟩

example : ∃ f g : Finding, ∃ x, md5Preimage f = .ok x ∧ md5Preimage g = .ok x ∧
    (∀ a, f.addr = some a → '\n' ∉ a) ∧ (∀ a, g.addr = some a → '\n' ∉ a) :=
  ⟨⟨some s%"/a", s%"b", .ok, []⟩, ⟨some s%"/a", s%"b", .note, s%"c"⟩, s%"/a\nb", rfl, rfl,
    by decide⟩

end Punx

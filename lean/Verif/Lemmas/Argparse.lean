import Verif.Spec.Argparse
import Verif.Lemmas.Basic

/-!
# Lemmas about reading arguments: one argument
-/

namespace Punx

variable {t : Texts} {p : CliParser}

theorem mem_table {n : Str} {o : CliOpt} : (n, o) ∈ p.table ↔ HasName p n o := by
  unfold CliParser.table HasName
  simp only [List.mem_flatMap, List.mem_map, Prod.mk.injEq]
  constructor
  · rintro ⟨o', h, n', h', rfl, rfl⟩
    exact ⟨h, h'⟩
  · rintro ⟨h, h'⟩
    exact ⟨o, h, n, h', rfl, rfl⟩

theorem table_keys : p.table.map Prod.fst = p.opts.flatMap (·.names) := by
  unfold CliParser.table
  rw [List.map_flatMap]
  congr 1
  funext o
  simp [List.map_map, Function.comp_def]

theorem nodup_keys (hp : WellNamed p) : (p.table.map Prod.fst).Nodup := by
  rw [table_keys]
  exact hp.distinct

theorem pair_unique {α β : Type} : ∀ {l : List (α × β)}, (l.map Prod.fst).Nodup →
    ∀ {a b b'}, (a, b) ∈ l → (a, b') ∈ l → b = b'
  | [], _, _, _, _, h, _ => by simp at h
  | x :: l, hn, a, b, b', h, h' => by
    simp only [List.map_cons, List.nodup_cons] at hn
    rcases List.mem_cons.1 h with rfl | h1 <;> rcases List.mem_cons.1 h' with h2 | h2
    · simp_all
    · exact absurd (List.mem_map.2 ⟨_, h2, rfl⟩) hn.1
    · subst h2
      exact absurd (List.mem_map.2 ⟨_, h1, rfl⟩) hn.1
    · exact pair_unique hn.2 h1 h2

theorem HasName.unique (hp : WellNamed p) {n : Str} {o o' : CliOpt} (h : HasName p n o)
    (h' : HasName p n o') : o = o' :=
  pair_unique (nodup_keys hp) (mem_table.2 h) (mem_table.2 h')

theorem named_some (hp : WellNamed p) {n : Str} {o : CliOpt} :
    p.named n = some o ↔ HasName p n o := by
  unfold CliParser.named
  constructor
  · intro h
    simp only [Option.map_eq_some_iff] at h
    obtain ⟨⟨n', o'⟩, h, rfl⟩ := h
    have h1 := List.find?_some h
    have h2 := List.mem_of_find?_eq_some h
    simp only [beq_iff_eq] at h1
    subst h1
    exact mem_table.1 h2
  · intro h
    have hm := mem_table.2 h
    cases hf : p.table.find? (fun e => e.1 == n) with
    | none =>
      rw [List.find?_eq_none] at hf
      simpa using hf _ hm
    | some e =>
      have h1 := List.find?_some hf
      have h2 := List.mem_of_find?_eq_some hf
      obtain ⟨n', o'⟩ := e
      simp only [beq_iff_eq] at h1
      subst h1
      simp only [Option.map_some, Option.some.injEq]
      exact HasName.unique hp (mem_table.1 h2) h

theorem named_none (hp : WellNamed p) {n : Str} : p.named n = none ↔ ∀ o, ¬ HasName p n o := by
  constructor
  · intro h o ho
    rw [(named_some hp).2 ho] at h
    simp at h
  · intro h
    cases hn : p.named n with
    | none => rfl
    | some o => exact absurd ((named_some hp).1 hn) (h o)

theorem partitionEq_none {a : Str} (h : '=' ∉ a) : partitionEq a = (a, none) := by
  induction a with
  | nil => rfl
  | cons c a ih =>
    simp only [List.mem_cons, not_or] at h
    have hc : (c == '=') = false := by simpa using fun h' => h.1 h'.symm
    simp [partitionEq, hc, ih h.2]

theorem partitionEq_some {n v : Str} (h : '=' ∉ n) : partitionEq (n ++ '=' :: v) = (n, some v) := by
  induction n with
  | nil => simp [partitionEq]
  | cons c a ih =>
    simp only [List.mem_cons, not_or] at h
    have hc : (c == '=') = false := by simpa using fun h' => h.1 h'.symm
    simp [partitionEq, hc, ih h.2]

theorem eq_cases (a : Str) : '=' ∉ a ∨ ∃ n v, a = n ++ '=' :: v ∧ '=' ∉ n := by
  induction a with
  | nil => exact Or.inl (by simp)
  | cons c a ih =>
    by_cases hc : c = '='
    · subst hc
      exact Or.inr ⟨[], a, rfl, by simp⟩
    · rcases ih with h | ⟨n, v, rfl, h⟩
      · exact Or.inl (by simp [h, Ne.symm hc])
      · exact Or.inr ⟨c :: n, v, rfl, by simp [h, Ne.symm hc]⟩

theorem eq_split_unique {n n' v v' : Str} (h : '=' ∉ n) (h' : '=' ∉ n')
    (he : n ++ '=' :: v = n' ++ '=' :: v') : n = n' ∧ v = v' := by
  have h1 := partitionEq_some (v := v) h
  rw [he, partitionEq_some h'] at h1
  simp only [Prod.mk.injEq, Option.some.injEq] at h1
  exact ⟨h1.1.symm, h1.2.symm⟩

/-- What is meant by an argument that means no option. -/
def fallback (t : Texts) (a : Str) : Except PyErr (Option OptUse) :=
  if t.negative a then .ok none
  else if a.contains ' ' then .ok none
  else .ok (some ⟨a, none, false, false, none⟩)

theorem starts_dash {a : Str} : startsWith ('-' :: a) s%"-" = true := by
  rw [startsWith_iff]; exact ⟨a, rfl⟩

theorem starts_two {a : Str} : startsWith ('-' :: '-' :: a) s%"--" = true := by
  rw [startsWith_iff]; exact ⟨a, rfl⟩

theorem starts_one {c : Char} {a : Str} (h : c ≠ '-') : startsWith ('-' :: c :: a) s%"--" = false := by
  rw [Bool.eq_false_iff]
  intro h'
  rw [startsWith_iff] at h'
  obtain ⟨b, hb⟩ := h'
  simp at hb
  exact h hb.1.symm

/-- The names beginning with `n`. -/
def matching (p : CliParser) (n : Str) : List (Str × CliOpt) :=
  p.table.filter fun e => startsWith e.1 n

theorem mem_matching {n m : Str} {o : CliOpt} :
    (m, o) ∈ matching p n ↔ HasName p m o ∧ n <+: m := by
  unfold matching
  rw [List.mem_filter, mem_table, startsWith_iff]

theorem matching_nodup (hp : WellNamed p) (n : Str) : ((matching p n).map Prod.fst).Nodup :=
  (nodup_keys hp).sublist ((List.filter_sublist).map _)

/-- The three cases for a beginning of a name. -/
theorem matching_cases (hp : WellNamed p) {n : Str} (hn : ∀ o, ¬ HasName p n o) :
    (matching p n = [] ∧ ∀ m o, HasName p m o → ¬ n <+: m) ∨
    (∃ m o, matching p n = [(m, o)] ∧ StandsFor p n o) ∨
    (∃ x y l, matching p n = x :: y :: l ∧ (∃ m o m' o', HasName p m o ∧ HasName p m' o' ∧ m ≠ m' ∧
      n <+: m ∧ n <+: m') ∧ ∀ o, ¬ StandsFor p n o) := by
  have hnd := matching_nodup hp n
  match hm : matching p n with
  | [] =>
    refine Or.inl ⟨rfl, fun m o h h' => ?_⟩
    have := mem_matching.2 ⟨h, h'⟩
    rw [hm] at this
    simp at this
  | [(m, o)] =>
    have h1 : (m, o) ∈ matching p n := by rw [hm]; simp
    obtain ⟨h1, h2⟩ := mem_matching.1 h1
    refine Or.inr (Or.inl ⟨m, o, rfl, Or.inr ⟨hn, m, h1, h2, fun m' o' h h' => ?_⟩⟩)
    have := mem_matching.2 ⟨h, h'⟩
    rw [hm] at this
    simp only [List.mem_singleton, Prod.mk.injEq] at this
    exact this.1
  | (m, o) :: (m', o') :: l =>
    have h1 : (m, o) ∈ matching p n := by rw [hm]; simp
    have h2 : (m', o') ∈ matching p n := by rw [hm]; simp
    rw [hm] at hnd
    have hne : m ≠ m' := by
      simp only [List.map_cons, List.nodup_cons, List.mem_cons, not_or] at hnd
      exact hnd.1.1
    obtain ⟨h1, h3⟩ := mem_matching.1 h1
    obtain ⟨h2, h4⟩ := mem_matching.1 h2
    refine Or.inr (Or.inr ⟨_, _, l, rfl, ⟨m, o, m', o', h1, h2, hne, h3, h4⟩, ?_⟩)
    rintro o'' (h | ⟨-, m'', -, -, hu⟩)
    · exact hn _ h
    · exact hne ((hu _ _ h1 h3).trans (hu _ _ h2 h4).symm)

theorem StandsFor.unique (hp : WellNamed p) {n : Str} {o o' : CliOpt} (h : StandsFor p n o)
    (h' : StandsFor p n o') : o = o' := by
  rcases h with h | ⟨hn, m, h1, h2, hu⟩ <;> rcases h' with h' | ⟨hn', m', h1', h2', hu'⟩
  · exact h.unique hp h'
  · exact absurd h (hn' _)
  · exact absurd h' (hn _)
  · have := hu' _ _ h1 h2
    subst this
    exact h1.unique hp h1'

/-- A name has no `=`. -/
theorem HasName.no_eq (hp : WellNamed p) {n : Str} {o : CliOpt} (h : HasName p n o) : '=' ∉ n := by
  rcases hp.shape _ _ h with ⟨c, rfl, -, hc⟩ | ⟨s, rfl, -, hs⟩
  · simp [Ne.symm hc]
  · simp [hs]

/-- Names with one dash are one letter. -/
theorem HasName.letter (hp : WellNamed p) {c : Char} {s : Str} {o : CliOpt} (hc : c ≠ '-')
    (h : HasName p ('-' :: c :: s) o) : s = [] := by
  rcases hp.shape _ _ h with ⟨c', h', -⟩ | ⟨s', h', -⟩
  · simp at h'
    exact h'.2
  · simp at h'
    exact absurd h'.1 hc

theorem not_dash (hp : WellNamed p) (o : CliOpt) : ¬ HasName p ['-'] o := by
  intro h
  rcases hp.shape _ _ h with ⟨c', h', -⟩ | ⟨s', h', -⟩ <;> simp at h'

theorem not_dashes (hp : WellNamed p) (o : CliOpt) : ¬ HasName p ['-', '-'] o := by
  intro h
  rcases hp.shape _ _ h with ⟨c', h', h1, -⟩ | ⟨s', h', h1, -⟩
  · simp at h'
    exact h1 h'.symm
  · simp at h'
    exact h1 h'

theorem not_eq_letter (hp : WellNamed p) (o : CliOpt) : ¬ HasName p ['-', '='] o := fun h =>
  absurd (by simp) (h.no_eq hp)

/-! ## `parseOptional` -/

theorem parse_no_dash {a : Str} (h : a.head? ≠ some '-') : parseOptional t p a = .ok none := by
  unfold parseOptional
  have : startsWith a s%"-" = false := by
    rw [Bool.eq_false_iff]
    intro h'
    rw [startsWith_iff] at h'
    obtain ⟨b, rfl⟩ := h'
    simp at h
  simp [this]

theorem parse_dash (hp : WellNamed p) : parseOptional t p ['-'] = .ok none := by
  unfold parseOptional
  rw [starts_dash, (named_none hp).2 (not_dash hp)]
  simp

/-- Two dashes, no `=`. -/
theorem parse_long {n : Str} (hp : WellNamed p) (hn : n ≠ []) (he : '=' ∉ n) :
    (∃ o, StandsFor p ('-' :: '-' :: n) o ∧ parseOptional t p ('-' :: '-' :: n) =
      .ok (some ⟨'-' :: '-' :: n, some o, true, false, none⟩)) ∨
    (Ambiguous p ('-' :: '-' :: n) ∧ (∀ o, ¬ StandsFor p ('-' :: '-' :: n) o) ∧
      parseOptional t p ('-' :: '-' :: n) = .error (.systemExit 2)) ∨
    ((∀ m o, HasName p m o → ¬ '-' :: '-' :: n <+: m) ∧
      parseOptional t p ('-' :: '-' :: n) = fallback t ('-' :: '-' :: n)) := by
  have he' : '=' ∉ '-' :: '-' :: n := by simp [he]
  unfold parseOptional
  rw [starts_dash]
  simp only [Bool.not_true, Bool.false_eq_true, if_false]
  cases hs : p.named ('-' :: '-' :: n) with
  | some o =>
    refine Or.inl ⟨o, Or.inl ((named_some hp).1 hs), ?_⟩
    simp [starts_two]
  | none =>
    have hno := (named_none hp).1 hs
    have hl : (('-' :: '-' :: n).length == 1) = false := by simp
    simp only [hl, Bool.false_eq_true, if_false]
    rw [partitionEq_none he']
    simp only [optionTuples, starts_two, if_true, partitionEq_none he']
    change _ ∨ _ ∨ _
    rw [show (p.table.filter fun e => startsWith e.1 ('-' :: '-' :: n)) = matching p ('-' :: '-' :: n)
      from rfl]
    rcases matching_cases hp hno with ⟨h1, h2⟩ | ⟨m, o, h1, h2⟩ | ⟨x, y, l, h1, h2, h3⟩
    · refine Or.inr (Or.inr ⟨h2, ?_⟩)
      rw [h1]
      rfl
    · refine Or.inl ⟨o, h2, ?_⟩
      rw [h1]
      rfl
    · refine Or.inr (Or.inl ⟨⟨n, he, Or.inl ⟨rfl, hn⟩, hno, h2⟩, h3, ?_⟩)
      rw [h1]
      rfl

/-- Two dashes, with `=`. -/
theorem parse_long_eq {n v : Str} (hp : WellNamed p) (he : '=' ∉ n) :
    (∃ o, StandsFor p ('-' :: '-' :: n) o ∧ parseOptional t p ('-' :: '-' :: (n ++ '=' :: v)) =
      .ok (some ⟨'-' :: '-' :: (n ++ '=' :: v), some o, true, true, some v⟩)) ∨
    (Ambiguous p ('-' :: '-' :: (n ++ '=' :: v)) ∧ (∀ o, ¬ StandsFor p ('-' :: '-' :: n) o) ∧
      parseOptional t p ('-' :: '-' :: (n ++ '=' :: v)) = .error (.systemExit 2)) ∨
    ((∀ m o, HasName p m o → ¬ '-' :: '-' :: n <+: m) ∧
      parseOptional t p ('-' :: '-' :: (n ++ '=' :: v)) =
        fallback t ('-' :: '-' :: (n ++ '=' :: v))) := by
  have he' : '=' ∉ '-' :: '-' :: n := by simp [he]
  have hpt : partitionEq ('-' :: '-' :: (n ++ '=' :: v)) = ('-' :: '-' :: n, some v) :=
    partitionEq_some (n := '-' :: '-' :: n) he'
  have hno : p.named ('-' :: '-' :: (n ++ '=' :: v)) = none :=
    (named_none hp).2 fun o h => absurd (by simp) (h.no_eq hp)
  unfold parseOptional
  rw [starts_dash]
  simp only [Bool.not_true, Bool.false_eq_true, if_false]
  rw [hno]
  have hl : (('-' :: '-' :: (n ++ '=' :: v)).length == 1) = false := by simp
  simp only [hl, Bool.false_eq_true, if_false]
  rw [hpt]
  cases hs : p.named ('-' :: '-' :: n) with
  | some o =>
    refine Or.inl ⟨o, Or.inl ((named_some hp).1 hs), ?_⟩
    simp [starts_two]
  | none =>
    have hno := (named_none hp).1 hs
    simp only [optionTuples, starts_two, if_true, hpt]
    rw [show (p.table.filter fun e => startsWith e.1 ('-' :: '-' :: n)) = matching p ('-' :: '-' :: n)
      from rfl]
    rcases matching_cases hp hno with ⟨h1, h2⟩ | ⟨m, o, h1, h2⟩ | ⟨x, y, l, h1, h2, h3⟩
    · refine Or.inr (Or.inr ⟨h2, ?_⟩)
      rw [h1]
      rfl
    · refine Or.inl ⟨o, h2, ?_⟩
      rw [h1]
      rfl
    · refine Or.inr (Or.inl ⟨⟨n, he, Or.inr ⟨v, rfl⟩, hno, h2⟩, h3, ?_⟩)
      rw [h1]
      rfl

theorem filterMap_letter (hp : WellNamed p) {c : Char} {s : Str} (hc : c ≠ '-') :
    optionTuples p ('-' :: c :: s) =
      match p.named ['-', c] with
      | some o => [⟨'-' :: c :: s, some o, false, false, some s⟩]
      | none => [] := by
  unfold optionTuples
  rw [starts_one hc]
  simp only [Bool.false_eq_true, if_false, List.take_succ_cons, List.take_zero, List.drop_succ_cons,
    List.drop_zero]
  unfold CliParser.named
  have hk := nodup_keys hp
  have hsh : ∀ e ∈ p.table, startsWith e.1 ('-' :: c :: s) = true → e.1 = ['-', c] := by
    rintro ⟨m, o⟩ he hst
    have hm := mem_table.1 he
    rw [startsWith_iff] at hst
    obtain ⟨b, hb⟩ := hst
    rcases hp.shape _ _ hm with ⟨c', h', -⟩ | ⟨s', h', -⟩
    · subst h'
      simp at hb
      simp [hb.1]
    · subst h'
      simp at hb
      exact absurd hb.1 hc
  generalize p.table = l at hk hsh
  induction l with
  | nil => rfl
  | cons e l ih =>
    obtain ⟨m, o⟩ := e
    simp only [List.map_cons, List.nodup_cons] at hk
    by_cases hm : m = ['-', c]
    · subst hm
      have : l.filterMap (fun e => if e.1 == ['-', c] then
          some (⟨'-' :: c :: s, some e.2, false, false, some s⟩ : OptUse)
          else if startsWith e.1 ('-' :: c :: s) then
            some ⟨'-' :: c :: s, some e.2, startsWith e.1 s%"--", false, none⟩ else none) = [] := by
        rw [List.filterMap_eq_nil_iff]
        rintro ⟨m', o'⟩ he
        have h1 : m' ≠ ['-', c] := by
          rintro rfl
          exact hk.1 (List.mem_map.2 ⟨_, he, rfl⟩)
        have h2 : startsWith m' ('-' :: c :: s) = false := by
          rw [Bool.eq_false_iff]
          intro h
          exact h1 (hsh _ (List.mem_cons_of_mem _ he) h)
        simp [h1, h2]
      rw [List.filterMap_cons, this]
      simp
    · have h2 : startsWith m ('-' :: c :: s) = false := by
        rw [Bool.eq_false_iff]
        intro h
        exact hm (hsh (m, o) (by simp) h)
      have := ih hk.2 (fun e he => hsh e (List.mem_cons_of_mem _ he))
      have hb : (m == ['-', c]) = false := beq_eq_false_iff_ne.2 hm
      rw [List.filterMap_cons, List.find?_cons]
      simp only [hb, h2, Bool.false_eq_true, if_false]
      exact this

/-- One dash: a letter that is an option. -/
theorem parse_letter {c : Char} {s : Str} {o : CliOpt} (hp : WellNamed p)
    (h : HasName p ['-', c] o) :
    parseOptional t p ('-' :: c :: s) =
      .ok (some (match s with
        | [] => ⟨['-', c], some o, false, false, none⟩
        | d :: s' => if d = '=' then ⟨'-' :: c :: d :: s', some o, false, true, some s'⟩
            else ⟨'-' :: c :: d :: s', some o, false, false, some (d :: s')⟩)) := by
  have hc : c ≠ '-' := by
    rintro rfl
    exact not_dashes hp _ h
  have hce : c ≠ '=' := by
    rintro rfl
    exact not_eq_letter hp _ h
  unfold parseOptional
  rw [starts_dash]
  simp only [Bool.not_true, Bool.false_eq_true, if_false]
  cases s with
  | nil =>
    rw [(named_some hp).2 h]
    simp [starts_one hc]
  | cons d s' =>
    have hno : ∀ o, ¬ HasName p ('-' :: c :: d :: s') o := fun o ho => by
      simpa using ho.letter hp hc
    rw [(named_none hp).2 hno]
    have hl : (('-' :: c :: d :: s').length == 1) = false := by simp
    simp only [hl, Bool.false_eq_true, if_false]
    by_cases hd : d = '='
    · subst hd
      rw [show '-' :: c :: '=' :: s' = ['-', c] ++ '=' :: s' from rfl,
        partitionEq_some (by simp [Ne.symm hce])]
      simp only [(named_some hp).2 h]
      simp [starts_one hc]
    · have hx : (partitionEq ('-' :: c :: d :: s')).2 = none ∨
          p.named (partitionEq ('-' :: c :: d :: s')).1 = none := by
        rcases eq_cases s' with he | ⟨n, v, rfl, he⟩
        · left
          rw [partitionEq_none]
          simp [he, Ne.symm hd, Ne.symm hce]
        · right
          rw [show '-' :: c :: d :: (n ++ '=' :: v) = ('-' :: c :: d :: n) ++ '=' :: v from rfl,
            partitionEq_some (by simp [he, Ne.symm hd, Ne.symm hce])]
          exact (named_none hp).2 fun o ho => by simpa using ho.letter hp hc
      have hft := filterMap_letter (s := d :: s') hp hc
      rw [(named_some hp).2 h] at hft
      split
      · rename_i h1 h2
        rcases hx with hx | hx <;> simp_all
      · rw [hft]
        simp [hd]

/-- One dash: a letter that is no option. -/
theorem parse_no_letter {c : Char} {s : Str} (hp : WellNamed p) (hc : c ≠ '-')
    (h : ∀ o, ¬ HasName p ['-', c] o) :
    parseOptional t p ('-' :: c :: s) = fallback t ('-' :: c :: s) := by
  have hno : ∀ s o, ¬ HasName p ('-' :: c :: s) o := fun s o ho => by
    have := ho.letter hp hc
    subst this
    exact h _ ho
  unfold parseOptional
  rw [starts_dash]
  simp only [Bool.not_true, Bool.false_eq_true, if_false]
  rw [(named_none hp).2 (hno s)]
  have hl : (('-' :: c :: s).length == 1) = false := by simp
  simp only [hl, Bool.false_eq_true, if_false]
  have hx : p.named (partitionEq ('-' :: c :: s)).1 = none := by
    rw [named_none hp]
    intro o
    by_cases hce : c = '='
    · subst hce
      rw [show '-' :: '=' :: s = ['-'] ++ '=' :: s from rfl, partitionEq_some (by simp)]
      exact not_dash hp o
    · rcases eq_cases s with he | ⟨n, v, rfl, he⟩
      · rw [partitionEq_none (by simp [he, Ne.symm hce])]
        exact hno _ _
      · rw [show '-' :: c :: (n ++ '=' :: v) = ('-' :: c :: n) ++ '=' :: v from rfl,
          partitionEq_some (by simp [he, Ne.symm hce])]
        exact hno _ _
  have hft := filterMap_letter (s := s) hp hc
  rw [(named_none hp).2 h] at hft
  split
  · rename_i h1 h2
    simp_all
  · rw [hft]
    rfl

end Punx

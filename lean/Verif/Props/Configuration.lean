import Verif.Props.Cli
import Verif.Props.H5TreeAttrs

/-!
# C108, C109: `punx configuration`, `punx demonstrate`
-/

namespace Punx
open Spec

/-! ## C108 -/

theorem allFileSets_nodup {source user : CacheDir} {sets : Dict Str FileSet}
    (h : allFileSets source user = .ok sets) : (Dict.keys sets).Nodup := by
  unfold allFileSets at h
  split at h
  · cases h
  · split at h
    · cases h
    · cases h
      exact nodup_update _ _ (nodup_update _ _ (by simp [Dict.keys]))

theorem comparable_iff {sets : Dict Str FileSet} (hne : sets ≠ []) :
    datesComparable sets = true ↔
      sets.length = 1 ∨ ∀ kv ∈ sets, kv.2.lastModified ≠ none := by
  have hl : 0 < sets.length := List.length_pos_iff.2 hne
  simp only [datesComparable, Bool.or_eq_true, decide_eq_true_eq, List.all_eq_true,
    Option.isSome_iff_ne_none]
  constructor
  · rintro (h | h)
    · exact .inl (by omega)
    · exact .inr h
  · rintro (h | h)
    · exact .inl (by omega)
    · exact .inr h

theorem latest_unique {sets : Dict Str FileSet} {k k' : Str} {s s' : FileSet}
    (h : Latest sets k s) (h' : Latest sets k' s') : k = k' ∧ s = s' := by
  obtain ⟨b, a, e, h1, h2⟩ := h
  obtain ⟨b', a', e', h1', h2'⟩ := h'
  rw [e, List.append_eq_append_iff] at e'
  rcases e' with ⟨m, e1, e2⟩ | ⟨m, e1, e2⟩
  · cases m with
    | nil =>
      simp only [List.nil_append, List.cons.injEq, Prod.mk.injEq] at e2
      exact e2.1
    | cons x m =>
      simp only [List.cons_append, List.cons.injEq] at e2
      obtain ⟨rfl, rfl⟩ := e2
      have g1 := h1' (k, s) (by simp [e1])
      exact absurd g1 (h2 (k', s') (by simp))
  · cases m with
    | nil =>
      simp only [List.nil_append, List.cons.injEq, Prod.mk.injEq] at e2
      exact ⟨e2.1.1.symm, e2.1.2.symm⟩
    | cons x m =>
      simp only [List.cons_append, List.cons.injEq] at e2
      obtain ⟨rfl, rfl⟩ := e2
      have g1 := h1 (k', s') (by simp [e1])
      exact absurd g1 (h2' (k, s) (by simp))

theorem defaultSet?_iff {sets : Dict Str FileSet} (hn : (Dict.keys sets).Nodup)
    (hd : datesComparable sets = true) (hs : ∀ kv ∈ sets, kv.2.sha ≠ none) (o : Option FileSet) :
    defaultSet? sets = .ok o ↔ ∃ k s, o = some s ∧ Latest sets k s := by
  by_cases hne : sets = []
  · subst hne
    simp [defaultSet?, selectFileSet, chooseSet, datesComparable, sortBy, Latest]
  · obtain ⟨k, s, hl, hc⟩ := choose_latest hd hne none (fun _ h => by cases h)
    have hm := mem_of_latest hl
    have hp : s.printable = true := by
      have := hs _ hm
      simp [FileSet.printable, Option.isSome_iff_ne_none, this]
    have : selectFileSet sets none = .ok s := by
      unfold selectFileSet
      rw [hc]
      simp only [Dict.get?_of_mem hn hm, hp, if_true]
    simp only [defaultSet?, this, Except.ok.injEq]
    constructor
    · rintro rfl
      exact ⟨k, s, rfl, hl⟩
    · rintro ⟨k', s', rfl, hl'⟩
      rw [(latest_unique hl hl').2]

theorem table_iff {sets : Dict Str FileSet} :
    (∃ rows, tableOfCaches sets = .ok rows) ↔
      datesComparable sets = true ∧ ∀ kv ∈ sets, kv.2.sha ≠ none := by
  constructor
  · rintro ⟨rows, h⟩
    have hd : datesComparable sets = true := by
      by_contra hc
      rw [tableOfCaches, Bool.eq_false_iff.2 hc] at h
      cases h
    refine ⟨hd, fun kv hkv => ?_⟩
    obtain ⟨l, hp, _, hf⟩ := table_rows h
    obtain ⟨i, hi, rfl⟩ := List.getElem_of_mem (hp.mem_iff.2 hkv)
    have := List.forall₂_iff_get.1 hf
    obtain ⟨_, _, _, _, sha, hsha, _⟩ := this.2 i hi (by rw [← this.1]; exact hi)
    have e : l[i].2.sha = some sha := hsha
    rw [e]
    simp
  · rintro ⟨hd, hs⟩
    unfold tableOfCaches
    rw [hd]
    simp only [Bool.not_true, Bool.false_eq_true, if_false]
    exact cacheRows_total (fun kv hkv => hs kv (mem_sortBy.1 hkv))

/-- C108: `punx configuration` works exactly if the caches can be listed, there is a file set, every set
says from which commit it is and, if there are several, when it was made. -/
theorem configuration_iff (source user : CacheDir) :
    (∃ r, funcConfiguration source user = .ok r) ↔
      ∃ sets, allFileSets source user = .ok sets ∧ sets ≠ [] ∧ (∀ kv ∈ sets, kv.2.sha ≠ none) ∧
        (sets.length = 1 ∨ ∀ kv ∈ sets, kv.2.lastModified ≠ none) := by
  unfold funcConfiguration
  cases hs : allFileSets source user with
  | error e => simp
  | ok sets =>
    have hn := allFileSets_nodup hs
    simp only [Except.ok.injEq, exists_eq_left']
    constructor
    · rintro ⟨r, h⟩
      split at h
      · cases h
      rename_i o ho
      split at h
      · cases h
      rename_i rows hr
      obtain ⟨hd, hsha⟩ := table_iff.1 ⟨rows, hr⟩
      obtain ⟨k, s, _, hl⟩ := (defaultSet?_iff hn hd hsha o).1 ho
      have hne : sets ≠ [] := fun h0 => by
        have := mem_of_latest hl
        rw [h0] at this
        cases this
      exact ⟨hne, hsha, (comparable_iff hne).1 hd⟩
    · rintro ⟨hne, hsha, hd⟩
      have hd := (comparable_iff hne).2 hd
      obtain ⟨rows, hr⟩ := table_iff.2 ⟨hd, hsha⟩
      obtain ⟨k, s, hl, _⟩ := choose_latest hd hne none (fun _ h => by cases h)
      rw [(defaultSet?_iff hn hd hsha (some s)).2 ⟨k, s, rfl, hl⟩]
      simp only [hr]
      exact ⟨_, rfl⟩

/-- C108: it shows one row for each set, from the oldest to the newest, and what the description of the
newest set (of the first listed one if there are several) calls that set. -/
theorem configuration_shows {source user : CacheDir} {rows : List CacheRow} {d : Option Str}
    (h : funcConfiguration source user = .ok (rows, d)) :
    ∃ sets l, allFileSets source user = .ok sets ∧ l.Perm sets ∧
      l.Pairwise (fun a b => ¬ Earlier b.2 a.2) ∧
      List.Forall₂ (fun kv r => r.name = kv.1 ∧ r.cache = kv.2.cache ∧ r.path = kv.2.path ∧
        r.date = kv.2.lastModified.getD s%"None" ∧
        ∃ sha, kv.2.sha = some sha ∧ r.sha <+: sha ∧ r.sha.length = min 7 sha.length) l rows ∧
      ∃ k s, Latest sets k s ∧ d = s.ref := by
  unfold funcConfiguration at h
  cases hs : allFileSets source user with
  | error e => rw [hs] at h; cases h
  | ok sets =>
    rw [hs] at h
    simp only at h
    split at h
    · cases h
    rename_i o ho
    split at h
    · cases h
    rename_i rows' hr
    obtain ⟨hd, hsha⟩ := table_iff.1 ⟨rows', hr⟩
    obtain ⟨k, s, rfl, hl⟩ := (defaultSet?_iff (allFileSets_nodup hs) hd hsha o).1 ho
    cases h
    obtain ⟨l, hp, hsort, hf⟩ := table_rows hr
    refine ⟨sets, l, rfl, hp, hsort.imp ?_, ?_, k, s, hl, rfl⟩
    · intro a b hab
      simp [Earlier, hab]
    · refine hf.imp fun kv r ⟨g1, g2, g3, g4, sha, g5, g6⟩ => ⟨g1, g2, g3, g4, sha, g5, ?_, ?_⟩
      · rw [g6]
        exact List.take_prefix _ _
      · rw [g6, shortSha, List.length_take]
        omega

/-- C108 (partial: only if each description gives the set the name of its directory, and no two sets
have the same date): the default that is shown is the last set of the table. -/
theorem configuration_default_partial {source user : CacheDir} {rows : List CacheRow} {d : Option Str}
    {sets : Dict Str FileSet}
    (h : funcConfiguration source user = .ok (rows, d)) (hs : allFileSets source user = .ok sets)
    (hr : ∀ kv ∈ sets, kv.2.ref = some kv.1)
    (hd : ∀ kv ∈ sets, ∀ kv' ∈ sets, kv ≠ kv' → Earlier kv.2 kv'.2 ∨ Earlier kv'.2 kv.2) :
    ∃ r, rows.getLast? = some r ∧ d = some r.name := by
  obtain ⟨sets', l, hs', hp, hsort, hf, k, s, hl, rfl⟩ := configuration_shows h
  rw [hs] at hs'
  cases hs'
  have hm := mem_of_latest hl
  rw [hr _ hm]
  have hlne : l ≠ [] := fun h0 => by
    have := hp.mem_iff.2 hm
    rw [h0] at this
    cases this
  obtain ⟨l', x, rfl⟩ : ∃ l' x, l = l' ++ [x] :=
    ⟨l.dropLast, l.getLast hlne, (List.dropLast_append_getLast hlne).symm⟩
  have hx : x = (k, s) := by
    by_contra hc
    have hks : (k, s) ∈ l' := by
      rcases List.mem_append.1 (hp.mem_iff.2 hm) with h | h
      · exact h
      · exact absurd (List.mem_singleton.1 h).symm hc
    have hxs : x ∈ sets := hp.mem_iff.1 (by simp)
    have g1 := (List.pairwise_append.1 hsort).2.2 _ hks x (by simp)
    have g2 : ¬ Earlier s x.2 := by
      obtain ⟨b, a, e, h1, h2⟩ := hl
      rw [e] at hxs
      rcases List.mem_append.1 hxs with h | h
      · have g := h1 x h
        intro g'
        unfold Earlier at g g'
        rcases strLe_total (dateText s) (dateText x.2) with h' | h'
        · rw [h'] at g; cases g
        · rw [h'] at g'; cases g'
      · rcases List.mem_cons.1 h with h | h
        · exact absurd h hc
        · exact h2 x h
    rcases hd x hxs _ hm hc with h | h
    · exact g1 h
    · exact g2 h
  subst hx
  have hf' := List.forall₂_reverse_iff.2 hf
  rw [List.reverse_append] at hf'
  cases hrev : rows.reverse with
  | nil => rw [hrev] at hf'; cases hf'
  | cons r rs =>
    rw [hrev] at hf'
    cases hf' with
    | cons g _ =>
      refine ⟨r, ?_, ?_⟩
      · rw [← List.head?_reverse, hrev]
        rfl
      · rw [g.1]

/-! ## C109 -/

/-- The option that `punx demonstrate` uses asks for every status. -/
theorem demo_option : Spec.PlainAscii (join s%"," (sortBy strLe (Status.all.map Status.key))) ∧
    AllKnown (join s%"," (sortBy strLe (Status.all.map Status.key))) ∧
    ∀ st, Asked (join s%"," (sortBy strLe (Status.all.map Status.key))) st := by
  have h1 : Spec.PlainAscii (join s%"," (sortBy strLe (Status.all.map Status.key))) := by
    unfold Spec.PlainAscii
    decide +kernel
  refine ⟨h1, (report_option_refused (other := fun c => [c]) h1).1 (by decide +kernel), fun st => ?_⟩
  exact (report_option_selection (other := fun c => [c]) h1 st).1 (by cases st <;> decide +kernel)

theorem demo_log {w : World} {f : Str} {a : Act} : a ∈ (funcDemo w f).log ↔
    a ∈ (demoValidate w f).log ∨ (demoValidate w f).res = .ok () ∧ ∃ ls, a = .tree ls ∧
      treeReport w.env 5 true f (w.files f) = .ok (some ls) := by
  unfold funcDemo
  cases hr : (demoValidate w f).res with
  | error e => simp [W.bind, hr]
  | ok u =>
    cases ht : treeReport w.env 5 true f (w.files f) with
    | error e => simp [W.bind, hr, W.fail]
    | ok o =>
      cases o with
      | none => simp [W.bind, hr, W.fail]
      | some ls => simp [W.bind, hr, W.tell]

/-- C109: `punx demonstrate` ends normally exactly if the definitions `main` are installed and can be
read, the example file is an HDF5 file whose validation against them ends, and its tree can be
shown. -/
theorem demo_succeeds_iff {w : World} {f : Str} : (funcDemo w f).res = .ok () ↔
    ¬ s%".nxdl.xml" <:+ f ∧ (∃ sets s, w.sets = .ok sets ∧ (s%"main", s) ∈ sets) ∧
    ∃ mgr file, w.load s%"main" = .ok mgr ∧ w.files f = .hdf5 file ∧
      (validateOpen w.env mgr [] file).res = .ok () ∧
      ∃ ls, treeReport w.env 5 true f (.hdf5 file) = .ok (some ls) := by
  obtain ⟨h1, h2, _⟩ := demo_option
  have hv := validate_succeeds_iff (w := w)
    (a := ⟨f, some s%"main", join s%"," (sortBy strLe (Status.all.map Status.key))⟩) h1
  constructor
  · intro h
    unfold funcDemo at h
    cases hr : (demoValidate w f).res with
    | error e => simp [W.bind, hr] at h
    | ok u =>
      obtain ⟨_, ref, mgr, file, ⟨q1, q2, sets, q3, s, q4⟩, h3, h4, h5⟩ := hv.1 hr
      cases q2
      refine ⟨q1, ⟨sets, s, q3, q4⟩, mgr, file, h3, h4, h5, ?_⟩
      have h4 : w.files f = .hdf5 file := h4
      simp only [W.bind, hr, h4] at h
      cases ht : treeReport w.env 5 true f (.hdf5 file) with
      | error e => simp [ht, W.fail] at h
      | ok o =>
        cases o with
        | none => simp [ht, W.fail] at h
        | some ls => exact ⟨ls, rfl⟩
  · rintro ⟨q1, ⟨sets, s, q3, q4⟩, mgr, file, h3, h4, h5, ls, h6⟩
    have hr : (demoValidate w f).res = .ok () :=
      hv.2 ⟨h2, s%"main", mgr, file, ⟨q1, rfl, sets, q3, s, q4⟩, h3, h4, h5⟩
    unfold funcDemo
    simp [W.bind, hr, h4, h6, W.tell]

/-- C109: it reports every finding of the validation, and prints the whole tree. -/
theorem demo_shows {w : World} {f : Str} :
    (∀ {fname rows sm sc}, Act.report fname rows sm sc ∈ (funcDemo w f).log →
      fname = f ∧ ∃ mgr file, w.load s%"main" = .ok mgr ∧ w.files f = .hdf5 file ∧
        rows.Perm (findings (validateOpen w.env mgr [] file).log) ∧
        findingSummary [] (findings (validateOpen w.env mgr [] file).log) = .ok sm ∧
        sc = findingScore (findings (validateOpen w.env mgr [] file).log)) ∧
    ∀ ls, Act.tree ls ∈ (funcDemo w f).log ↔ (funcDemo w f).res = .ok () ∧
      treeReport w.env 5 true f (w.files f) = .ok (some ls) := by
  obtain ⟨h1, h2, h3⟩ := demo_option
  constructor
  · intro fname rows sm sc h
    rcases demo_log.1 h with h | ⟨_, ls, h, _⟩
    · obtain ⟨g1, ref, mgr, file, fs, ⟨q1, q2, _⟩, g3, g4, rfl, _, ⟨rest, g6, g7⟩, g8, g9⟩ :=
        validate_report h1 h
      cases q2
      refine ⟨g1, mgr, file, g3, g4, ?_, g8, g9⟩
      cases rest with
      | nil => simpa using g6
      | cons x rest => exact absurd (h3 _) (g7 x (by simp))
    · cases h
  · intro ls
    have hno : Act.tree ls ∉ (demoValidate w f).log := by
      intro h
      rcases funcValidate_cases w
        ⟨f, some s%"main", join s%"," (sortBy strLe (Status.all.map Status.key))⟩ with
        ⟨_, e, _⟩ | ⟨_, _, _, e, _⟩ | ⟨ref, mgr, _, _, _, e, _⟩
      · rw [demoValidate, e] at h; cases h
      · rw [demoValidate, e] at h; simp at h
      · rw [demoValidate, e] at h
        rcases validateAndReport_cases w mgr f
          (reportChoices w.upper (join s%"," (sortBy strLe (Status.all.map Status.key)))).1 with
          ⟨_, _, _, _, _, _, _, e', _⟩ | ⟨_, e', _⟩ <;> simp [e'] at h
    constructor
    · intro h
      rcases demo_log.1 h with h | ⟨h, ls', e, ht⟩
      · exact absurd h hno
      · cases e
        refine ⟨?_, ht⟩
        unfold funcDemo
        simp [W.bind, h, ht, W.tell]
    · rintro ⟨h, ht⟩
      refine demo_log.2 (.inr ⟨?_, ls, rfl, ht⟩)
      unfold funcDemo at h
      cases hr : (demoValidate w f).res with
      | error e => simp [W.bind, hr] at h
      | ok u => rfl

end Punx

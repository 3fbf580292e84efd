import Verif.Spec.Cache
import Verif.Lemmas.Basic

/-!
# File sets: what is listed, which one is selected (C42, C43, C56, C57)
-/

namespace Punx

open Spec

/-! ## C56: short commit references -/

/-- **C56**: the short reference is the first seven characters: it is a prefix, it has seven
characters unless the reference is shorter, and two references have the same short form if and only
if their first seven characters are the same. -/
theorem short_sha (s : Str) :
    shortSha s <+: s ∧ (shortSha s).length = min 7 s.length ∧
      ∀ t, shortSha s = shortSha t ↔ s.take 7 = t.take 7 := by
  have key : ∀ u : Str, shortSha u = u.take 7 := by
    intro u
    unfold shortSha
    by_cases h : 7 ≤ u.length
    · rw [Nat.min_eq_left h]
    · have h' : u.length ≤ 7 := by omega
      rw [Nat.min_eq_right h', List.take_length, List.take_of_length_le h']
  refine ⟨?_, ?_, ?_⟩
  · rw [key]; exact List.take_prefix _ _
  · rw [key]; simp
  · intro t; rw [key, key]

example : shortSha s%"a4fd52d0123" = s%"a4fd52d" := rfl
example : shortSha s%"v3.3" = s%"v3.3" := rfl

/-! ## C43: what is listed -/

theorem readInfoFile_ok {p : Str} {d : Disk} {k : Str} {s : FileSet} :
    readInfoFile p d k = .ok s ↔
      ∃ o, Described d k o ∧ FromInfo p k o s ∧
        s.cache = if findPositive s%"punx/cache" (p ++ '/' :: k) then s%"source" else s%"user" := by
  unfold readInfoFile Described FromInfo
  simp only
  cases h : d [k, infoName] with
  | none => simp
  | some f =>
    cases f with
    | dir => simp
    | file c =>
      cases c with
      | raw t => simp
      | json o =>
        constructor
        · intro hs
          injection hs with hs
          subst hs
          exact ⟨o, rfl, by simp, rfl⟩
        · rintro ⟨o', ho, ⟨h1, h2, h3, h4, h5, h6⟩, h7⟩
          simp only [Option.some.injEq, FObj.file.injEq, Content.json.injEq] at ho
          subst ho
          obtain ⟨a1, a2, a3, a4, a5, a6, a7⟩ := s
          simp only at h1 h2 h3 h4 h5 h6 h7
          subst h1; subst h2; subst h3; subst h4; subst h5; subst h6; subst h7
          simp

theorem listSets_ok {p : Str} {d : Disk} {items : List Str} {fs sets : Dict Str FileSet}
    (h : listSets p d items fs = .ok sets) (hn : (Dict.keys fs).Nodup) :
    (Dict.keys sets).Nodup ∧
    ∀ k, Dict.get? sets k =
      if k ∈ items ∧ IsListed d k then (readInfoFile p d k).toOption else Dict.get? fs k := by
  induction items generalizing fs with
  | nil =>
    simp only [listSets, Except.ok.injEq] at h
    subst h
    exact ⟨hn, by simp⟩
  | cons a as ih =>
    have hl : (d.isDir [a] && d.has [a, infoName]) = true ↔ IsListed d a := by
      simp [Disk.isDir, Disk.has, IsListed, Option.isSome_iff_ne_none]
    by_cases hla : IsListed d a
    · rw [listSets, if_pos (hl.2 hla)] at h
      split at h
      · cases h
      · rename_i s hs
        obtain ⟨h1, h2⟩ := ih h (Dict.nodup_keys_set hn a s)
        refine ⟨h1, fun k => ?_⟩
        rw [h2 k, Dict.get?_set]
        by_cases hk : k = a
        · subst hk
          simp [hla, hs, Except.toOption]
        · simp [hk, Ne.symm hk]
    · rw [listSets, if_neg (fun c => hla (hl.1 c))] at h
      obtain ⟨h1, h2⟩ := ih h hn
      refine ⟨h1, fun k => ?_⟩
      rw [h2 k]
      by_cases hk : k = a
      · subst hk; simp [hla]
      · simp [hk]

theorem allFileSets_get {c : CacheDir} {sets : Dict Str FileSet} (h : c.allFileSets = .ok sets)
    (k : Str) (s : FileSet) :
    Dict.get? sets k = some s ↔
      k ∈ c.listing ∧ IsListed c.disk k ∧ readInfoFile c.path c.disk k = .ok s := by
  rw [(listSets_ok h (by simp [Dict.keys])).2 k]
  by_cases hk : k ∈ c.listing ∧ IsListed c.disk k
  · rw [if_pos hk]
    cases hr : readInfoFile c.path c.disk k with
    | error e => simp [Except.toOption]
    | ok x => simp [Except.toOption, hk]
  · rw [if_neg hk]
    simp only [Dict.get?]
    constructor
    · intro h; cases h
    · intro h; exact absurd ⟨h.1, h.2.1⟩ hk

/-- **C43** (what a cache offers): exactly the subdirectories with an info file, each with what its
info file says. -/
theorem listed_sets {c : CacheDir} {sets : Dict Str FileSet} (h : c.allFileSets = .ok sets)
    (k : Str) (s : FileSet) :
    Dict.get? sets k = some s ↔
      k ∈ c.listing ∧ c.disk [k] = some .dir ∧
      ∃ o, Described c.disk k o ∧ FromInfo c.path k o s ∧
        s.cache = if findPositive s%"punx/cache" s.path then s%"source" else s%"user" := by
  rw [allFileSets_get h, readInfoFile_ok]
  constructor
  · rintro ⟨h1, h2, o, h3, h4, h5⟩
    refine ⟨h1, h2.1, o, h3, h4, ?_⟩
    rw [h4.1]; simpa using h5
  · rintro ⟨h1, h2, o, h3, h4, h5⟩
    refine ⟨h1, ⟨h2, ?_⟩, o, h3, h4, ?_⟩
    · rw [h3]; simp
    · rw [h4.1] at h5; simpa using h5

theorem listSets_total {p : Str} {d : Disk} {items : List Str} (fs : Dict Str FileSet) :
    (∃ sets, listSets p d items fs = .ok sets) ↔
      ∀ k ∈ items, IsListed d k → ∃ o, Described d k o := by
  induction items generalizing fs with
  | nil => simp [listSets]
  | cons a as ih =>
    have hl : (d.isDir [a] && d.has [a, infoName]) = true ↔ IsListed d a := by
      simp [Disk.isDir, Disk.has, IsListed, Option.isSome_iff_ne_none]
    have hd : (∃ s, readInfoFile p d a = .ok s) ↔ ∃ o, Described d a o := by
      constructor
      · rintro ⟨s, hs⟩
        obtain ⟨o, ho, _⟩ := readInfoFile_ok.1 hs
        exact ⟨o, ho⟩
      · rintro ⟨o, ho⟩
        unfold Described at ho
        simp [readInfoFile, ho]
    by_cases hla : IsListed d a
    · rw [listSets, if_pos (hl.2 hla)]
      cases hr : readInfoFile p d a with
      | error e =>
        constructor
        · rintro ⟨_, h⟩; cases h
        · intro h
          obtain ⟨s, hs⟩ := hd.2 (h a (by simp) hla)
          rw [hs] at hr; cases hr
      | ok s =>
        simp only [ih]
        constructor
        · intro h k hk
          rcases List.mem_cons.1 hk with rfl | hk
          · intro _; exact hd.1 ⟨s, hr⟩
          · exact h k hk
        · intro h k hk; exact h k (List.mem_cons_of_mem _ hk)
    · rw [listSets, if_neg (fun c => hla (hl.1 c)), ih]
      constructor
      · intro h k hk
        rcases List.mem_cons.1 hk with rfl | hk
        · intro c; exact absurd c hla
        · exact h k hk
      · intro h k hk; exact h k (List.mem_cons_of_mem _ hk)

/-- **C43** (when a cache can be listed): the listing fails if and only if some file set has an info
file that cannot be read. -/
theorem listing_works_iff (c : CacheDir) :
    (∃ sets, c.allFileSets = .ok sets) ↔
      ∀ k ∈ c.listing, IsListed c.disk k → ∃ o, Described c.disk k o :=
  listSets_total []

theorem get?_update {κ β : Type} [DecidableEq κ] (d e : Dict κ β) (hn : (Dict.keys e).Nodup)
    (k : κ) : Dict.get? (Dict.update d e) k = (Dict.get? e k).or (Dict.get? d k) := by
  induction e generalizing d with
  | nil => simp [Dict.update, Dict.get?]
  | cons x xs ih =>
    obtain ⟨a, b⟩ := x
    simp only [Dict.keys, List.map_cons, List.nodup_cons] at hn
    have := ih (Dict.set d a b) hn.2
    simp only [Dict.update, List.foldl_cons] at this ⊢
    rw [this, Dict.get?_set]
    simp only [Dict.get?]
    by_cases h : a = k
    · subst h
      have hnone : Dict.get? xs a = none := Dict.get?_eq_none.2 hn.1
      simp [hnone]
    · simp [h]

theorem nodup_update {κ β : Type} [DecidableEq κ] (d e : Dict κ β) (hn : (Dict.keys d).Nodup) :
    (Dict.keys (Dict.update d e)).Nodup := by
  induction e generalizing d with
  | nil => exact hn
  | cons x xs ih =>
    simp only [Dict.update, List.foldl_cons]
    exact ih _ (Dict.nodup_keys_set hn _ _)

/-- **C43**: the sets of both caches are available; where both have a set with the same name it is
the user's. -/
theorem user_precedence {source user : CacheDir} {sets : Dict Str FileSet}
    (h : allFileSets source user = .ok sets) :
    ∃ ss us, source.allFileSets = .ok ss ∧ user.allFileSets = .ok us ∧ (Dict.keys sets).Nodup ∧
      (∀ k s, Dict.get? us k = some s → Dict.get? sets k = some s) ∧
      (∀ k, Dict.get? us k = none → Dict.get? sets k = Dict.get? ss k) := by
  unfold allFileSets at h
  split at h
  · cases h
  · rename_i ss hs
    split at h
    · cases h
    · rename_i us hu
      injection h with h
      subst h
      have hns := (listSets_ok hs (by simp [Dict.keys])).1
      have hnu := (listSets_ok hu (by simp [Dict.keys])).1
      refine ⟨ss, us, hs, hu, nodup_update _ _ (nodup_update _ _ (by simp [Dict.keys])), ?_, ?_⟩
      · intro k s hk
        rw [get?_update _ _ hnu, hk]; rfl
      · intro k hk
        rw [get?_update _ _ hnu, hk, get?_update _ _ hns]
        simp [Dict.get?]

/-- **C64**: a file set is labelled with the wrong cache: that of a user whose name starts with
`cache` counts as a set of the package. -/
theorem cache_label_wrong :
    ¬ ∀ (c : CacheDir) (sets : Dict Str FileSet) (k : Str) (s : FileSet),
        c.path = s%"/home/me/.config/punx" → c.allFileSets = .ok sets →
        Dict.get? sets k = some s → s.cache = s%"user" := by
  intro h
  let d : Disk := fun p =>
    if p = [s%"cached"] then some .dir
    else if p = [s%"cached", infoName] then some (.file (.json [])) else none
  have := h ⟨s%"/home/me/.config/punx", [s%"cached"], d⟩ _ s%"cached" _ rfl rfl rfl
  revert this
  decide

theorem hasSub_infix {sub s : Str} : hasSub sub s = true ↔ ∃ a b, s = a ++ sub ++ b := by
  rw [hasSub_iff]
  constructor
  · rintro ⟨a, b, h⟩; exact ⟨a, b, h.symm⟩
  · rintro ⟨a, b, h⟩; exact ⟨a, b, h.symm⟩

/-- A text with a slash in it, found across a slash. -/
theorem occurs_across {P k a v b : Str} (hv : '/' ∉ v) (h : P ++ '/' :: k = a ++ '/' :: (v ++ b))
    (hk : '/' ∉ k) : (∃ m, P = a ++ '/' :: (v ++ m)) ∨ (P = a ∧ v <+: k) := by
  rcases List.append_eq_append_iff.1 h with ⟨m, hm1, hm2⟩ | ⟨m, hm1, hm2⟩
  · cases m with
    | nil =>
      simp only [List.nil_append, List.cons.injEq, true_and] at hm2
      exact Or.inr ⟨by simpa using hm1.symm, b, hm2.symm⟩
    | cons x m =>
      simp only [List.cons_append, List.cons.injEq] at hm2
      exact absurd (by rw [hm2.2]; simp) hk
  · cases m with
    | nil =>
      simp only [List.nil_append, List.cons.injEq, true_and] at hm2
      exact Or.inr ⟨by simpa using hm1, b, hm2⟩
    | cons x m =>
      simp only [List.cons_append, List.cons.injEq] at hm2
      obtain ⟨rfl, hm2⟩ := hm2
      rcases List.append_eq_append_iff.1 hm2 with ⟨w, hw1, hw2⟩ | ⟨w, hw1, hw2⟩
      · exact Or.inl ⟨w, by rw [hm1, hw1]⟩
      · cases w with
        | nil => exact Or.inl ⟨[], by rw [hm1, hw1]; simp⟩
        | cons y w =>
          simp only [List.cons_append, List.cons.injEq] at hw2
          exact absurd (by rw [hw1, ← hw2.1]; simp) hv

/-- **C64**: the label is right for every user cache whose path has no `punx/cache` in it and for
every set whose name does not start with `cache`, for directories as QSettings makes them (they end
in `punx`). -/
theorem cache_label_partial {c : CacheDir} {sets : Dict Str FileSet} {k : Str} {s : FileSet}
    (h : c.allFileSets = .ok sets) (hk : Dict.get? sets k = some s)
    (hc : ¬ ∃ a b, c.path = a ++ s%"punx/cache" ++ b) (hslash : '/' ∉ k)
    (hname : ¬ s%"cache" <+: k) : s.cache = s%"user" := by
  obtain ⟨_, _, o, _, hf, hcache⟩ := (listed_sets h k s).1 hk
  rw [hcache, if_neg]
  intro hp
  unfold findPositive at hp
  rw [Bool.and_eq_true, hasSub_infix, hf.1] at hp
  obtain ⟨_, a, b, hab⟩ := hp
  exact absurd (occurs_across (v := s%"cache") (by decide)
    (show c.path ++ '/' :: k = (a ++ s%"punx") ++ '/' :: (s%"cache" ++ b) by simpa using hab)
    hslash) (by
      rintro (⟨m, hm⟩ | hm)
      · exact hc ⟨a, m, by rw [hm]; simp⟩
      · exact hname hm.2)

/-- **C64**, exactly: a listed set is called one of the package if the path of its cache has
`punx/cache` in it, or if this path ends in `punx` and the name of the set starts with `cache`;
every other set is called one of the user. -/
theorem cache_label_iff {c : CacheDir} {sets : Dict Str FileSet} {k : Str} {s : FileSet}
    (h : c.allFileSets = .ok sets) (hk : Dict.get? sets k = some s)
    (habs : s%"/" <+: c.path) (hslash : '/' ∉ k) :
    (s.cache = s%"source" ↔
      (∃ a b, c.path = a ++ s%"punx/cache" ++ b) ∨
      (s%"punx" <:+ c.path ∧ s%"cache" <+: k)) ∧
    (s.cache = s%"source" ∨ s.cache = s%"user") := by
  obtain ⟨_, _, o, _, hf, hcache⟩ := (listed_sets h k s).1 hk
  obtain ⟨r, hr⟩ := habs
  have hns : startsWith s.path s%"punx/cache" = false := by
    rw [hf.1, ← hr]
    rfl
  have hp : findPositive s%"punx/cache" s.path = true ↔
      (∃ a b, c.path = a ++ s%"punx/cache" ++ b) ∨
      (s%"punx" <:+ c.path ∧ s%"cache" <+: k) := by
    rw [findPositive, hns, Bool.not_false, Bool.true_and, hasSub_infix, hf.1]
    constructor
    · rintro ⟨a, b, hab⟩
      have hab' : c.path ++ '/' :: k = (a ++ s%"punx") ++ '/' :: (s%"cache" ++ b) := by
        simpa using hab
      rcases occurs_across (v := s%"cache") (by decide) hab' hslash with ⟨m, hm⟩ | hm
      · exact Or.inl ⟨a, m, by rw [hm]; simp⟩
      · exact Or.inr ⟨⟨a, hm.1.symm⟩, hm.2⟩
    · rintro (⟨a, b, hab⟩ | ⟨⟨a, ha⟩, b, hb⟩)
      · exact ⟨a, b ++ '/' :: k, by rw [hab]; simp⟩
      · exact ⟨a, b, by rw [← ha, ← hb]; simp⟩
  rw [hcache, ← hp]
  cases findPositive s%"punx/cache" s.path with
  | true => exact ⟨⟨fun _ => rfl, fun _ => rfl⟩, Or.inl rfl⟩
  | false => exact ⟨⟨fun h => absurd h (by decide), fun h => absurd h (by decide)⟩, Or.inr rfl⟩

/-! ## C42: selection -/

theorem sortBy_head {α : Type} {le : α → α → Bool} (htot : ∀ a b, le a b = true ∨ le b a = true)
    (htrans : ∀ a b c, le a b = true → le b c = true → le a c = true) (l : List α) {x : α}
    (h : (sortBy le l).head? = some x) :
    ∃ before after, l = before ++ x :: after ∧ (∀ y ∈ before, le y x = false) ∧
      (∀ y ∈ after, le x y = true) := by
  induction l generalizing x with
  | nil => simp [sortBy] at h
  | cons a as ih =>
    rw [sortBy] at h
    cases hs : sortBy le as with
    | nil =>
      rw [hs] at h
      simp only [insertBy, List.head?_cons, Option.some.injEq] at h
      subst h
      have : as = [] := by
        have := length_sortBy (le := le) as
        rw [hs] at this
        exact List.length_eq_zero_iff.1 this.symm
      exact ⟨[], [], by simp [this], by simp, by simp⟩
    | cons b bs =>
      rw [hs] at h
      obtain ⟨before, after, h1, h2, h3⟩ := ih (x := b) (by rw [hs]; rfl)
      by_cases hab : le a b = true
      · simp only [insertBy, hab, if_true, List.head?_cons, Option.some.injEq] at h
        subst h
        refine ⟨[], as, rfl, by simp, ?_⟩
        intro y hy
        rw [h1] at hy
        rcases List.mem_append.1 hy with hy | hy
        · have := h2 y hy
          rcases htot b y with h' | h'
          · exact htrans _ _ _ hab h'
          · rw [this] at h'; cases h'
        · rcases List.mem_cons.1 hy with rfl | hy
          · exact hab
          · exact htrans _ _ _ hab (h3 y hy)
      · simp only [insertBy, hab] at h
        simp only [Bool.false_eq_true, if_false, List.head?_cons, Option.some.injEq] at h
        subst h
        refine ⟨a :: before, after, by rw [h1]; rfl, ?_, h3⟩
        intro y hy
        rcases List.mem_cons.1 hy with rfl | hy
        · simpa using hab
        · exact h2 y hy

theorem dates_total (a b : Str × FileSet) :
    strLe (dateText b.2) (dateText a.2) = true ∨ strLe (dateText a.2) (dateText b.2) = true :=
  strLe_total _ _

theorem comparable_of_well {sets : Dict Str FileSet}
    (h : ∀ kv ∈ sets, WellDescribed kv.2) : datesComparable sets = true := by
  unfold datesComparable
  rw [Bool.or_eq_true, List.all_eq_true]
  right
  intro kv hkv
  exact Option.isSome_iff_ne_none.2 (h kv hkv).1

theorem printable_of_well {s : FileSet} (h : WellDescribed s) : s.printable = true := by
  unfold FileSet.printable
  rw [Option.isSome_iff_ne_none.2 h.2]
  simp

/-- The set that is known by its name is chosen. -/
theorem choose_known {sets : Dict Str FileSet} (hd : datesComparable sets = true)
    {r : Str} (hk : r ∈ Dict.keys sets) : chooseSet sets (some r) = .ok r := by
  unfold chooseSet
  rw [hd]
  have hc : ((sortBy (fun a b : Str × FileSet => strLe (dateText b.2) (dateText a.2)) sets).map
      (·.1)).contains r = true := by
    rw [List.contains_iff_mem]
    obtain ⟨x, hx, rfl⟩ := List.mem_map.1 hk
    exact List.mem_map.2 ⟨x, mem_sortBy.2 hx, rfl⟩
  simp only [Bool.not_true, Bool.false_eq_true, if_false, hc, if_true]

/-- Without a known name the most recent set is chosen, the first listed one if there are several. -/
theorem choose_latest {sets : Dict Str FileSet} (hd : datesComparable sets = true)
    (hne : sets ≠ []) (ref : Option Str) (hr : ∀ r, ref = some r → r ∉ Dict.keys sets) :
    ∃ k s, Latest sets k s ∧ chooseSet sets ref = .ok k := by
  let le : Str × FileSet → Str × FileSet → Bool := fun a b => strLe (dateText b.2) (dateText a.2)
  cases hh : (sortBy le sets).head? with
  | none =>
    exfalso
    have h0 : sortBy le sets = [] := List.head?_eq_none_iff.1 hh
    have := length_sortBy (le := le) sets
    rw [h0] at this
    exact hne (List.length_eq_zero_iff.1 this.symm)
  | some x =>
    obtain ⟨k, s⟩ := x
    obtain ⟨before, after, h1, h2, h3⟩ := sortBy_head (le := le) (fun a b => dates_total a b)
      (fun a b c hab hbc => strLe_trans hbc hab) sets hh
    refine ⟨k, s, ⟨before, after, h1, h2, ?_⟩, ?_⟩
    · intro y hy hc
      have := h3 y hy
      simp only [le] at this
      unfold Earlier at hc
      rw [this] at hc; cases hc
    · unfold chooseSet
      rw [hd]
      have hkeys : ((sortBy le sets).map (·.1)).head? = some k := by
        rw [List.head?_map, hh]; rfl
      cases ref with
      | none =>
        simp only [Bool.not_true, Bool.false_eq_true, if_false]
        simp only [le] at hkeys
        simp only [hkeys]
      | some r =>
        have hun : ((sortBy le sets).map (·.1)).contains r = false := by
          rw [Bool.eq_false_iff]
          intro hc
          rw [List.contains_iff_mem] at hc
          obtain ⟨y, hy, rfl⟩ := List.mem_map.1 hc
          exact hr _ rfl (List.mem_map.2 ⟨y, mem_sortBy.1 hy, rfl⟩)
        simp only [le] at hkeys hun
        simp only [Bool.not_true, Bool.false_eq_true, if_false, hun, hkeys]

theorem mem_of_latest {sets : Dict Str FileSet} {k : Str} {s : FileSet} (h : Latest sets k s) :
    (k, s) ∈ sets := by
  obtain ⟨before, after, rfl, _⟩ := h
  simp

/-- **C42**: a file set that is known by its name is selected. -/
theorem select_known {sets : Dict Str FileSet} (hw : ∀ kv ∈ sets, WellDescribed kv.2)
    {r : Str} {s : FileSet} (h : Dict.get? sets r = some s) :
    selectFileSet sets (some r) = .ok s := by
  have hk : r ∈ Dict.keys sets := by
    rw [← Dict.has_iff]; simp [Dict.has, h]
  unfold selectFileSet
  rw [choose_known (comparable_of_well hw) hk]
  simp only [h]
  simp [printable_of_well (hw (r, s) (Dict.mem_of_get? h))]

/-- **C42**: without a name, or with an unknown one, the most recent set is selected, the first
listed one if there are several. -/
theorem select_latest {sets : Dict Str FileSet} (hn : (Dict.keys sets).Nodup)
    (hw : ∀ kv ∈ sets, WellDescribed kv.2) (hne : sets ≠ []) (ref : Option Str)
    (hr : ∀ r, ref = some r → r ∉ Dict.keys sets) :
    ∃ k s, Latest sets k s ∧ selectFileSet sets ref = .ok s := by
  obtain ⟨k, s, hl, hc⟩ := choose_latest (comparable_of_well hw) hne ref hr
  refine ⟨k, s, hl, ?_⟩
  have hmem := mem_of_latest hl
  unfold selectFileSet
  rw [hc]
  simp only [Dict.get?_of_mem hn hmem]
  simp [printable_of_well (hw (k, s) hmem)]

/-- **C42**: with file sets that say when and from which commit they are, the selection fails if and
only if there is none, with `IndexError`. -/
theorem select_fails_iff {sets : Dict Str FileSet} (hn : (Dict.keys sets).Nodup)
    (hw : ∀ kv ∈ sets, WellDescribed kv.2) (ref : Option Str) (e : PyErr) :
    selectFileSet sets ref = .error e ↔ sets = [] ∧ e = .indexError := by
  constructor
  · intro h
    by_cases hne : sets = []
    · subst hne
      refine ⟨rfl, ?_⟩
      cases ref <;> simp [selectFileSet, chooseSet, datesComparable, sortBy] at h <;> exact h.symm
    · exfalso
      by_cases hr : ∀ r, ref = some r → r ∉ Dict.keys sets
      · obtain ⟨_, s, _, hs⟩ := select_latest hn hw hne ref hr
        rw [hs] at h; cases h
      · push Not at hr
        obtain ⟨r, rfl, hr⟩ := hr
        rw [← Dict.has_iff, Dict.has, Option.isSome_iff_exists] at hr
        obtain ⟨s, hs⟩ := hr
        rw [select_known hw hs] at h; cases h
  · rintro ⟨rfl, rfl⟩
    cases ref <;> simp [selectFileSet, chooseSet, datesComparable, sortBy]

/-- **C42** (what an incomplete info file does): one set without a date makes every selection fail
as soon as there is a second set, also a selection by name. -/
theorem select_without_date {sets : Dict Str FileSet} (h2 : 2 ≤ sets.length)
    {kv : Str × FileSet} (hkv : kv ∈ sets) (hd : kv.2.lastModified = none) (ref : Option Str) :
    selectFileSet sets ref = .error .typeError := by
  have : datesComparable sets = false := by
    unfold datesComparable
    rw [Bool.or_eq_false_iff]
    refine ⟨by simp; omega, ?_⟩
    rw [List.all_eq_false]
    exact ⟨kv, hkv, by simp [hd]⟩
  simp [selectFileSet, chooseSet, this]

/-- Three sets, two of the same date. -/
def someSets : Dict Str FileSet :=
  [(s%"a4fd52d", ⟨s%"/p", s%"source", s%"/i", some s%"a4fd52d", some s%"a4fd52d0", none,
      some s%"2016-11-19 01:07:45"⟩),
   (s%"v3.3", ⟨s%"/q", s%"source", s%"/i", some s%"v3.3", some s%"9285af9", none,
      some s%"2018-05-15 16:34:19"⟩),
   (s%"main", ⟨s%"/r", s%"user", s%"/i", some s%"main", some s%"041c2c0", none,
      some s%"2018-05-15 16:34:19"⟩)]

example : (selectFileSet someSets (some s%"main")).toOption.map (·.path) = some s%"/r" := rfl
example : (selectFileSet someSets none).toOption.map (·.path) = some s%"/q" := rfl
example : (selectFileSet someSets (some s%"v9")).toOption.map (·.path) = some s%"/q" := rfl
example : (∀ kv ∈ someSets, WellDescribed kv.2) ∧ (Dict.keys someSets).Nodup := by
  constructor
  · intro kv h
    simp [someSets] at h
    rcases h with rfl | rfl | rfl <;> simp [WellDescribed]
  · decide

/-! ## the table of file sets -/

theorem cacheRows_ok {l : List (Str × FileSet)} {rows : List CacheRow}
    (h : cacheRows l = .ok rows) :
    List.Forall₂ (fun kv r => r.name = kv.1 ∧ r.cache = kv.2.cache ∧ r.path = kv.2.path ∧
      r.date = kv.2.lastModified.getD s%"None" ∧ ∃ sha, kv.2.sha = some sha ∧ r.sha = shortSha sha)
      l rows := by
  induction l generalizing rows with
  | nil => cases h; exact .nil
  | cons kv l ih =>
    rw [cacheRows] at h
    split at h
    · cases h
    · rename_i r hr
      split at h
      · cases h
      · rename_i rs hrs
        cases h
        refine .cons ?_ (ih hrs)
        unfold cacheRow at hr
        split at hr
        · cases hr
        · rename_i sha hsha
          cases hr
          exact ⟨rfl, rfl, rfl, rfl, sha, hsha, rfl⟩

/-- **C65**: the table has one row for each file set, from the oldest to the newest, and each row
shows the name, the cache, the date, the short commit reference and the path of its set. -/
theorem table_rows {sets : Dict Str FileSet} {rows : List CacheRow}
    (h : tableOfCaches sets = .ok rows) :
    ∃ l, l.Perm sets ∧ l.Pairwise (fun a b => strLe (dateText a.2) (dateText b.2) = true) ∧
      List.Forall₂ (fun kv r => r.name = kv.1 ∧ r.cache = kv.2.cache ∧ r.path = kv.2.path ∧
        r.date = kv.2.lastModified.getD s%"None" ∧
        ∃ sha, kv.2.sha = some sha ∧ r.sha = shortSha sha) l rows := by
  unfold tableOfCaches at h
  split at h
  · cases h
  · exact ⟨_, sortBy_perm _, sortBy_sorted
      (le := fun a b : Str × FileSet => strLe (dateText a.2) (dateText b.2))
      (fun a b => strLe_total _ _) (fun a b c h1 h2 => strLe_trans h1 h2) _, cacheRows_ok h⟩

theorem cacheRows_total {l : List (Str × FileSet)} (h : ∀ kv ∈ l, kv.2.sha ≠ none) :
    ∃ rows, cacheRows l = .ok rows := by
  induction l with
  | nil => exact ⟨[], rfl⟩
  | cons kv l ih =>
    obtain ⟨rs, hrs⟩ := ih (fun x hx => h x (List.mem_cons_of_mem _ hx))
    obtain ⟨sha, hsha⟩ := Option.ne_none_iff_exists'.1 (h kv (by simp))
    rw [cacheRows]
    simp only [cacheRow, hsha, hrs]
    exact ⟨_, rfl⟩

/-- **C65**: the table is made whenever every set says when and from which commit it is. -/
theorem table_works {sets : Dict Str FileSet} (hw : ∀ kv ∈ sets, WellDescribed kv.2) :
    ∃ rows, tableOfCaches sets = .ok rows := by
  unfold tableOfCaches
  rw [comparable_of_well hw]
  simp only [Bool.not_true, Bool.false_eq_true, if_false]
  exact cacheRows_total (fun kv hkv => (hw kv (mem_sortBy.1 hkv)).2)

example : ((tableOfCaches someSets).toOption.getD []).map (fun r => (r.name, r.sha)) =
    [(s%"a4fd52d", s%"a4fd52d"), (s%"v3.3", s%"9285af9"), (s%"main", s%"041c2c0")] := rfl

end Punx

import Verif.Props.Concurrent3

/-!
# A listing of the cache while sets are installed (C112)
-/

namespace Punx

open Spec

/-! ## a listing that is alone -/

theorem infoLook_run {α : Type} (path item : Str) (k : FileSet → Look α) (d : Disk) :
    (infoLook path item k).run d =
      match readInfoFile path d item with
      | .error e => .error e
      | .ok s => (k s).run d := by
  unfold infoLook
  simp only [Look.run]
  by_cases h : d.has [item, infoName] = true
  · rw [if_pos h]
    simp only [Look.run]
    cases readInfoFile path d item <;> rfl
  · rw [if_neg h]
    have : d [item, infoName] = none := by
      rw [Disk.has] at h
      cases hd : d [item, infoName] with
      | none => rfl
      | some o => rw [hd] at h; exact absurd rfl h
    simp only [Look.run, readInfoFile, this]

/-- **C112**: a listing that is alone has the result that `Model/Cache.lean` says. -/
theorem listing_alone (path : Str) (d : Disk) (names : List Str) (fs : Dict Str FileSet) :
    (listLook path names fs).run d = listSets path d names fs := by
  induction names generalizing fs with
  | nil => rfl
  | cons item items ih =>
    rw [listLook, listSets]
    simp only [Look.run]
    by_cases h1 : d.isDir [item] = true
    · by_cases h2 : d.has [item, infoName] = true
      · rw [if_pos h1]
        simp only [Look.run]
        rw [if_pos h2, infoLook_run, if_pos (by rw [h1, h2]; rfl)]
        cases readInfoFile path d item with
        | error e => rfl
        | ok s => exact ih _
      · rw [if_pos h1]
        simp only [Look.run]
        rw [if_neg h2, ih, if_neg (by simp [h2])]
    · rw [if_neg h1, ih, if_neg (by simp [h1])]

/-! ## moments -/

theorem Spec.Arrives.trans {ι : Type} [DecidableEq ι] {d e f : Disk} {ps qs rs : ι → Prog}
    (h : Arrives d ps e qs) (h' : Arrives e qs f rs) : Arrives d ps f rs := by
  induction h' with
  | start => exact h
  | next _ hs ih => exact .next ih hs

/-- A program that only looks: it has not begun, or has looked once and gone on. -/
theorem watches_cases {ι α : Type} [DecidableEq ι] {d e : Disk} {ps qs : ι → Prog} {r r' : Look α}
    (h : Watches d ps r e qs r') :
    (r' = r ∧ Arrives d ps e qs) ∨
      ∃ k e1 qs1, r = .look k ∧ Arrives d ps e1 qs1 ∧ Watches e1 qs1 (k e1) e qs r' := by
  induction h with
  | start => exact Or.inl ⟨rfl, .start⟩
  | @other e qs r' i e' q _ hs ih =>
    rcases ih with ⟨h1, h2⟩ | ⟨k, e1, qs1, h1, h2, h3⟩
    · exact Or.inl ⟨h1, .next h2 hs⟩
    · exact Or.inr ⟨k, e1, qs1, h1, h2, .other h3 hs⟩
  | @look e qs k _ ih =>
    rcases ih with ⟨h1, h2⟩ | ⟨k', e1, qs1, h1, h2, h3⟩
    · exact Or.inr ⟨k, e, qs, h1.symm, h2, .start⟩
    · exact Or.inr ⟨k', e1, qs1, h1, h2, .look h3⟩

theorem watches_look {ι α : Type} [DecidableEq ι] {d e : Disk} {ps qs : ι → Prog}
    {k : Disk → Look α} {x : Except PyErr α} (h : Watches d ps (.look k) e qs (.done x)) :
    ∃ e1 qs1, Arrives d ps e1 qs1 ∧ Watches e1 qs1 (k e1) e qs (.done x) := by
  rcases watches_cases h with ⟨h1, _⟩ | ⟨k', e1, qs1, h1, h2, h3⟩
  · cases h1
  · cases h1; exact ⟨e1, qs1, h2, h3⟩

theorem watches_done {ι α : Type} [DecidableEq ι] {d e : Disk} {ps qs : ι → Prog}
    {x y : Except PyErr α} (h : Watches d ps (.done x) e qs (.done y)) :
    x = y ∧ Arrives d ps e qs := by
  rcases watches_cases h with ⟨h1, h2⟩ | ⟨k, e1, qs1, h1, h2, h3⟩
  · cases h1; exact ⟨rfl, h2⟩
  · cases h1

theorem watches_arrives {ι α : Type} [DecidableEq ι] {d e : Disk} {ps qs : ι → Prog} {r r' : Look α}
    (h : Watches d ps r e qs r') : Arrives d ps e qs := by
  induction h with
  | start => exact .start
  | other _ hs ih => exact .next ih hs
  | look _ ih => exact ih

/-- What happens to one name of the listing. -/
theorem watches_item {ι : Type} [DecidableEq ι] {d e : Disk} {ps qs : ι → Prog} {path item : Str}
    {items : List Str} {fs : Dict Str FileSet} {x : Except PyErr (Dict Str FileSet)}
    (h : Watches d ps (listLook path (item :: items) fs) e qs (.done x)) :
    ∃ e1 qs1, Arrives d ps e1 qs1 ∧
      ((e1.isDir [item] = false ∧ Watches e1 qs1 (listLook path items fs) e qs (.done x)) ∨
       (e1.isDir [item] = true ∧ ∃ e2 qs2, Arrives e1 qs1 e2 qs2 ∧
        ((e2.has [item, infoName] = false ∧
            Watches e2 qs2 (listLook path items fs) e qs (.done x)) ∨
         (e2.has [item, infoName] = true ∧ ∃ e3 qs3, Arrives e2 qs2 e3 qs3 ∧
          ((∃ s, readInfoFile path e3 item = .ok s ∧
              Watches e3 qs3 (listLook path items (Dict.set fs item s)) e qs (.done x)) ∨
           (∃ y, readInfoFile path e3 item = .error y ∧ x = .error y ∧
              Arrives e3 qs3 e qs)))))) := by
  rw [listLook] at h
  obtain ⟨e1, qs1, h1, h2⟩ := watches_look h
  refine ⟨e1, qs1, h1, ?_⟩
  by_cases hd : e1.isDir [item] = true
  · rw [if_pos hd] at h2
    right
    refine ⟨hd, ?_⟩
    obtain ⟨e2, qs2, h3, h4⟩ := watches_look h2
    refine ⟨e2, qs2, h3, ?_⟩
    by_cases hh : e2.has [item, infoName] = true
    · rw [if_pos hh, infoLook] at h4
      right
      refine ⟨hh, ?_⟩
      obtain ⟨e3, qs3, h5, h6⟩ := watches_look h4
      by_cases hh3 : e3.has [item, infoName] = true
      · rw [if_pos hh3] at h6
        obtain ⟨e4, qs4, h7, h8⟩ := watches_look h6
        refine ⟨e4, qs4, h5.trans h7, ?_⟩
        cases hr : readInfoFile path e4 item with
        | ok s => rw [hr] at h8; exact Or.inl ⟨s, rfl, h8⟩
        | error y =>
          rw [hr] at h8
          obtain ⟨h9, h10⟩ := watches_done h8
          exact Or.inr ⟨y, rfl, h9.symm, h10⟩
      · rw [if_neg hh3] at h6
        obtain ⟨h9, h10⟩ := watches_done h6
        refine ⟨e3, qs3, h5, Or.inr ⟨_, ?_, h9.symm, h10⟩⟩
        have : e3 [item, infoName] = none := by
          rw [Disk.has] at hh3
          cases hd : e3 [item, infoName] with
          | none => rfl
          | some o => rw [hd] at hh3; exact absurd rfl hh3
        simp only [readInfoFile, this]
    · rw [if_neg hh] at h4
      exact Or.inl ⟨by simpa using hh, h4⟩
  · rw [if_neg hd] at h2
    exact Or.inl ⟨by simpa using hd, h2⟩

/-- Every set of the listing has been read at some moment, after its directory had been seen. -/
theorem listing_sound {ι : Type} [DecidableEq ι] {d e : Disk} {ps qs : ι → Prog} {path : Str}
    {names : List Str} {fs sets : Dict Str FileSet}
    (h : Watches d ps (listLook path names fs) e qs (.done (.ok sets))) {k : Str} {s : FileSet}
    (hk : Dict.get? sets k = some s) :
    Dict.get? fs k = some s ∨ (k ∈ names ∧ ∃ e1 qs1 e3 qs3, Arrives d ps e1 qs1 ∧
      e1.isDir [k] = true ∧ Arrives e1 qs1 e3 qs3 ∧ readInfoFile path e3 k = .ok s ∧
      Arrives e3 qs3 e qs) := by
  induction names generalizing d ps fs with
  | nil =>
    obtain ⟨h1, _⟩ := watches_done h
    cases h1
    exact Or.inl hk
  | cons item items ih =>
    obtain ⟨e1, qs1, h1, h2⟩ := watches_item h
    rcases h2 with ⟨_, h2⟩ | ⟨hd, e2, qs2, h2, ⟨_, h3⟩ | ⟨_, e3, qs3, h3, ⟨s', hs', h4⟩ | ⟨y, _, h4, _⟩⟩⟩
    · rcases ih h2 with h5 | ⟨h5, a, as, b, bs, h6, h7, h8, h9⟩
      · exact Or.inl h5
      · exact Or.inr ⟨List.mem_cons_of_mem _ h5, a, as, b, bs, h1.trans h6, h7, h8, h9⟩
    · rcases ih h3 with h5 | ⟨h5, a, as, b, bs, h6, h7, h8, h9⟩
      · exact Or.inl h5
      · exact Or.inr ⟨List.mem_cons_of_mem _ h5, a, as, b, bs, (h1.trans h2).trans h6, h7, h8, h9⟩
    · rcases ih h4 with h5 | ⟨h5, a, as, b, bs, h6, h7, h8, h9⟩
      · rw [Dict.get?_set] at h5
        split at h5
        · rename_i he
          cases h5
          subst he
          exact Or.inr ⟨List.mem_cons_self, e1, qs1, e3, qs3, h1, hd, h2.trans h3, hs',
            watches_arrives h4⟩
        · exact Or.inl h5
      · exact Or.inr ⟨List.mem_cons_of_mem _ h5, a, as, b, bs,
          ((h1.trans h2).trans h3).trans h6, h7, h8, h9⟩
    · cases h4

/-- What is there all the time is listed. -/
theorem listing_complete {ι : Type} [DecidableEq ι] {d e : Disk} {ps qs : ι → Prog} {path : Str}
    {names : List Str} {fs sets : Dict Str FileSet}
    (h : Watches d ps (listLook path names fs) e qs (.done (.ok sets))) {k : Str}
    (hk : k ∈ names ∨ Dict.get? fs k ≠ none)
    (hl : ∀ e qs, Arrives d ps e qs → e.isDir [k] = true ∧ e.has [k, infoName] = true) :
    Dict.get? sets k ≠ none := by
  induction names generalizing d ps fs with
  | nil =>
    obtain ⟨h1, _⟩ := watches_done h
    cases h1
    rcases hk with hk | hk
    · cases hk
    · exact hk
  | cons item items ih =>
    have hk' : k = item ∨ k ∈ items ∨ Dict.get? fs k ≠ none := by
      rcases hk with hk | hk
      · rcases List.mem_cons.1 hk with hk | hk
        · exact Or.inl hk
        · exact Or.inr (Or.inl hk)
      · exact Or.inr (Or.inr hk)
    obtain ⟨e1, qs1, h1, h2⟩ := watches_item h
    rcases h2 with ⟨hd, h2⟩ | ⟨hd, e2, qs2, h2, ⟨hh, h3⟩ | ⟨_, e3, qs3, h3, ⟨s', hs', h4⟩ | ⟨y, _, h4, _⟩⟩⟩
    · refine ih h2 ?_ fun e qs ha => hl e qs (h1.trans ha)
      rcases hk' with rfl | hk'
      · rw [(hl _ _ h1).1] at hd; cases hd
      · exact hk'
    · refine ih h3 ?_ fun e qs ha => hl e qs ((h1.trans h2).trans ha)
      rcases hk' with rfl | hk'
      · rw [(hl _ _ (h1.trans h2)).2] at hh; cases hh
      · exact hk'
    · refine ih h4 ?_ fun e qs ha => hl e qs (((h1.trans h2).trans h3).trans ha)
      rw [Dict.get?_set]
      rcases hk' with rfl | hk' | hk'
      · right; simp
      · exact Or.inl hk'
      · right
        split
        · simp
        · exact hk'
    · cases h4

/-- A listing fails because of one name: its directory and its info file have been seen, and later
the info file cannot be read. -/
theorem listing_error {ι : Type} [DecidableEq ι] {d e : Disk} {ps qs : ι → Prog} {path : Str}
    {names : List Str} {fs : Dict Str FileSet} {y : PyErr}
    (h : Watches d ps (listLook path names fs) e qs (.done (.error y))) :
    ∃ k ∈ names, ∃ e1 qs1 e2 qs2 e3 qs3, Arrives d ps e1 qs1 ∧ e1.isDir [k] = true ∧
      Arrives e1 qs1 e2 qs2 ∧ e2.has [k, infoName] = true ∧ Arrives e2 qs2 e3 qs3 ∧
      readInfoFile path e3 k = .error y := by
  induction names generalizing d ps fs with
  | nil => obtain ⟨h1, _⟩ := watches_done h; cases h1
  | cons item items ih =>
    obtain ⟨e1, qs1, h1, h2⟩ := watches_item h
    have up : ∀ {d' : Disk} {ps' : ι → Prog} {fs' : Dict Str FileSet}, Arrives d ps d' ps' →
        Watches d' ps' (listLook path items fs') e qs (.done (.error y)) →
        ∃ k ∈ item :: items, ∃ e1 qs1 e2 qs2 e3 qs3, Arrives d ps e1 qs1 ∧ e1.isDir [k] = true ∧
          Arrives e1 qs1 e2 qs2 ∧ e2.has [k, infoName] = true ∧ Arrives e2 qs2 e3 qs3 ∧
          readInfoFile path e3 k = .error y := by
      intro d' ps' fs' ha hw
      obtain ⟨k, hk, a, as, b, bs, c, cs, h3, h4⟩ := ih hw
      exact ⟨k, List.mem_cons_of_mem _ hk, a, as, b, bs, c, cs, ha.trans h3, h4⟩
    rcases h2 with ⟨hd, h2⟩ | ⟨hd, e2, qs2, h2, ⟨hh, h3⟩ | ⟨hh, e3, qs3, h3, ⟨s', hs', h4⟩ | ⟨z, hz, h4, _⟩⟩⟩
    · exact up h1 h2
    · exact up (h1.trans h2) h3
    · exact up ((h1.trans h2).trans h3) h4
    · cases h4
      exact ⟨item, List.mem_cons_self, e1, qs1, e2, qs2, e3, qs3, h1, hd, h2, hh, h3, hz⟩

end Punx

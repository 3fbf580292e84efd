import Verif.Props.Process3

/-!
# Which file set a validator uses (C87)
-/

namespace Punx
open Spec

theorem selectSet_ok {ref : Option Str} {p p' : Proc} (h : selectSet ref p = (.ok (), p')) :
    ∃ k i o, chooseSet p.infos ref = .ok k ∧ Dict.get? p.sets k = some i ∧ p.objs[i]? = some o ∧
      p' = { p with default := some i } := by
  unfold selectSet at h
  split at h
  · cases h
  · next k hk =>
    split at h
    · cases h
    · next i hi =>
      split at h
      · cases h
      · next o ho =>
        injection h with _ h
        exact ⟨k, i, o, hk, hi, ho, h.symm⟩

theorem choose_comparable {sets : Dict Str FileSet} {ref : Option Str} {k : Str}
    (h : chooseSet sets ref = .ok k) : datesComparable sets = true := by
  unfold chooseSet at h
  split at h
  · cases h
  · next h' => simpa using h'

theorem choose_nonempty {sets : Dict Str FileSet} {ref : Option Str} {k : Str}
    (h : chooseSet sets ref = .ok k) : sets ≠ [] := by
  rintro rfl
  have : chooseSet [] ref = .error .indexError := by
    cases ref <;> rfl
  rw [this] at h
  cases h

theorem choose_not_keyError {sets : Dict Str FileSet} {ref : Option Str} :
    chooseSet sets ref ≠ .error .keyError := by
  intro h
  unfold chooseSet at h
  split at h
  · cases h
  · dsimp only at h
    split at h
    · cases h
    · cases h

theorem choose_cases {sets : Dict Str FileSet} {ref : Option Str} {k : Str}
    (h : chooseSet sets ref = .ok k) :
    (ref = some k ∧ k ∈ Dict.keys sets) ∨
      (∃ s, Latest sets k s) ∧ ∀ r, ref = some r → r ∉ Dict.keys sets := by
  have hd := choose_comparable h
  by_cases hr : ∃ r, ref = some r ∧ r ∈ Dict.keys sets
  · obtain ⟨r, rfl, hk⟩ := hr
    rw [choose_known hd hk] at h
    injection h with h
    subst h
    exact .inl ⟨rfl, hk⟩
  · have hr' : ∀ r, ref = some r → r ∉ Dict.keys sets := fun r h1 h2 => hr ⟨r, h1, h2⟩
    obtain ⟨k', s, hl, hc⟩ := choose_latest hd (choose_nonempty h) ref hr'
    rw [hc] at h
    injection h with h
    subst h
    exact .inr ⟨⟨s, hl⟩, hr'⟩

theorem mem_infos_get {p : Proc} (hs : SetsOk p) {k : Str}
    {f : FileSet} (h : (k, f) ∈ p.infos) : Dict.get? p.infos k = some f := by
  refine Dict.get?_of_mem ?_ h
  rw [infos_keys hs]
  exact hs.nodup

theorem setsOk_start : SetsOk ({} : Proc) := setsOk_empty rfl

theorem grows_manager (lib : Lib) (w : Disks) (arg : SetArg) (p : Proc) :
    Grows p (nxdlManager lib w arg p).2 := nxdlManager_rel (grows_rel w) lib arg p

/-- What the default set is after a selection. -/
theorem selected_info {ref : Option Str} {p p' : Proc} (hs : SetsOk p)
    (h : selectSet ref p = (.ok (), p')) :
    ∃ k f i o, chooseSet p.infos ref = .ok k ∧ Dict.get? p.infos k = some f ∧ p'.default = some i ∧
      p'.objs[i]? = some o ∧ o.info = f := by
  obtain ⟨k, i, o, h1, h2, h3, rfl⟩ := selectSet_ok h
  exact ⟨k, o.info, i, o, h1, (infos_get hs k o.info).2 ⟨i, o, h2, h3, rfl⟩, rfl, h3, rfl⟩

/-- The set of a manager that is made by name. -/
theorem named_info {lib : Lib} {w : Disks} {r : Str} {p p' : Proc} {m : ManagerObj}
    (hm : p.made = true) (hs : SetsOk p) (h : nxdlManager lib w (.named r) p = (.ok m, p')) :
    ∃ k f o, chooseSet p.infos (some r) = .ok k ∧ Dict.get? p.infos k = some f ∧
      p'.objs[m.fileSet]? = some o ∧ o.info = f := by
  obtain ⟨p1, o1, d, l, h1, ho, hh, hd, hl, hc⟩ := nxdlManager_ok h
  unfold wantedSet at h1
  obtain ⟨_, p2, g1, g⟩ := Mut.bind_ok h1
  rw [cacheManager_made hm] at g1
  injection g1 with _ g1
  subst g1
  obtain ⟨_, p3, g2, g3⟩ := Mut.bind_ok g
  obtain ⟨e, g4⟩ := defaultSet_ok g3
  subst e
  obtain ⟨k, f, i, o, a1, a2, a3, a4, a5⟩ := selected_info hs g2
  rw [g4] at a3
  injection a3 with a3
  subst a3
  have hg := readClasses_rel (grows_rel w) lib m.fileSet d l p1
  rw [hc] at hg
  obtain ⟨o', b1, b2, _⟩ := hg.objs m.fileSet o a4
  exact ⟨k, f, o', a1, a2, b1, b2.trans a5⟩

/-- **C87.** A manager that is asked for the name of a known file set is one of that set: in every
process, after whatever was done in it before. -/
theorem named_manager {lib : Lib} {xs : List Doing} {w : Disks} {r : Str} {p p' : Proc}
    {m : ManagerObj} {f : FileSet} (hp : afterAll lib xs {} = p) (hm : p.made = true)
    (hf : Dict.get? p.infos r = some f) (h : nxdlManager lib w (.named r) p = (.ok m, p')) :
    ∃ o, p'.objs[m.fileSet]? = some o ∧ o.info = f := by
  have hs : SetsOk p := hp ▸ setsOk_after lib xs {} setsOk_start
  obtain ⟨k, f', o, h1, h2, h3, h4⟩ := named_info hm hs h
  have hk : r ∈ Dict.keys p.infos := by
    rw [← Dict.has_iff]; simp [Dict.has, hf]
  rw [choose_known (choose_comparable h1) hk] at h1
  injection h1 with h1
  subst h1
  rw [hf] at h2
  injection h2 with h2
  exact ⟨o, h3, h4.trans h2.symm⟩

/-- **C87**, not kept: a name that is not known is not refused; the manager is one of the most recent
set. -/
theorem unknown_gives_latest {lib : Lib} {xs : List Doing} {w : Disks} {r : Str} {p p' : Proc}
    {m : ManagerObj} (hp : afterAll lib xs {} = p) (hm : p.made = true)
    (hr : r ∉ Dict.keys p.infos) (h : nxdlManager lib w (.named r) p = (.ok m, p')) :
    ∃ k f o, Latest p.infos k f ∧ p'.objs[m.fileSet]? = some o ∧ o.info = f := by
  have hs : SetsOk p := hp ▸ setsOk_after lib xs {} setsOk_start
  obtain ⟨k, f, o, h1, h2, h3, h4⟩ := named_info hm hs h
  rcases choose_cases h1 with ⟨e, hk⟩ | ⟨⟨s, hl⟩, _⟩
  · injection e with e
    exact absurd (e ▸ hk) hr
  · have := mem_infos_get hs (mem_of_latest hl)
    rw [h2] at this
    injection this with this
    exact ⟨k, f, o, this ▸ hl, h3, h4⟩

/-! ## no name -/

/-- A manager that is made without a name is one of the default set. -/
theorem unnamed_manager {lib : Lib} {w : Disks} {p p' : Proc} {m : ManagerObj}
    (hm : p.made = true) (h : nxdlManager lib w .latest p = (.ok m, p')) :
    p.default = some m.fileSet := by
  obtain ⟨p1, o1, d, l, h1, ho, hh, hd, hl, hc⟩ := nxdlManager_ok h
  unfold wantedSet at h1
  obtain ⟨_, p2, g1, g⟩ := Mut.bind_ok h1
  rw [cacheManager_made hm] at g1
  injection g1 with _ g1
  subst g1
  exact (defaultSet_ok g).2

/-- **C87**, not kept: a manager that is made without a name is of the same set as the one that was
made before, by a name. -/
theorem unnamed_after_named {lib : Lib} {w w' : Disks} {r : Str} {p p' p'' : Proc}
    {m m' : ManagerObj} (h : nxdlManager lib w (.named r) p = (.ok m, p'))
    (h' : nxdlManager lib w' .latest p' = (.ok m', p'')) : m'.fileSet = m.fileSet := by
  have hm : p'.made = true := by
    obtain ⟨p1, o, d, l, h1, _, _, _, _, hc⟩ := nxdlManager_ok h
    rcases wantedSet_ok h1 with ⟨e, _⟩ | ⟨_, hm, _⟩
    · cases e
    · have hg := readClasses_rel (grows_rel w) lib m.fileSet d l p1
      rw [hc] at hg
      exact hg.made hm
  have h1 := unnamed_manager hm h'
  rw [manager_is_default (arg := .named r) trivial h] at h1
  injection h1 with h1
  exact h1.symm

theorem keepsDefault_nxdlManager (lib : Lib) (w : Disks) {arg : SetArg}
    (ha : ∀ r, arg ≠ .named r) : KeepsDefault (nxdlManager lib w arg) := by
  refine keepsDefault_bind (fun p hp => ?_) fun i => keepsDefault_bind (fun p _ => ?_) fun o => ?_
  · cases arg with
    | object i => exact Same.refl p
    | named r => exact absurd rfl (ha r)
    | latest =>
      have e : wantedSet w .latest p = defaultSet p := by
        change (cacheManager w >>= fun _ => defaultSet) p = _
        rw [Mut.bind_run, cacheManager_made hp]
      rw [e]
      unfold defaultSet
      split <;> exact Same.refl p
  · unfold setObj
    split <;> exact Same.refl p
  · split
    · exact fun p _ => Same.refl p
    · exact keepsDefault_bind (fun p _ => Same.refl p) fun _ =>
        keepsDefault_bind (fun p _ => Same.refl p) fun _ => keepsDefault_readClasses lib w i _ _

/-- **C87.** As long as no set is named and none is selected the default stays what it is: listing
the sets, other managers and the schemas do not change it. -/
theorem default_kept {lib : Lib} : ∀ {xs : List Doing} {p : Proc}, p.made = true →
    (∀ x ∈ xs, x.Unnamed) → (afterAll lib xs p).made = true ∧ (afterAll lib xs p).default = p.default
  | [], p, hm, _ => ⟨hm, rfl⟩
  | x :: xs, p, hm, hx => by
    have h1 : (perform lib x p).2.made = true ∧ (perform lib x p).2.default = p.default := by
      have hu := hx x (by simp)
      cases x with
      | list w =>
        have e : perform lib (.list w) p = readSets w p := by
          change (cacheManager w >>= fun _ => readSets w) p = _
          rw [Mut.bind_run, cacheManager_made hm]
        rw [e]
        unfold readSets
        split
        · exact ⟨hm, rfl⟩
        · split
          · obtain ⟨_, _, a, b, _⟩ := addSets_infos _ _ (setsOk_nil p)
            exact ⟨a.trans hm, b⟩
          · obtain ⟨c, _, a, b, _⟩ := addSets_infos _ _ (setsOk_nil p)
            obtain ⟨_, _, a', b', _⟩ := addSets_infos _ _ c
            exact ⟨a'.trans (a.trans hm), b'.trans b⟩
      | select w r => exact absurd hu id
      | manager w a =>
        have := keepsDefault_bind (keepsDefault_nxdlManager lib w (arg := a)
          (by rintro r rfl; exact absurd hu id)) (fun _ => fun p _ => Same.refl p) (β := Unit)
          (f := fun _ => pure ()) p hm
        exact ⟨this.1.trans hm, this.2.1⟩
      | schema w i =>
        have := keepsDefault_bind (fun p _ => setSchema_same lib w i p)
          (fun _ => fun p _ => Same.refl p) (β := Unit) (f := fun _ => pure ()) p hm
        exact ⟨this.1.trans hm, this.2.1⟩
    obtain ⟨h2, h3⟩ := default_kept (lib := lib) (xs := xs) h1.1 fun y hy => hx y (by simp [hy])
    exact ⟨h2, h3.trans h1.2⟩

/-- The default set of a new cache manager. -/
theorem new_caches {w : Disks} {p : Proc} (h : cacheManager w {} = (.ok (), p)) :
    ∃ sets k f i o, allFileSets w.source w.user = .ok sets ∧ Latest sets k f ∧ p.default = some i ∧
      p.objs[i]? = some o ∧ o.info = f := by
  unfold cacheManager at h
  rw [if_neg (by decide)] at h
  split at h
  · next p1 h1 =>
    injection h with _ h
    subst h
    unfold initCaches at h1
    obtain ⟨_, p2, g1, g2⟩ := Mut.bind_ok h1
    obtain ⟨a1, a2, _⟩ := readSets_infos g1
    have h2 : selectSet none p2 = (.ok (), p1) := by
      cases hq : selectSet none p2 with
      | mk res q =>
      rw [hq] at g2
      by_cases hres : res = .error .keyError
      · exfalso
        subst hres
        unfold selectSet at hq
        split at hq
        · next e he =>
          injection hq with hq _
          injection hq with hq
          rw [hq] at he
          exact choose_not_keyError he
        · next k hk =>
          have hmem : k ∈ Dict.keys p2.infos := by
            rcases choose_cases hk with ⟨_, hk⟩ | ⟨⟨s, hl⟩, _⟩
            · exact hk
            · exact List.mem_map.2 ⟨_, mem_of_latest hl, rfl⟩
          rw [infos_keys a1, ← Dict.has_iff] at hmem
          cases hi : Dict.get? p2.sets k with
          | none => simp [Dict.has, hi] at hmem
          | some i =>
            have hlt := a1.inside (k, i) (Dict.mem_of_get? hi)
            rw [hi] at hq
            dsimp only at hq
            rw [List.getElem?_eq_getElem hlt] at hq
            dsimp only at hq
            injection hq with hq _
            split at hq <;> cases hq
      · split at g2
        · next hq' =>
          injection hq' with hq' _
          exact absurd hq' hres
        · exact g2
    obtain ⟨k, f, i, o, b1, b2, b3, b4, b5⟩ := selected_info a1 h2
    rcases choose_cases b1 with ⟨e, _⟩ | ⟨⟨s, hl⟩, _⟩
    · cases e
    · have := mem_infos_get a1 (mem_of_latest hl)
      rw [b2] at this
      injection this with this
      exact ⟨_, k, f, i, o, a2, this ▸ hl, b3, b4, b5⟩
  · cases h

/-- **C87**, the part that holds: in a process in which no set has been named, and none selected, a
manager without a name is one of the most recent set; of those that were there when the process first
looked for sets.

Missing: a process in which a set has been named (`unnamed_after_named`). -/
theorem unnamed_latest_partial {lib : Lib} {w0 w : Disks} {xs : List Doing} {p0 p' : Proc}
    {m : ManagerObj} (h0 : cacheManager w0 {} = (.ok (), p0)) (hx : ∀ x ∈ xs, x.Unnamed)
    (h : nxdlManager lib w .latest (afterAll lib xs p0) = (.ok m, p')) :
    ∃ sets k f o, allFileSets w0.source w0.user = .ok sets ∧ Latest sets k f ∧
      p'.objs[m.fileSet]? = some o ∧ o.info = f := by
  obtain ⟨sets, k, f, i, o, h1, h2, h3, h4, h5⟩ := new_caches h0
  obtain ⟨h6, h7⟩ := default_kept (lib := lib) (cacheManager_ok h0) hx
  have h8 := unnamed_manager h6 h
  rw [h7, h3] at h8
  injection h8 with h8
  subst h8
  have hg1 : Grows p0 (afterAll lib xs p0) :=
    afterAll_rel grows_refl (fun a b => grows_trans a b) xs p0 fun x _ => grows_rel x.disks
  have hg2 := grows_manager lib w .latest (afterAll lib xs p0)
  rw [h] at hg2
  obtain ⟨o1, b1, b2, _⟩ := (grows_trans hg1 hg2).objs _ o h4
  exact ⟨sets, k, f, o1, h1, h2, b1, b2.trans h5⟩

end Punx

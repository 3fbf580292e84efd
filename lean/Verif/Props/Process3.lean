import Verif.Props.Process2

/-!
# Which file set is used
-/

namespace Punx
open Spec

/-! ## the dictionary of file sets -/

/-- The numbers in the dictionary are those of objects, the names are different. -/
structure SetsOk (p : Proc) : Prop where
  inside : ∀ kv ∈ p.sets, kv.2 < p.objs.length
  nodup : (Dict.keys p.sets).Nodup

theorem infos_set (objs : List SetObj) (f : FileSet) (k : Str) : ∀ (sets : Dict Str Nat),
    (∀ kv ∈ sets, kv.2 < objs.length) →
    (Dict.set sets k objs.length).filterMap
        (fun kv => ((objs ++ [⟨f, none⟩])[kv.2]?).map fun o => (kv.1, o.info)) =
      Dict.set (sets.filterMap fun kv => (objs[kv.2]?).map fun o => (kv.1, o.info)) k f
  | [], _ => by simp [Dict.set]
  | (k', i) :: sets, h => by
    have hi : i < objs.length := h (k', i) (by simp)
    have ih := infos_set objs f k sets fun kv hkv => h kv (by simp [hkv])
    have e1 : (objs ++ [(⟨f, none⟩ : SetObj)])[i]? = objs[i]? := List.getElem?_append_left hi
    have e2 : objs[i]? = some objs[i] := List.getElem?_eq_getElem hi
    by_cases hk : k' = k
    · subst hk
      have e3 : ∀ kv ∈ sets, ((objs ++ [(⟨f, none⟩ : SetObj)])[kv.2]?).map (fun o => (kv.1, o.info)) =
          (objs[kv.2]?).map fun o => (kv.1, o.info) := by
        intro kv hkv
        rw [List.getElem?_append_left (h kv (by simp [hkv]))]
      simp only [Dict.set, if_true, List.filterMap_cons, e2, Option.map_some]
      rw [List.getElem?_append_right (Nat.le_refl _)]
      simp only [Nat.sub_self, List.getElem?_cons_zero, Option.map_some]
      congr 1
      exact List.filterMap_congr e3
    · simp only [Dict.set, if_neg hk, List.filterMap_cons, e1, e2, Option.map_some, ih]

theorem setsOk_set {p : Proc} (h : SetsOk p) (k : Str) (f : FileSet) :
    SetsOk { p with objs := p.objs ++ [⟨f, none⟩], sets := Dict.set p.sets k p.objs.length } := by
  refine ⟨?_, Dict.nodup_keys_set h.nodup k _⟩
  intro kv hkv
  simp only [List.length_append, List.length_cons, List.length_nil]
  rcases mem_set hkv with h1 | h1
  · rw [h1]; simp
  · have := h.inside kv h1; omega

theorem addSets_infos : ∀ (l : List (Str × FileSet)) (p : Proc), SetsOk p →
    SetsOk (addSets l p) ∧ (addSets l p).infos = Dict.update p.infos l ∧
      (addSets l p).made = p.made ∧ (addSets l p).default = p.default ∧
      (addSets l p).shared = p.shared
  | [], p, h => ⟨h, rfl, rfl, rfl, rfl⟩
  | (k, f) :: l, p, h => by
    obtain ⟨h1, h2, h3, h4, h5⟩ := addSets_infos l _ (setsOk_set h k f)
    refine ⟨h1, ?_, h3, h4, h5⟩
    unfold addSets
    rw [h2]
    have : ({ p with objs := p.objs ++ [⟨f, none⟩],
                     sets := Dict.set p.sets k p.objs.length } : Proc).infos = Dict.set p.infos k f :=
      infos_set p.objs f k p.sets h.inside
    rw [this]
    simp [Dict.update]

theorem setsOk_nil (p : Proc) : SetsOk { p with sets := [] } := by
  exact ⟨by simp, by simp [Dict.keys]⟩

theorem setsOk_empty {p : Proc} (h : p.sets = []) : SetsOk p := by
  refine ⟨?_, ?_⟩ <;> rw [h]
  · simp
  · simp [Dict.keys]

/-- **C87.** Listing the file sets gives new objects for all sets of both caches. -/
theorem readSets_infos {w : Disks} {p p' : Proc} (h : readSets w p = (.ok (), p')) :
    SetsOk p' ∧ allFileSets w.source w.user = .ok p'.infos ∧ p'.made = p.made ∧
      p'.default = p.default ∧ p'.shared = p.shared := by
  unfold readSets at h
  split at h
  · cases h
  · next s hs =>
    split at h
    · cases h
    · next u hu =>
      injection h with _ h
      subst h
      obtain ⟨a1, a2, a3, a4, a5⟩ := addSets_infos s { p with sets := [] } (setsOk_nil p)
      obtain ⟨b1, b2, b3, b4, b5⟩ := addSets_infos u _ a1
      refine ⟨b1, ?_, b3.trans a3, b4.trans a4, b5.trans a5⟩
      unfold allFileSets
      rw [hs, hu]
      dsimp only
      rw [b2, a2]
      rfl

theorem readSets_ok {w : Disks} {sets : Dict Str FileSet}
    (h : allFileSets w.source w.user = .ok sets) (p : Proc) :
    ∃ p', readSets w p = (.ok (), p') := by
  unfold allFileSets at h
  unfold readSets
  split at h
  · cases h
  · next s hs =>
    split at h
    · cases h
    · next u hu => exact ⟨_, by rw [hs, hu]⟩

/-- The names of the sets that have objects. -/
theorem infos_get {p : Proc} (h : SetsOk p) (k : Str) (f : FileSet) :
    Dict.get? p.infos k = some f ↔
      ∃ i o, Dict.get? p.sets k = some i ∧ p.objs[i]? = some o ∧ o.info = f := by
  have gen : ∀ (sets : Dict Str Nat), (∀ kv ∈ sets, kv.2 < p.objs.length) →
      (Dict.get? (sets.filterMap fun kv => (p.objs[kv.2]?).map fun o => (kv.1, o.info)) k = some f ↔
        ∃ i o, Dict.get? sets k = some i ∧ p.objs[i]? = some o ∧ o.info = f) := by
    intro sets
    induction sets with
    | nil => intro _; simp [Dict.get?]
    | cons kv sets ih =>
      intro hs
      obtain ⟨k', i⟩ := kv
      have hi : i < p.objs.length := hs (k', i) (by simp)
      have e2 : p.objs[i]? = some p.objs[i] := List.getElem?_eq_getElem hi
      have ih' := ih fun kv hkv => hs kv (by simp [hkv])
      simp only [List.filterMap_cons, e2, Option.map_some, Dict.get?]
      by_cases hk : k' = k
      · simp only [if_pos hk, Option.some.injEq]
        constructor
        · intro hf
          exact ⟨i, p.objs[i], rfl, e2, hf⟩
        · rintro ⟨j, o, hj, ho, hf⟩
          subst hj
          rw [e2] at ho
          cases ho
          exact hf
      · simp only [if_neg hk]
        exact ih'
  exact gen p.sets h.inside

theorem infos_keys {p : Proc} (h : SetsOk p) : Dict.keys p.infos = Dict.keys p.sets := by
  have gen : ∀ (sets : Dict Str Nat), (∀ kv ∈ sets, kv.2 < p.objs.length) →
      Dict.keys (sets.filterMap fun kv => (p.objs[kv.2]?).map fun o => (kv.1, o.info)) =
        Dict.keys sets := by
    intro sets
    induction sets with
    | nil => intro _; rfl
    | cons kv sets ih =>
      intro hs
      have hi : kv.2 < p.objs.length := hs kv (by simp)
      have e2 : p.objs[kv.2]? = some p.objs[kv.2] := List.getElem?_eq_getElem hi
      have ih' := ih fun kv hkv => hs kv (by simp [hkv])
      simp only [List.filterMap_cons, e2, Option.map_some]
      simp only [Dict.keys, List.map_cons] at ih' ⊢
      rw [ih']
  exact gen p.sets h.inside

/-! ## all states of a process have such a dictionary -/

/-- What a function does to the dictionary. -/
def KeepsSets {α : Type} (m : Mut Proc α) : Prop := ∀ p, SetsOk p → SetsOk (m p).2

theorem keepsSets_bind {α β : Type} {m : Mut Proc α} {f : α → Mut Proc β} (hm : KeepsSets m)
    (hf : ∀ a, KeepsSets (f a)) : KeepsSets (m >>= f) := by
  intro p hp
  rw [Mut.bind_run]
  have h1 := hm p hp
  cases h : m p with
  | mk r p1 =>
    rw [h] at h1
    cases r with
    | error e => exact h1
    | ok a => exact hf a p1 h1

theorem keepsSets_readSets (w : Disks) : KeepsSets (readSets w) := by
  intro p hp
  unfold readSets
  split
  · exact setsOk_nil p
  · split
    · exact (addSets_infos _ _ (setsOk_nil p)).1
    · exact (addSets_infos _ _ (addSets_infos _ _ (setsOk_nil p)).1).1

theorem keepsSets_selectSet (ref : Option Str) : KeepsSets (selectSet ref) := by
  intro p hp
  unfold selectSet
  split
  · exact hp
  · split
    · exact hp
    · split
      · exact hp
      · exact ⟨hp.inside, hp.nodup⟩

theorem keepsSets_initCaches (w : Disks) : KeepsSets (initCaches w) := by
  refine keepsSets_bind (keepsSets_readSets w) fun _ => ?_
  intro p hp
  have h := keepsSets_selectSet none p hp
  dsimp only
  split
  · next h' => rw [h'] at h; exact h
  · exact h

theorem keepsSets_cacheManager (w : Disks) : KeepsSets (cacheManager w) := by
  intro p hp
  unfold cacheManager
  split
  · exact hp
  · have h := keepsSets_initCaches w { p with sets := [], default := none } (setsOk_empty rfl)
    split
    · next h' => rw [h'] at h; exact ⟨h.inside, h.nodup⟩
    · exact setsOk_empty rfl

theorem keepsSets_setSchema (lib : Lib) (w : Disks) (i : Nat) : KeepsSets (setSchema lib w i) := by
  intro p hp
  unfold setSchema
  split
  · exact hp
  · split
    · exact hp
    · dsimp only
      split
      · exact hp
      · split
        · exact ⟨hp.inside, hp.nodup⟩
        · split
          · exact ⟨hp.inside, hp.nodup⟩
          · refine ⟨fun kv hkv => ?_, hp.nodup⟩
            simp only [List.length_set]
            exact hp.inside kv hkv

theorem keepsSets_defaultSet : KeepsSets defaultSet := by
  intro p hp
  unfold defaultSet
  split <;> exact hp

theorem keepsSets_wantedSet (w : Disks) (arg : SetArg) : KeepsSets (wantedSet w arg) := by
  cases arg with
  | object i => exact fun p hp => hp
  | latest => exact keepsSets_bind (keepsSets_cacheManager w) fun _ => keepsSets_defaultSet
  | named r =>
    exact keepsSets_bind (keepsSets_cacheManager w) fun _ =>
      keepsSets_bind (keepsSets_selectSet _) fun _ => keepsSets_defaultSet

theorem keepsSets_readDefs (lib : Lib) (w : Disks) : ∀ (l : List (Category × NxdlFile))
    (acc : Dict Str ClassDef) (d : Defaults), KeepsSets (readDefs lib w l acc d)
  | [], _, _ => fun _ hp => hp
  | (c, f) :: l, acc, d => by
    unfold readDefs
    cases f.content with
    | none => exact fun _ hp => hp
    | some x =>
      refine keepsSets_bind ?_ fun _ =>
        keepsSets_bind (fun _ hp => hp) fun r => keepsSets_readDefs lib w l _ _
      refine keepsSets_bind (keepsSets_cacheManager w) fun _ =>
        keepsSets_bind keepsSets_defaultSet fun i => keepsSets_bind (keepsSets_setSchema lib w i) fun s => ?_
      cases s with
      | none => exact fun _ hp => hp
      | some s =>
        intro p hp
        dsimp only
        split <;> exact hp

theorem keepsSets_readClasses (lib : Lib) (w : Disks) (i : Nat) (d : Option Defaults)
    (l : List (Category × NxdlFile)) : KeepsSets (readClasses lib w i d l) := by
  cases d with
  | none => cases l <;> exact fun _ hp => hp
  | some ds => exact keepsSets_bind (keepsSets_readDefs lib w l _ _) fun _ _ hp => hp

theorem keepsSets_nxdlManager (lib : Lib) (w : Disks) (arg : SetArg) :
    KeepsSets (nxdlManager lib w arg) := by
  refine keepsSets_bind (keepsSets_wantedSet w arg) fun i => keepsSets_bind (fun p hp => ?_) fun o => ?_
  · unfold setObj
    split <;> exact hp
  · split
    · exact fun _ hp => hp
    · exact keepsSets_bind (fun _ hp => hp) fun _ => keepsSets_bind (fun _ hp => hp) fun _ =>
        keepsSets_readClasses lib w i _ _

theorem setsOk_after (lib : Lib) : ∀ (xs : List Doing) (p : Proc), SetsOk p →
    SetsOk (afterAll lib xs p)
  | [], _, hp => hp
  | x :: xs, p, hp => by
    refine setsOk_after lib xs _ ?_
    cases x with
    | list w => exact keepsSets_bind (keepsSets_cacheManager w) (fun _ => keepsSets_readSets w) p hp
    | select w r =>
      exact keepsSets_bind (keepsSets_cacheManager w) (fun _ => keepsSets_selectSet r) p hp
    | manager w a =>
      exact keepsSets_bind (keepsSets_nxdlManager lib w a) (fun _ _ h => h) p hp
    | schema w i => exact keepsSets_bind (keepsSets_setSchema lib w i) (fun _ _ h => h) p hp

end Punx

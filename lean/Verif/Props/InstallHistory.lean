import Verif.Props.Install3

/-!
# After any number of installations (C70)
-/

namespace Punx

open Spec

/-- An operation that only concerns some paths. -/
def Touches (P : FPath → Prop) : Op → Prop
  | .mkdir p => P p
  | .create p => P p
  | .write p _ => P p
  | .remove p => P p
  | .rename _ _ => False

theorem touches_applyAll {P : FPath → Prop} {ops : List Op} (h : ∀ o ∈ ops, Touches P o) (d : Disk)
    {q : FPath} (hq : ¬ P q) : applyAll d ops q = d q := by
  induction ops generalizing d with
  | nil => rfl
  | cons o os ih =>
    rw [applyAll_cons, ih (fun o' ho' => h o' (List.mem_cons_of_mem _ ho'))]
    have ho := h o (by simp)
    have key : ∀ p, P p → q ≠ p := by
      rintro p hp rfl; exact hq hp
    cases o with
    | rename => exact absurd ho id
    | mkdir p => simp [Op.apply, Disk.put, key p ho]
    | create p => simp [Op.apply, Disk.put, key p ho]
    | write p c => simp [Op.apply, Disk.put, key p ho]
    | remove p => simp [Op.apply, Disk.put, key p ho]

theorem makeDirs_touches {d : Disk} (pre ws : FPath) :
    ∀ o ∈ makeDirs d pre ws, Touches (fun q => pre <+: q ∧ q ≠ pre ∧ q <+: pre ++ ws) o := by
  induction ws generalizing pre with
  | nil => intro o ho; simp [makeDirs] at ho
  | cons w ws ih =>
    intro o ho
    rw [makeDirs, List.mem_append] at ho
    rcases ho with ho | ho
    · split at ho
      · cases ho
      · rw [List.mem_singleton] at ho
        subst ho
        exact ⟨List.prefix_append _ _, by simp, by simp⟩
    · have := ih (pre ++ [w]) o ho
      cases o with
      | rename => exact this
      | mkdir p =>
        obtain ⟨h1, h2, h3⟩ := this
        refine ⟨(List.prefix_append _ _).trans h1, ?_, by simpa using h3⟩
        rintro rfl
        have := h1.length_le
        simp at this; omega
      | create p =>
        obtain ⟨h1, h2, h3⟩ := this
        refine ⟨(List.prefix_append _ _).trans h1, ?_, by simpa using h3⟩
        rintro rfl
        have := h1.length_le
        simp at this; omega
      | write p c =>
        obtain ⟨h1, h2, h3⟩ := this
        refine ⟨(List.prefix_append _ _).trans h1, ?_, by simpa using h3⟩
        rintro rfl
        have := h1.length_le
        simp at this; omega
      | remove p =>
        obtain ⟨h1, h2, h3⟩ := this
        refine ⟨(List.prefix_append _ _).trans h1, ?_, by simpa using h3⟩
        rintro rfl
        have := h1.length_le
        simp at this; omega

theorem touches_mono {P Q : FPath → Prop} (h : ∀ p, P p → Q p) {o : Op} (ho : Touches P o) :
    Touches Q o := by
  cases o with
  | rename => exact ho
  | mkdir p => exact h _ ho
  | create p => exact h _ ho
  | write p c => exact h _ ho
  | remove p => exact h _ ho

theorem extractMember_touches (d : Disk) (m : ZipMember) :
    ∀ o ∈ (extractMember d m).ops,
      Touches (fun q => q <+: extractPath m.name) o := by
  have hds : ∀ o ∈ makeDirs d [] (extractPath m.name).dropLast,
      Touches (fun q => q <+: extractPath m.name) o := by
    intro o ho
    refine touches_mono ?_ (makeDirs_touches [] _ o ho)
    rintro p ⟨_, _, h⟩
    exact h.trans (List.dropLast_prefix _)
  intro o ho
  unfold extractMember at ho
  simp only at ho
  split at ho
  · cases ho
  · split at ho
    · split at ho
      · rcases List.mem_append.1 ho with ho | ho
        · exact hds o ho
        · rw [List.mem_singleton] at ho; subst ho; exact List.prefix_rfl
      · exact hds o ho
      · exact hds o ho
    · split at ho
      · exact hds o ho
      · rcases List.mem_append.1 ho with ho | ho
        · exact hds o ho
        · rcases List.mem_cons.1 ho with rfl | ho
          · exact List.prefix_rfl
          · rw [List.mem_singleton] at ho; subst ho; exact List.prefix_rfl

theorem extractAll_touches {z : Archive} {es ps : List Str} (items : List Str) (d : Disk) (dt : Date)
    (n : Nat) :
    ∀ o ∈ (extractAll z es ps d dt n items).ops,
      Touches (fun q => ∃ i ∈ items, q <+: extractPath i) o := by
  induction items generalizing d dt n with
  | nil => intro o ho; simp [extractAll] at ho
  | cons i is ih =>
    have ih' : ∀ d dt n, ∀ o ∈ (extractAll z es ps d dt n is).ops,
        Touches (fun q => ∃ j ∈ i :: is, q <+: extractPath j) o := by
      intro d dt n o ho
      refine touches_mono ?_ (ih d dt n o ho)
      rintro p ⟨j, hj, h⟩
      exact ⟨j, List.mem_cons_of_mem _ hj, h⟩
    intro o ho
    rw [extractAll] at ho
    split at ho
    · split at ho
      · cases ho
      · rename_i m hm
        have hme : ∀ o ∈ (extractMember d m).ops,
            Touches (fun q => ∃ j ∈ i :: is, q <+: extractPath j) o := by
          intro o ho
          refine touches_mono ?_ (extractMember_touches d m o ho)
          intro p hp
          exact ⟨i, by simp, by rw [← getinfo_name hm]; exact hp⟩
        unfold Deed.andThen at ho
        split at ho
        · exact hme o ho
        · rcases List.mem_append.1 ho with ho | ho
          · exact hme o ho
          · exact ih' _ _ _ o ho
    · exact ih' _ _ _ o ho

/-- One installation, complete but perhaps with an error, keeps the cache readable. -/
theorem readable_step {u : Use} (hu : u.Usual) {d : Disk} (hd : Readable d) :
    Readable (applyAll d (downloadFileSet u.net u.rm u.written d u.name u.update).ops) := by
  rcases download_ops (net := u.net) (rm := u.rm) (w := u.written) (d := d) (name := u.name)
    (replace := u.update) with ⟨z, hz, _, hdl⟩ | h0
  swap
  · rw [h0]; exact hd
  obtain ⟨top, ho, hne, hinfo⟩ := hu z hz
  have htop : top ≠ infoName := by
    obtain ⟨m, ms, hm, _⟩ := oneDirectory_first ho
    rintro rfl
    obtain ⟨r, hr⟩ := oneDirectory_path ho (m := m) (by rw [hm]; simp)
    exact hinfo m (by rw [hm]; simp) (by rw [hr]; simp)
  rw [hdl]
  have hnoinfo : ∀ (k : Str), applyAll d (extractAll z endings (categories ++ [top]) d preNexus 0
        (z.members.map (·.name))).ops [k, infoName] = d [k, infoName] := by
    intro k
    refine touches_applyAll (extractAll_touches _ _ _ _) d ?_
    rintro ⟨i, hi, hp⟩
    obtain ⟨m, hm, rfl⟩ := List.mem_map.1 hi
    exact hinfo m hm (hp.subset (by simp))
  rcases unpack_stages ho u.rm u.written d u.name with
    ⟨ops, h1, _, _, h4⟩ | ⟨ops, d2, h1, h2, h3, _, h5, h6, h7⟩
  · rw [h1, h4]
    intro k hk
    rw [hnoinfo] at hk
    obtain ⟨o, h, h'⟩ := hd k hk
    exact ⟨o, (hnoinfo k).trans h, h'⟩
  · have hd2 : Readable d2 := by
      intro k hk
      by_cases hkt : k = top
      · subst hkt
        obtain ⟨_, _, o, dt, e1, _, e2, _, e3⟩ := h5
        exact ⟨o, e1, by rw [e2]; simp, by rw [e3]; simp⟩
      · have e : d2 [k, infoName] = d [k, infoName] := by
          rw [h2]
          exact applyAll_inside h1 (by simpa using hkt)
        rw [e] at hk
        obtain ⟨o, h, h'⟩ := hd k hk
        exact ⟨o, e.trans h, h'⟩
    rw [h3, applyAll_append, ← h2]
    have hcopy : ∀ {s : Disk} {k k' : Str}, s [k, infoName] = d2 [k', infoName] →
        s [k, infoName] ≠ none → ∃ o, Described s k o ∧ Dict.get? o s%"sha" ≠ none ∧
          Dict.get? o s%"last_modified" ≠ none := by
      intro s k k' e hk
      rw [e] at hk
      obtain ⟨o, h, h'⟩ := hd2 k' hk
      exact ⟨o, e.trans h, h'⟩
    rcases replaceOld_stops hne (stops_end d2 (replaceOld u.rm d2 top u.name).ops) with
      ⟨k1, k2, _⟩ | ⟨k1, k2, k3⟩ | ⟨_, k1, k2, k3, k4⟩
    · intro k hk
      by_cases hkn : k = u.name
      · subst hkn
        rcases k2 [infoName] with h | h
        · exact hcopy h hk
        · exact absurd h hk
      · exact hcopy (k1 _ (by simpa using hkn)) hk
    · intro k hk
      by_cases hkn : k = u.name
      · subst hkn
        exact hcopy (k1 [infoName]) hk
      · by_cases hkt : k = top
        · subst hkt
          exact absurd (k2 [infoName]) hk
        · exact hcopy (k3 _ (by simpa using hkn) (by simpa using hkt)) hk
    · intro k hk
      by_cases hkn : k = u.name
      · subst hkn
        rcases k4 [infoName] (by simpa using Ne.symm htop) with h | h
        · exact hcopy h hk
        · exact absurd h hk
      · by_cases hkt : k = top
        · subst hkt
          exact absurd (k2 [infoName]) hk
        · exact hcopy (k3 _ (by simpa using hkn) (by simpa using hkt)) hk

theorem readable_after {us : List Use} (hu : ∀ u ∈ us, u.Usual) {d : Disk} (hd : Readable d) :
    Readable (afterUses d us) := by
  induction us generalizing d with
  | nil => exact hd
  | cons u us ih =>
    exact ih (fun v hv => hu v (List.mem_cons_of_mem _ hv)) (readable_step (hu u (by simp)) hd)

/-- **C70**: after any number of installations and updates that were not interrupted (they may fail,
and old sets may be impossible to remove), starting from a readable cache, e.g. an empty one, the
cache can be listed and every listed set says when and from which commit it is. -/
theorem cache_usable {us : List Use} (hu : ∀ u ∈ us, u.Usual) {d : Disk} (hd : Readable d)
    (path : Str) (listing : List Str) :
    ∃ sets, (CacheDir.mk path listing (afterUses d us)).allFileSets = .ok sets ∧
      (Dict.keys sets).Nodup ∧ ∀ kv ∈ sets, WellDescribed kv.2 := by
  have hr := readable_after hu hd
  obtain ⟨sets, hs⟩ := (listing_works_iff ⟨path, listing, afterUses d us⟩).2
    (fun k _ hl => by
      obtain ⟨o, h, _⟩ := hr k hl.2
      exact ⟨o, h⟩)
  have hn := (listSets_ok hs (by simp [Dict.keys])).1
  refine ⟨sets, hs, hn, ?_⟩
  intro kv hkv
  have hg : Dict.get? sets kv.1 = some kv.2 := Dict.get?_of_mem hn hkv
  obtain ⟨_, _, o, ho, hf, _⟩ := (listed_sets hs kv.1 kv.2).1 hg
  have hk : (afterUses d us) [kv.1, infoName] ≠ none := by
    rw [show (afterUses d us) [kv.1, infoName] = _ from ho]; simp
  obtain ⟨o', ho', h1, h2⟩ := hr kv.1 hk
  have : o = o' := by
    have h3 : some (FObj.file (.json o)) = some (FObj.file (.json o')) := ho.symm.trans ho'
    simpa using h3
  subst this
  exact ⟨by rw [hf.2.2.2.2.2]; exact h2, by rw [hf.2.2.2.1]; exact h1⟩

/-- **C70**: so a selection works as soon as there is a set. -/
theorem selection_usable {us : List Use} (hu : ∀ u ∈ us, u.Usual) {d : Disk} (hd : Readable d)
    {path : Str} {listing : List Str} {sets : Dict Str FileSet}
    (hs : (CacheDir.mk path listing (afterUses d us)).allFileSets = .ok sets) (hne : sets ≠ [])
    (ref : Option Str) : ∃ s, selectFileSet sets ref = .ok s := by
  obtain ⟨sets', hs', hn, hw⟩ := cache_usable hu hd path listing
  rw [hs] at hs'
  injection hs' with hs'
  subst hs'
  cases h : selectFileSet sets ref with
  | ok s => exact ⟨s, rfl⟩
  | error e => exact absurd ((select_fails_iff hn hw ref e).1 h).1 hne

example : Readable emptyDisk := fun k hk => absurd (by simp [emptyDisk]) hk

example : (Use.mk goodNet [] s%"today" s%"main" true).Usual := by
  intro z hz
  have : z = someArchive := by
    simp only [goodNet, Answer.archive.injEq] at hz
    exact hz.symm
  subst this
  refine ⟨_, someArchive_tidy, by decide, ?_⟩
  decide

end Punx

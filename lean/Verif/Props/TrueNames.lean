import Verif.Props.InstallHistory
import Verif.Props.Argparse4

/-!
# C119: a set is called like its description says
-/

namespace Punx

open Spec

/-- The directory was moved, unless there is an error of the file system. -/
theorem replaceOld_done {rm : Removal} {d2 : Disk} {top name : Str} (hne : top ≠ name)
    (h : (replaceOld rm d2 top name).res ≠ .error .osError) :
    Gone (applyAll d2 (replaceOld rm d2 top name).ops) top := by
  unfold replaceOld Deed.andThen at h ⊢
  simp only at h ⊢
  generalize hrm : (if d2.isDir [name] = true then rm.map (fun r => Op.remove (name :: r)) else [])
    = ops at h ⊢
  rw [applyAll_append]
  generalize applyAll d2 ops = d3 at h ⊢
  intro q
  cases hn : d3 [name] with
  | none =>
    simp only [hn] at h ⊢
    split
    · simp [applyAll_cons, applyAll_nil, Op.apply, Ne.symm hne]
    · rename_i h'
      rw [if_neg h'] at h
      exact absurd rfl h
  | some f =>
    cases f with
    | file c =>
      simp only [hn] at h
      exact absurd rfl h
    | dir =>
      simp only [hn] at h ⊢
      split
      · rename_i h'
        rw [if_pos h'] at h
        exact absurd rfl h
      · simp [applyAll_cons, applyAll_nil, Op.apply, Ne.symm hne]

/-- One use keeps the names true. -/
theorem true_names_step {u : Use} (hu : u.Usual) {d : Disk} (hd : TrueNames d)
    (hok : (∃ z, u.net 0 = .archive z) →
      (downloadFileSet u.net u.rm u.written d u.name u.update).res ≠ .error .osError) :
    TrueNames (applyAll d (downloadFileSet u.net u.rm u.written d u.name u.update).ops) := by
  rcases download_ops (net := u.net) (rm := u.rm) (w := u.written) (d := d) (name := u.name)
    (replace := u.update) with ⟨z, hz, _, hdl⟩ | h0
  swap
  · rw [h0]; exact hd
  obtain ⟨top, ho, hne, hinfo⟩ := hu z hz
  have htop : top ≠ infoName := by
    obtain ⟨m, ms, hm, _⟩ := oneDirectory_first ho
    rintro rfl
    obtain ⟨r, hr⟩ := oneDirectory_path ho (m := m) (by rw [hm]; simp)
    exact hinfo m (by rw [hm]; simp) (by rw [hr]; simp)
  have hok := hok ⟨z, hz⟩
  rw [hdl] at hok ⊢
  rcases unpack_stages ho u.rm u.written d u.name with
    ⟨ops, h1, _, _, h4⟩ | ⟨ops, d2, h1, h2, h3, h3r, h5, h6, h7⟩
  · rw [h1, h4]
    intro k o hk
    refine hd k o ?_
    rw [← hk]
    refine (touches_applyAll (extractAll_touches _ _ _ _) d ?_).symm
    rintro ⟨i, hi, hp⟩
    obtain ⟨m, hm, rfl⟩ := List.mem_map.1 hi
    exact hinfo m hm (hp.subset (by simp))
  · have hd2 : ∀ k o, k ≠ top → d2 [k, infoName] = some (.file (.json o)) →
        Dict.get? o s%"ref" = some k := by
      intro k o hkt hk
      refine hd k o ?_
      rw [← hk, h2]
      exact (applyAll_inside h1 (by simpa using hkt)).symm
    rw [h3r] at hok
    have hgone := replaceOld_done hne hok
    rw [h3, applyAll_append, ← h2]
    have hold : ∀ {s : Disk} {k : Str} {o : Dict Str Str}, k ≠ top →
        (s [k, infoName] = d2 [k, infoName] ∨ s [k, infoName] = none) →
        s [k, infoName] = some (.file (.json o)) → Dict.get? o s%"ref" = some k := by
      intro s k o hkt h hk
      rcases h with h | h
      · exact hd2 k o hkt (h.symm.trans hk)
      · rw [h] at hk; cases hk
    intro k o hk
    have hkt : k ≠ top := by
      rintro rfl
      rw [hgone] at hk
      cases hk
    rcases replaceOld_stops hne (stops_end d2 (replaceOld u.rm d2 top u.name).ops) with
      ⟨k1, k2, _⟩ | ⟨k1, k2, k3⟩ | ⟨_, k1, k2, k3, k4⟩
    · by_cases hkn : k = u.name
      · subst hkn
        exact hold hkt (k2 [infoName]) hk
      · exact hold hkt (Or.inl (k1 _ (by simpa using hkn))) hk
    · by_cases hkn : k = u.name
      · subst hkn
        rw [k1 [infoName]] at hk
        obtain ⟨_, _, o', dt, e1, e2, _⟩ := h5
        rw [← show infoName = s%"__github_info__.json" from rfl,
          show [top] ++ [infoName] = [top, infoName] from rfl, hk] at e1
        injection e1 with e1
        injection e1 with e1
        injection e1 with e1
        rw [e1]
        exact e2
      · exact hold hkt (Or.inl (k3 _ (by simpa using hkn) (by simpa using hkt))) hk
    · by_cases hkn : k = u.name
      · subst hkn
        exact hold hkt (k4 [infoName] (by simpa using Ne.symm htop)) hk
      · exact hold hkt (Or.inl (k3 _ (by simpa using hkn) (by simpa using hkt))) hk

/-- **C119** (partial: nothing was interrupted, and what was downloaded could be put on the disk): after
any number of installations and updates every set is called like its description says, if this was so
before, e.g. in an empty cache. -/
theorem true_names_after_partial {us : List Use} (hu : ∀ u ∈ us, u.Usual) {d : Disk} (hd : TrueNames d)
    (hok : Untroubled d us) : TrueNames (afterUses d us) := by
  induction us generalizing d with
  | nil => exact hd
  | cons u us ih =>
    exact ih (fun v hv => hu v (List.mem_cons_of_mem _ hv)) (true_names_step (hu u (by simp)) hd hok.1)
      hok.2

/-- The description of a listed set has its name. -/
theorem listed_ref {c : CacheDir} {sets : Dict Str FileSet} (hd : TrueNames c.disk)
    (h : c.allFileSets = .ok sets) {k : Str} {s : FileSet} (hk : Dict.get? sets k = some s) :
    s.ref = some k := by
  obtain ⟨_, _, o, ho, hf, _⟩ := (listed_sets h k s).1 hk
  rw [hf.2.2.1]
  exact hd k o ho

theorem listed_described {c : CacheDir} {sets : Dict Str FileSet} (hd : Readable c.disk)
    (h : c.allFileSets = .ok sets) {k : Str} {s : FileSet} (hk : Dict.get? sets k = some s) :
    WellDescribed s := by
  obtain ⟨_, _, o, ho, hf, _⟩ := (listed_sets h k s).1 hk
  obtain ⟨o', ho', h1, h2⟩ := hd k (by rw [show c.disk [k, infoName] = _ from ho]; simp)
  have : o = o' := by
    have h3 : some (FObj.file (.json o)) = some (FObj.file (.json o')) := ho.symm.trans ho'
    simpa using h3
  subst this
  exact ⟨by rw [hf.2.2.2.2.2]; exact h2, by rw [hf.2.2.2.1]; exact h1⟩
theorem both_caches {source user : CacheDir} (hs1 : Readable source.disk) (hs2 : TrueNames source.disk)
    (hu1 : Readable user.disk) (hu2 : TrueNames user.disk) :
    ∃ sets, allFileSets source user = .ok sets ∧
      ∀ k s, (k, s) ∈ sets → WellDescribed s ∧ s.ref = some k := by
  have hlist : ∀ c : CacheDir, Readable c.disk → ∃ sets, c.allFileSets = .ok sets := by
    intro c hc
    refine (listing_works_iff c).2 fun k _ hl => ?_
    obtain ⟨o, h, _⟩ := hc k hl.2
    exact ⟨o, h⟩
  obtain ⟨ss, hss⟩ := hlist source hs1
  obtain ⟨us, hus⟩ := hlist user hu1
  have hall : ∃ sets, allFileSets source user = .ok sets := by
    unfold allFileSets
    rw [hss, hus]
    exact ⟨_, rfl⟩
  obtain ⟨sets, hsets⟩ := hall
  refine ⟨sets, hsets, fun k s hk => ?_⟩
  obtain ⟨ss', us', e1, e2, hn, g1, g2⟩ := user_precedence hsets
  rw [hss] at e1
  rw [hus] at e2
  injection e1 with e1
  injection e2 with e2
  subst e1 e2
  have hg := Dict.get?_of_mem hn hk
  cases h : Dict.get? us k with
  | none =>
    rw [g2 k h] at hg
    exact ⟨listed_described hs1 hss hg, listed_ref hs2 hss hg⟩
  | some s' =>
    rw [g1 k s' h] at hg
    injection hg with hg
    subst hg
    exact ⟨listed_described hu1 hus h, listed_ref hu2 hus h⟩

/-- **C119** (partial: as `true_names_after_partial`): after any number of installations and updates
`punx validate FILE` uses the definitions of the most recent set of the two caches. -/
theorem validate_after_uses_partial {t : Texts} {lib : Lib} {pattern : Str → Pat} {w : Disks} {env : Env}
    {files : Str → FileState} {upper : Char → Str} {abspath : Str → Str} {us : List Use} {d : Disk}
    {c f : Str} (hs1 : Readable w.source.disk) (hs2 : TrueNames w.source.disk)
    (hd1 : Readable d) (hd2 : TrueNames d) (hu : ∀ u ∈ us, u.Usual) (hok : Untroubled d us)
    (hw : w.user.disk = afterUses d us)
    (hdig : env.isdigit s%"1" = true) (hn : ∀ file, files f = .hdf5 file → WellNamedFile file)
    (hc : Calls c s%"validate") (hf : IsWord t validateParser f) :
    ∃ sets, allFileSets w.source w.user = .ok sets ∧ ∀ k s, Latest sets k s →
      HasDefinitions (w.dir s.path) → LawfulDocs (w.dir s.path) →
      ∃ a, mainCommand t w.source w.user [c, f] = .ok (.validate a) ∧ ∀ fname l,
        (∃ rows sm sc, Act.report fname rows sm sc ∈
            (funcValidate (commandWorld lib pattern w env files upper abspath) a).log ∧
            l ∈ rows.map lineOf) ↔
          fname = f ∧ ¬ s%".nxdl.xml" <:+ f ∧ ∃ mgr file, OwnDefinitions lib pattern (w.dir s.path) mgr ∧
            files f = .hdf5 file ∧ Validatable env mgr file ∧
            Expected env mgr [] file (contents env file) l := by
  obtain ⟨sets, hsets, h⟩ := both_caches hs1 hs2
    (by rw [hw]; exact readable_after hu hd1) (by rw [hw]; exact true_names_after_partial hu hd2 hok)
  refine ⟨sets, hsets, fun k s hk hdef hdoc => ?_⟩
  exact plain_validate_prints_partial hsets (fun kv hkv => (h kv.1 kv.2 hkv).1) hk
    (h k s (mem_of_latest hk)).2 hdef hdoc hdig hn hc hf

/-! ## what goes wrong -/

/-- An update while the old set cannot be removed. -/
def lockedUpdate : Use := ⟨goodNet, [], s%"today", s%"main", true⟩

theorem lockedUpdate_usual : lockedUpdate.Usual := by
  intro z hz
  have : z = someArchive := by
    simp only [lockedUpdate, goodNet, Answer.archive.injEq] at hz
    exact hz.symm
  subst this
  exact ⟨_, someArchive_tidy, by decide, by decide⟩

/-- The user's cache after two such updates. -/
def twiceLocked : CacheDir :=
  ⟨s%"/home/me/.config/punx", [s%"main", s%"definitions-main"],
    afterUses installedDisk [lockedUpdate, lockedUpdate]⟩

/-- A source cache without any set. -/
def emptySource : CacheDir := ⟨s%"/punx/cache", [], emptyDisk⟩

theorem installed_true : TrueNames installedDisk ∧ Readable installedDisk := by
  constructor
  · intro k o h
    by_cases hk : k = s%"main"
    · subst hk
      simp [installedDisk] at h
      subst h
      rfl
    · simp [installedDisk, hk] at h
  · intro k h
    by_cases hk : k = s%"main"
    · subst hk
      exact ⟨_, rfl, by decide, by decide⟩
    · simp [installedDisk, hk] at h

/-- **C119** (violated): if an old set cannot be removed, the second update fails and leaves the new one
where it was unpacked, with a description that calls it like the old one. -/
theorem true_names_violated :
    ¬ ∀ (us : List Use) (d : Disk), (∀ u ∈ us, u.Usual) → TrueNames d → TrueNames (afterUses d us) := by
  intro h
  have := h [lockedUpdate, lockedUpdate] installedDisk
    (by intro u hu; simp only [List.mem_cons, List.not_mem_nil, or_false, or_self] at hu; subst hu;
        exact lockedUpdate_usual) installed_true.1
  obtain ⟨o, ho, hr⟩ : ∃ o, afterUses installedDisk [lockedUpdate, lockedUpdate]
      [s%"definitions-main", infoName] = some (.file (.json o)) ∧
      Dict.get? o s%"ref" = some s%"main" := ⟨_, rfl, rfl⟩
  have := this _ _ ho
  rw [hr] at this
  revert this
  decide

/-- **C119** (violated): then `punx validate FILE` asks for the old set although the set with the latest
date is another one. -/
theorem stale_set_used {t : Texts} {f : Str} (hf : IsWord t validateParser f) :
    ∃ sets s old, allFileSets emptySource twiceLocked = .ok sets ∧ Latest sets s%"definitions-main" s ∧
      Dict.get? sets s%"main" = some old ∧ Earlier old s ∧
      mainCommand t emptySource twiceLocked [s%"validate", f] = .ok (.validate ⟨f, some s%"main", allStatuses⟩) := by
  obtain ⟨old, new, hs, ho, hn⟩ : ∃ old new : FileSet, allFileSets emptySource twiceLocked =
      .ok [(s%"main", old), (s%"definitions-main", new)] ∧
      old.lastModified = some s%"2018-05-15 08:24:34" ∧
      new.ref = some s%"main" ∧ new.sha = some s%"041c2c0" ∧
      new.lastModified = some s%"2021-12-17 13:09:18" := ⟨_, _, rfl, rfl, rfl, rfl, rfl⟩
  have he : Earlier old new := by
    unfold Earlier dateText
    rw [ho, hn.2.2]
    decide
  have hl : Latest [(s%"main", old), (s%"definitions-main", new)] s%"definitions-main" new := by
    refine ⟨[(s%"main", old)], [], rfl, ?_, by simp⟩
    intro x hx
    simp only [List.mem_singleton] at hx
    subst hx
    exact he
  refine ⟨_, new, old, hs, hl, rfl, he, ?_⟩
  rw [← hn.1]
  refine plain_validate hs (Or.inr ?_) hl (Or.inr (by rw [hn.2.1]; simp)) ⟨by decide, List.prefix_refl _⟩ hf
  intro kv hkv
  simp only [List.mem_cons, List.not_mem_nil, or_false] at hkv
  rcases hkv with rfl | rfl
  · simp [ho]
  · simp [hn.2.2]

/-! ## the hypotheses can be met -/

example : TrueNames emptyDisk := by
  intro k o h
  simp [emptyDisk] at h

/-- An installation, an update that removes the old set, and a failed download. -/
example : Untroubled installedDisk
    [⟨goodNet, [], s%"today", s%"main", false⟩, ⟨goodNet, someRemoval, s%"today", s%"main", true⟩,
     ⟨fun _ => .connectionError, [], s%"today", s%"v3.3", false⟩] :=
  ⟨fun _ => by decide, fun _ => by decide +kernel, fun h => by simp at h, trivial⟩

/-- A first installation that fails for lack of content. -/
example : Untroubled emptyDisk
    [⟨fun _ => .archive ⟨[⟨s%"d/nxdl.xsd", [], ⟨2020, 1, 1, 0, 0, 0⟩⟩], []⟩, [], s%"today", s%"main", false⟩] :=
  ⟨fun _ => by decide +kernel, trivial⟩

/-- Two updates that cannot remove the old set: the first one seems to work. -/
example : ¬ Untroubled installedDisk [lockedUpdate, lockedUpdate] :=
  fun h => h.2.1 ⟨someArchive, rfl⟩ rfl

example : Untroubled installedDisk [lockedUpdate] := ⟨fun _ => by decide +kernel, trivial⟩

end Punx

import Verif.Spec.Installed
import Verif.Props.Command2
import Verif.Props.Install3
import Verif.Spec.Concurrent

/-!
# What was installed is what is used (C105)
-/

namespace Punx

open Spec

/-! ## the order of `os.listdir` does not matter -/

theorem files_ext {lx : Lxml} {get : FPath → Option FObj} {a b : SetDir} (ha : DirOf lx get a)
    (hb : DirOf lx get b) (c : Category) {fs gs : List NxdlFile} (hf : a.listing c = some fs)
    (hg : b.listing c = some gs) : fs.Perm gs := by
  have key : ∀ {a b : SetDir}, DirOf lx get a → DirOf lx get b → ∀ {fs gs : List NxdlFile},
      a.listing c = some fs → b.listing c = some gs → ∀ f ∈ fs, f ∈ gs := by
    intro a b ha hb fs gs hf hg f hm
    obtain ⟨g, hgm, hn⟩ := (hb.names c gs hg f.name).2 ((ha.names c fs hf f.name).1 ⟨f, hm, rfl⟩)
    have h1 := ha.content c fs hf f hm
    have h2 := hb.content c gs hg g hgm
    rw [hn, ← h1] at h2
    obtain ⟨n, x⟩ := f
    obtain ⟨n', x'⟩ := g
    cases hn
    cases h2
    exact hgm
  refine (List.perm_ext_iff_of_nodup (List.Nodup.of_map _ (ha.distinct c fs hf))
    (List.Nodup.of_map _ (hb.distinct c gs hg))).2 fun f => ?_
  exact ⟨key ha hb hf hg f, key hb ha hg hf f⟩

theorem nxdlFiles_perm {fs gs : List NxdlFile} (h : fs.Perm gs) (hn : (fs.map (·.name)).Nodup) :
    nxdlFiles fs = nxdlFiles gs := by
  unfold nxdlFiles
  congr 1
  have hp : (sortBy (fun a b => strLe a.name b.name) fs).Perm
      (sortBy (fun a b => strLe a.name b.name) gs) :=
    ((sortBy_perm _).trans h).trans (sortBy_perm _).symm
  have hs : ∀ l : List NxdlFile, (sortBy (fun a b => strLe a.name b.name) l).Pairwise
      (fun a b => strLe a.name b.name = true) := fun l =>
    sortBy_sorted (le := fun a b : NxdlFile => strLe a.name b.name)
      (fun a b => strLe_total a.name b.name) (fun _ _ _ h1 h2 => strLe_trans h1 h2) l
  refine hp.eq_of_pairwise (le := fun a b => strLe a.name b.name = true) ?_ (hs fs) (hs gs)
  intro a b ha hb h1 h2
  have hab : a.name = b.name := strLe_antisymm h1 h2
  exact List.inj_on_of_nodup_map hn ((mem_sortBy).1 ha) (h.mem_iff.2 ((mem_sortBy).1 hb)) hab

theorem fileListFrom_ext {lx : Lxml} {get : FPath → Option FObj} {a b : SetDir} (ha : DirOf lx get a)
    (hb : DirOf lx get b) (s : Option Defaults) (cs : List Category) :
    fileListFrom ⟨true, s, a.listing⟩ cs = fileListFrom ⟨true, s, b.listing⟩ cs := by
  induction cs with
  | nil => rfl
  | cons c cs ih =>
    rw [fileListFrom, fileListFrom, ih]
    cases hf : a.listing c with
    | none =>
      have hg : b.listing c = none := (hb.missing c).2 ((ha.missing c).1 hf)
      simp only [hf, hg]
    | some fs =>
      cases hg : b.listing c with
      | none =>
        have := (ha.missing c).2 ((hb.missing c).1 hg)
        rw [hf] at this
        cases this
      | some gs =>
        simp only [hf, hg]
        rw [nxdlFiles_perm (files_ext ha hb c hf hg) (ha.distinct c fs hf)]

theorem hasDefinitions_ext {lx : Lxml} {get : FPath → Option FObj} {a b : SetDir} (ha : DirOf lx get a)
    (hb : DirOf lx get b) (h : HasDefinitions a) : HasDefinitions b := by
  obtain ⟨c, fs, f, hf, hm, hi⟩ := h
  cases hg : b.listing c with
  | none =>
    have := (ha.missing c).2 ((hb.missing c).1 hg)
    rw [hf] at this
    cases this
  | some gs => exact ⟨c, gs, f, hg, (files_ext ha hb c hf hg).mem_iff.1 hm, hi⟩

theorem lawfulDocs_ext {lx : Lxml} {get : FPath → Option FObj} {a b : SetDir} (ha : DirOf lx get a)
    (hb : DirOf lx get b) (h : LawfulDocs a) : LawfulDocs b := by
  intro c gs f x hg hm hx
  cases hf : a.listing c with
  | none =>
    have := (hb.missing c).2 ((ha.missing c).1 hf)
    rw [hg] at this
    cases this
  | some fs => exact h c fs f x hf ((files_ext ha hb c hf hg).mem_iff.2 hm) hx

/-- Two descriptions of one directory, which may differ in the order of the files, give the same
definitions. -/
theorem ownDefinitions_ext {lib : Lib} {pattern : Str → Pat} {lx : Lxml} {get : FPath → Option FObj}
    {a b : SetDir} (ha : DirOf lx get a) (hb : DirOf lx get b) {mgr : Manager}
    (h : OwnDefinitions lib pattern a mgr) : OwnDefinitions lib pattern b mgr := by
  have hx : b.xsd = a.xsd := hb.xsd.trans ha.xsd.symm
  have ht : b.types = a.types := hb.types.trans ha.types.symm
  have hown : ∀ own, OwnManager lib a own → OwnManager lib b own := by
    intro own h
    unfold OwnManager at h ⊢
    rw [hx, ht]
    exact h
  have hacc : acceptedBy lib b = acceptedBy lib a := by
    funext x
    unfold acceptedBy
    rw [hx, ht]
  obtain ⟨⟨ds, ⟨h1, h2, s, h3, h4⟩, h5⟩, own, h6, h7⟩ := h
  refine ⟨⟨ds, ⟨?_, ?_, s, ?_, ?_⟩, h5⟩, own, hown own h6, h7⟩
  · exact hb.here.2 (ha.here.1 h1)
  · intro hd
    obtain ⟨own, ho⟩ := h2 (hasDefinitions_ext hb ha hd)
    exact ⟨own, hown own ho⟩
  · unfold readDefaults at h3 ⊢
    rw [hx]; exact h3
  · unfold loadClasses nxdlFileList at h4 ⊢
    simp only [if_true] at h4 ⊢
    rw [hacc, ← fileListFrom_ext ha hb]
    exact h4

/-! ## an installed set is that of the archive -/

/-- After an installation that reports success everything that the archive has is in the directory of
the set, and nothing else except for the info file. -/
theorem installed_content {u : Use} {z : Archive} {top : Str} {d s : Disk}
    (hz : u.net 0 = .archive z) (ho : OneDirectory z top) (hne : top ≠ u.name)
    (hrm : RemovesAll u.rm d u.name) (hrep : u.update = true ∨ d [u.name] = none)
    (htop : Gone d top) (hres : (u.alone d).res = .ok ()) (hs : s = applyAll d (u.alone d).ops)
    {q : FPath} (hq : q ≠ [infoName]) {o : Option FObj} (h : ArchiveHas z top q o) :
    s (u.name :: q) = o := by
  obtain ⟨h1, _, _, h4⟩ := install_success_partial hz ho hne hrm hrep hres hs
  rcases h with ⟨m, hm, rfl⟩ | ⟨hn, ⟨ha, rfl⟩ | ⟨ha, rfl⟩⟩
  · exact h1.2.1 q m hm
  · exact (h4 q hn hq).1 ha
  · rw [(h4 q hn hq).2 ha]
    exact htop q

theorem dirOf_congr {lx : Lxml} {get get' : FPath → Option FObj} {sd : SetDir}
    (h : ∀ q, q ≠ [infoName] → get q = get' q) (hd : DirOf lx get sd) : DirOf lx get' sd := by
  have hc : ∀ c, categoryDir c ≠ infoName := by intro c; cases c <;> decide
  have e0 : get' [] = get [] := (h [] (by simp)).symm
  have e1 : ∀ n, n ≠ infoName → get' [n] = get [n] := fun n hn => (h [n] (by simpa using hn)).symm
  have e2 : ∀ c n, get' [c, n] = get [c, n] := fun c n => (h [c, n] (by simp)).symm
  refine ⟨?_, ?_, ?_, ?_, hd.distinct, ?_, ?_⟩
  · rw [e0]; exact hd.here
  · unfold textAt; rw [e1 _ (by decide)]; exact hd.xsd
  · unfold textAt; rw [e1 _ (by decide)]; exact hd.types
  · intro c; rw [e1 _ (hc c)]; exact hd.missing c
  · intro c fs hf n; rw [e2]; exact hd.names c fs hf n
  · intro c fs hf f hm; unfold textAt; rw [e2]; exact hd.content c fs hf f hm

/-- **C105**: after an installation that reports success, the definitions that are read from the
directory of the set are those of the archive: the directory may be described by `sd` or by the
archive itself. -/
theorem installed_definitions {lib : Lib} {pattern : Str → Pat} {lx : Lxml} {u : Use} {z : Archive}
    {top : Str} {d s : Disk} (hz : u.net 0 = .archive z) (ho : OneDirectory z top)
    (hne : top ≠ u.name) (hrm : RemovesAll u.rm d u.name)
    (hrep : u.update = true ∨ d [u.name] = none) (htop : Gone d top)
    (hres : (u.alone d).res = .ok ()) (hs : s = applyAll d (u.alone d).ops) {sd sa : SetDir}
    (hd : DirOf lx (fun q => s (u.name :: q)) sd) (ha : ArchiveDir lx z top sa) {mgr : Manager} :
    OwnDefinitions lib pattern sd mgr ↔ OwnDefinitions lib pattern sa mgr := by
  obtain ⟨get, hg, hsa⟩ := ha
  have hsa' : DirOf lx (fun q => s (u.name :: q)) sa := dirOf_congr (fun q hq =>
    (installed_content hz ho hne hrm hrep htop hres hs hq (hg q)).symm) hsa
  exact ⟨ownDefinitions_ext hd hsa', ownDefinitions_ext hsa' hd⟩

/-- `punx validate` with a set in the user's cache whose directory has the content of an archive. -/
theorem validate_with_archive {lib : Lib} {pattern : Str → Pat} {lx : Lxml} {z : Archive}
    {top name : Str} {w : Disks}
    (hcont : ∀ q, q ≠ [infoName] → ∀ o, ArchiveHas z top q o → w.user.disk (name :: q) = o)
    (hdir' : w.user.disk [name] = some .dir) (hinfo : ∃ o, Described w.user.disk name o)
    (hlist : name ∈ w.user.listing) {sets : Dict Str FileSet}
    (hs : allFileSets w.source w.user = .ok sets) (hwell : ∀ kv ∈ sets, WellDescribed kv.2)
    (hdir : DirOf lx (fun q => w.user.disk (name :: q)) (w.dir (w.user.path ++ '/' :: name)))
    {sa : SetDir} (ha : ArchiveDir lx z top sa) (hdef : HasDefinitions sa) (hlaw : LawfulDocs sa)
    {env : Env} {files : Str → FileState} {upper : Char → Str} {abspath : Str → Str}
    {a : ValidateArgs} (har : a.fileSet = some name) (hasc : PlainAscii a.report)
    (hdig : env.isdigit s%"1" = true)
    (hn : ∀ file, files a.infile = .hdf5 file → WellNamedFile file) (fname : Str) (l : Line) :
    (∃ rows sm sc, Act.report fname rows sm sc ∈
        (funcValidate (commandWorld lib pattern w env files upper abspath) a).log ∧
        l ∈ rows.map lineOf) ↔
      fname = a.infile ∧ AllKnown a.report ∧ ¬ s%".nxdl.xml" <:+ a.infile ∧ Asked a.report l.2.2 ∧
      ∃ mgr file, OwnDefinitions lib pattern sa mgr ∧ files a.infile = .hdf5 file ∧
        Validatable env mgr file ∧ Expected env mgr [] file (contents env file) l := by
  obtain ⟨get, hg, hsa⟩ := ha
  have hsa' : DirOf lx (fun q => w.user.disk (name :: q)) sa := dirOf_congr (fun q hq =>
    (hcont q hq _ (hg q)).symm) hsa
  have hown : ∀ mgr, OwnDefinitions lib pattern (w.dir (w.user.path ++ '/' :: name)) mgr ↔
      OwnDefinitions lib pattern sa mgr := fun mgr =>
    ⟨ownDefinitions_ext hdir hsa', ownDefinitions_ext hsa' hdir⟩
  have hget : ∃ f, Dict.get? sets name = some f ∧ f.path = w.user.path ++ '/' :: name := by
    obtain ⟨_, us, _, hus, _, hu, _⟩ := user_precedence hs
    obtain ⟨o, hinfo⟩ := hinfo
    obtain ⟨f, hf⟩ : ∃ f, readInfoFile w.user.path w.user.disk name = .ok f := by
      unfold readInfoFile
      rw [show w.user.disk [name, infoName] = some (.file (.json o)) from hinfo]
      exact ⟨_, rfl⟩
    obtain ⟨_, _, hfrom, _⟩ := readInfoFile_ok.1 hf
    refine ⟨f, hu _ _ ((allFileSets_get hus _ _).2 ⟨hlist, ⟨hdir', by
      rw [show w.user.disk [name, infoName] = some (.file (.json o)) from hinfo]; simp⟩, hf⟩), ?_⟩
    rw [hfrom.1]
    simp
  obtain ⟨f, hf, hp⟩ := hget
  have hd : ∀ ref f', a.fileSet = some ref → Dict.get? sets ref = some f' →
      HasDefinitions (w.dir f'.path) ∧ LawfulDocs (w.dir f'.path) := by
    intro ref f' h1 h2
    rw [har] at h1
    cases h1
    rw [hf] at h2
    cases h2
    rw [hp]
    exact ⟨hasDefinitions_ext hsa' hdir hdef, lawfulDocs_ext hsa' hdir hlaw⟩
  rw [command_prints_iff hs hwell hd hasc hdig hn]
  constructor
  · rintro ⟨h1, mgr, file, ⟨h2, h3, ⟨ref, f', h4, h5, h6⟩, h7⟩, h8, h9, h10⟩
    rw [har] at h4
    cases h4
    rw [hf] at h5
    cases h5
    rw [hp] at h6
    exact ⟨h1, h2, h3, h9, mgr, file, (hown mgr).1 h6, h7, h8, h10⟩
  · rintro ⟨h1, h2, h3, h9, mgr, file, h6, h7, h8, h10⟩
    exact ⟨h1, mgr, file, ⟨h2, h3, ⟨name, f, har, hf, hp ▸ (hown mgr).2 h6⟩, h7⟩, h8, h9, h10⟩

/-- **C105**: `punx install` reports success, then `punx validate` is run with this set.  The lines
that are printed are those that are expected with the definitions of the archive. -/
theorem validate_after_install {lib : Lib} {pattern : Str → Pat} {lx : Lxml} {u : Use} {z : Archive}
    {top : Str} {d : Disk} (hz : u.net 0 = .archive z) (ho : OneDirectory z top)
    (hne : top ≠ u.name) (hrm : RemovesAll u.rm d u.name)
    (hrep : u.update = true ∨ d [u.name] = none) (htop : Gone d top)
    (hres : (u.alone d).res = .ok ()) {w : Disks} (hw : w.user.disk = applyAll d (u.alone d).ops)
    (hlist : u.name ∈ w.user.listing) {sets : Dict Str FileSet}
    (hs : allFileSets w.source w.user = .ok sets) (hwell : ∀ kv ∈ sets, WellDescribed kv.2)
    (hdir : DirOf lx (fun q => w.user.disk (u.name :: q)) (w.dir (w.user.path ++ '/' :: u.name)))
    {sa : SetDir} (ha : ArchiveDir lx z top sa) (hdef : HasDefinitions sa) (hlaw : LawfulDocs sa)
    {env : Env} {files : Str → FileState} {upper : Char → Str} {abspath : Str → Str}
    {a : ValidateArgs} (har : a.fileSet = some u.name) (hasc : PlainAscii a.report)
    (hdig : env.isdigit s%"1" = true)
    (hn : ∀ file, files a.infile = .hdf5 file → WellNamedFile file) (fname : Str) (l : Line) :
    (∃ rows sm sc, Act.report fname rows sm sc ∈
        (funcValidate (commandWorld lib pattern w env files upper abspath) a).log ∧
        l ∈ rows.map lineOf) ↔
      fname = a.infile ∧ AllKnown a.report ∧ ¬ s%".nxdl.xml" <:+ a.infile ∧ Asked a.report l.2.2 ∧
      ∃ mgr file, OwnDefinitions lib pattern sa mgr ∧ files a.infile = .hdf5 file ∧
        Validatable env mgr file ∧ Expected env mgr [] file (contents env file) l := by
  have hcomp : Complete z top u.name w.user.disk [u.name] :=
    (install_success_partial hz ho hne hrm hrep hres hw).1
  obtain ⟨hdir', _, o, _, hinfo, _⟩ := hcomp
  exact validate_with_archive (fun q hq o h => installed_content hz ho hne hrm hrep htop hres hw hq h)
    hdir' ⟨o, hinfo⟩ hlist hs hwell hdir ha hdef hlaw har hasc hdig hn fname l

end Punx

import Verif.Props.Reading
import Verif.Cases.Installed
import Verif.Cases.Listing
import Mathlib.Data.List.Infix

/-!
# Reading definitions while sets are installed: what can go wrong (C114)
-/

namespace Punx

open Spec

/-! ## `os.listdir` for the examples -/

/-- `os.listdir`, if all names in the directories are among `cand`. -/
def listAmong (cand : List Str) (d : Disk) (p : FPath) : List Str :=
  cand.filter fun n => d.has (p ++ [n])

/-- The names of files in the directories of categories are among `cand`. -/
def NamesAmong (cand : List Str) (d : Disk) : Prop := ∀ k c n, d [k, c, n] ≠ none → n ∈ cand

/-- Operations that keep this. -/
def Op.names (cand : List Str) : Op → Bool
  | .mkdir [_, _, n] | .create [_, _, n] | .write [_, _, n] _ => cand.contains n
  | .rename p q => p.length == 1 && q.length == 1
  | _ => true

theorem namesAmong_put {cand : List Str} {d : Disk} (h : NamesAmong cand d) {p : FPath}
    {o : Option FObj} (hp : ∀ k c n, p = [k, c, n] → n ∈ cand) : NamesAmong cand (d.put p o) := by
  intro k c n hn
  by_cases he : [k, c, n] = p
  · exact hp k c n he.symm
  · rw [Disk.put, if_neg he] at hn
    exact h k c n hn

theorem namesAmong_apply {cand : List Str} {d : Disk} (h : NamesAmong cand d) {o : Op}
    (ho : o.names cand = true) : NamesAmong cand (o.apply d) := by
  cases o with
  | mkdir p => exact namesAmong_put h (by rintro k c n rfl; simpa [Op.names] using ho)
  | create p => exact namesAmong_put h (by rintro k c n rfl; simpa [Op.names] using ho)
  | write p x => exact namesAmong_put h (by rintro k c n rfl; simpa [Op.names] using ho)
  | remove p =>
    intro k c n hn
    by_cases he : [k, c, n] = p
    · exact absurd (if_pos he) hn
    · exact h k c n (by rwa [Op.apply, Disk.put, if_neg he] at hn)
  | rename p q =>
    simp only [Op.names, Bool.and_eq_true, beq_iff_eq] at ho
    obtain ⟨a, rfl⟩ := List.length_eq_one_iff.1 ho.1
    obtain ⟨b, rfl⟩ := List.length_eq_one_iff.1 ho.2
    intro k c n hn
    simp only [Op.apply] at hn
    split at hn
    · exact h _ c n hn
    · split at hn
      · exact absurd rfl hn
      · exact h k c n hn

theorem namesAmong_stops {cand : List Str} {d s : Disk} {ops : List Op} (hs : Stops d ops s)
    (h : NamesAmong cand d) (ho : ops.all (Op.names cand) = true) : NamesAmong cand s := by
  induction hs with
  | here => exact h
  | later _ ih =>
    rw [List.all_cons, Bool.and_eq_true] at ho
    exact ih (namesAmong_apply h ho.1) ho.2
  | torn d p c junk ops =>
    rw [List.all_cons, Bool.and_eq_true] at ho
    exact namesAmong_put h (by rintro k c n rfl; simpa [Op.names] using ho.1)

theorem listAmong_set {cand : List Str} (hc : cand.Nodup) {d : Disk} {name : Str}
    (h : ∀ c n, d [name, c, n] ≠ none → n ∈ cand) : ListsSet (listAmong cand) d name := by
  intro c
  refine ⟨hc.filter _, fun n => ?_⟩
  rw [listAmong, List.mem_filter, Disk.has, Option.isSome_iff_ne_none]
  exact ⟨fun h => h.2, fun hn => ⟨h _ n hn, hn⟩⟩

/-! ## an update while the definitions are read -/

/-- A later archive: the definitions of `NXdata` and `NXroot` are others. -/
def laterArchive : Archive :=
  { members :=
      [⟨s%"definitions-main/", [], ⟨2022, 3, 1, 8, 0, 0⟩⟩,
       ⟨s%"definitions-main/applications/NXapp.nxdl.xml", s%"x", ⟨2021, 12, 17, 13, 9, 18⟩⟩,
       ⟨s%"definitions-main/base_classes/NXdata.nxdl.xml", s%"data", ⟨2022, 3, 1, 8, 0, 0⟩⟩,
       ⟨s%"definitions-main/base_classes/NXentry.nxdl.xml", s%"data", ⟨2021, 12, 17, 13, 9, 18⟩⟩,
       ⟨s%"definitions-main/base_classes/NXroot.nxdl.xml", s%"x", ⟨2022, 3, 1, 8, 0, 0⟩⟩,
       ⟨s%"definitions-main/contributed_definitions/NXcon.nxdl.xml", s%"x", ⟨2021, 12, 17, 13, 9, 18⟩⟩,
       ⟨s%"definitions-main/nxdl.xsd", s%"schema", ⟨2020, 1, 1, 0, 0, 0⟩⟩,
       ⟨s%"definitions-main/nxdlTypes.xsd", s%"types", ⟨2020, 1, 1, 0, 0, 0⟩⟩]
    comment := s%"77aa012" }

theorem laterArchive_tidy : OneDirectory laterArchive s%"definitions-main" := by
  refine ⟨by simp [laterArchive], by decide, by decide, ?_⟩
  intro m hm
  simp only [laterArchive, List.mem_cons, List.not_mem_nil, or_false] at hm
  rcases hm with rfl | rfl | rfl | rfl | rfl | rfl | rfl | rfl <;> exact ⟨_, rfl⟩

/-- What is removed. -/
def defsRemoval : Removal :=
  [[s%"applications", s%"NXapp.nxdl.xml"], [s%"applications"],
   [s%"base_classes", s%"NXdata.nxdl.xml"], [s%"base_classes", s%"NXentry.nxdl.xml"],
   [s%"base_classes", s%"NXroot.nxdl.xml"], [s%"base_classes"],
   [s%"contributed_definitions", s%"NXcon.nxdl.xml"], [s%"contributed_definitions"],
   [s%"nxdl.xsd"], [s%"nxdlTypes.xsd"], [infoName], []]

theorem archiveAt_inits {z : Archive} {top : Str} {q : FPath} (h : archiveAt z top q ≠ none) :
    ∃ m ∈ z.members, isExtractable m.name endings (categories ++ [top]) = true ∧
      (top :: q) <+: extractPath m.name := by
  unfold archiveAt at h
  split at h
  · rename_i m hm
    have h1 := List.mem_of_find?_eq_some hm
    have h2 := List.find?_some hm
    simp only [Bool.and_eq_true, decide_eq_true_eq] at h2
    exact ⟨m, List.mem_reverse.1 h1, h2.1, h2.2 ▸ List.prefix_refl _⟩
  · split at h
    · rename_i ha
      obtain ⟨m, hm, hp⟩ := List.any_eq_true.1 ha
      simp only [Bool.and_eq_true, decide_eq_true_eq, List.isPrefixOf_iff_prefix] at hp
      exact ⟨m, hm, hp.1, hp.2.1⟩
    · exact absurd rfl h

theorem defsRemoval_all : RemovesAll defsRemoval defsSets.user.disk s%"main" := by
  intro q hq
  by_cases hi : q = [infoName]
  · subst hi; decide
  · rw [defs_content hi] at hq
    obtain ⟨m, hm, h1, h2⟩ := archiveAt_inits hq
    have key : ∀ m ∈ defsArchive.members,
        isExtractable m.name endings (categories ++ [s%"definitions-main"]) = true →
        ∀ p ∈ (extractPath m.name).inits, p ≠ [] → p.tail ∈ defsRemoval := by
      decide +kernel
    exact key m hm h1 _ ((List.mem_inits _ _).2 h2) (by simp)

/-- `punx install --update main` -/
def laterUse : Use :=
  { net := fun _ => .archive laterArchive, rm := defsRemoval, written := s%"today", name := s%"main",
    update := true }

def defsNames : List Str :=
  [s%"NXroot.nxdl.xml", s%"NXapp.nxdl.xml", s%"NXcon.nxdl.xml", s%"NXdata.nxdl.xml",
   s%"NXentry.nxdl.xml"]

theorem defs_names : NamesAmong defsNames defsSets.user.disk := by
  have h : (defsUse.alone emptyDisk).ops.all (Op.names defsNames) = true := by decide +kernel
  refine namesAmong_stops (stops_end _ _) (d := emptyDisk) ?_ h
  intro k c n hn
  exact absurd emptyDisk_below hn

theorem later_names {e : Disk} {qs : Unit → Prog}
    (h : Arrives defsSets.user.disk (fun _ : Unit => laterUse.proc) e qs) :
    ListsSet (listAmong defsNames) e s%"main" := by
  refine listAmong_set (by decide) fun c n hn => ?_
  obtain ⟨s, hs, hag⟩ := (installs_meanwhile (us := fun _ : Unit => laterUse) (by
    intro _ z hz; cases hz; exact ⟨_, laterArchive_tidy⟩) (fun _ _ _ _ _ => rfl) h).1 ()
  rw [hag [s%"main", c, n] ⟨s%"main", [c, n], rfl, Or.inl rfl⟩] at hn
  exact namesAmong_stops hs defs_names (by decide +kernel) _ _ _ hn

/-- The program that reads the set. -/
def someReading : Look SetDir := readSetDir (listAmong defsNames) defsLxml.xsd defsLxml.xml s%"main"

/-- The definition of `NXdata` has been read, then the set is updated, then the others are read. -/
def mixedTurns : List Bool := List.replicate 10 true ++ List.replicate 63 false ++ List.replicate 4 true

def mixed : Disk × Prog × Look SetDir :=
  inTurn defsSets.user.disk laterUse.proc someReading mixedTurns

/-- What is read then. -/
def mixedDir : SetDir :=
  ⟨true, some cmdXsd, some nxTypesXsd, fun
    | .baseClasses => some
      [⟨s%"NXdata.nxdl.xml", defsLxml.xml s%"x"⟩, ⟨s%"NXentry.nxdl.xml", defsLxml.xml s%"data"⟩,
       ⟨s%"NXroot.nxdl.xml", defsLxml.xml s%"x"⟩]
    | .applications => some [⟨s%"NXapp.nxdl.xml", defsLxml.xml s%"x"⟩]
    | .contributed => some [⟨s%"NXcon.nxdl.xml", defsLxml.xml s%"x"⟩]⟩

theorem mixed_result : mixed.2.2 = .done (.ok mixedDir) ∧ mixed.2.1.isOk = true := by
  refine ⟨?_, by decide +kernel⟩
  rfl

/-- The definitions in a directory that is read as the set `main`. -/
theorem own_of {sd : SetDir} (hd : HasDefinitions sd)
    (h : (commandLoad easyLib { defsSets with dir := fun _ => sd } s%"main" {}).1.toBool = true) :
    ∃ mgr, OwnDefinitions easyLib cmdPattern sd mgr := by
  obtain ⟨sets, f, h1, h2, h3⟩ : ∃ sets f, allFileSets defsSets.source defsSets.user = .ok sets ∧
      (∀ kv ∈ sets, WellDescribed kv.2) ∧ Dict.get? sets s%"main" = some f := by
    have h : (allFileSets defsSets.source defsSets.user).toOption.any (fun sets => sets.all
        (fun kv => kv.2.lastModified.isSome && kv.2.sha.isSome) &&
        (Dict.get? sets s%"main").isSome) = true := by decide +kernel
    cases e : allFileSets defsSets.source defsSets.user with
    | error e' => rw [e] at h; cases h
    | ok sets =>
      rw [e] at h
      obtain ⟨h4, h5⟩ := (Bool.and_eq_true _ _).mp h
      obtain ⟨f, hf⟩ := Option.isSome_iff_exists.1 h5
      refine ⟨sets, f, rfl, fun kv hkv => ?_, hf⟩
      have := List.all_eq_true.1 h4 kv hkv
      simp only [Bool.and_eq_true, Option.isSome_iff_ne_none] at this
      exact this
  obtain ⟨m, p, h5⟩ := pairOf h
  have := (command_manager (lib := easyLib) (pattern := cmdPattern)
    (w := { defsSets with dir := fun _ => sd }) (mgr := m.view _ p) h1 h2 h3 hd).1 (by rw [h5])
  exact ⟨_, this⟩

/-- **C114** (violated): a set is updated without any problem while its definitions are read.  They
are read and used without complaint, but they are neither those of the set before nor those of the
set after the update. -/
theorem reading_mixed :
    ∃ (u : Use) (z : Archive) (top : Str) (d e : Disk) (q : Prog) (ls : Disk → FPath → List Str)
      (lx : Lxml) (sd : SetDir),
      u.net 0 = .archive z ∧ OneDirectory z top ∧ top ≠ u.name ∧ RemovesAll u.rm d u.name ∧
      (∀ e qs, Arrives d (fun _ : Unit => u.proc) e qs → ListsSet ls e u.name) ∧
      Watches d (fun _ : Unit => u.proc) (readSetDir ls lx.xsd lx.xml u.name) e (fun _ => q)
        (.done (.ok sd)) ∧
      q = .done (.ok ()) ∧ Complete z top u.name e [u.name] ∧
      ¬ DirOf lx (inSet d u.name) sd ∧ ¬ DirOf lx (inSet e u.name) sd ∧
      ∃ lib pattern mgr, OwnDefinitions lib pattern sd mgr := by
  have hw := inTurn_watches mixedTurns (Watches.start (d := defsSets.user.disk)
    (ps := fun _ : Unit => laterUse.proc) (r := someReading))
  have hq : mixed.2.1 = .done (.ok ()) := isOk_iff mixed_result.2
  have hc : Complete laterArchive s%"definitions-main" s%"main" mixed.1 [s%"main"] :=
    installs_complete (us := fun _ : Unit => laterUse) (i := ())
      (by intro _ z hz; cases hz; exact ⟨_, laterArchive_tidy⟩) (fun _ _ _ _ _ => rfl)
      (watches_arrives hw) hq rfl laterArchive_tidy (by decide) defsRemoval_all (Or.inl rfl)
  rw [show (inTurn defsSets.user.disk laterUse.proc someReading mixedTurns).2.2 = _ from
    mixed_result.1] at hw
  have hdata : textAt (inSet mixed.1 s%"main") [s%"base_classes", s%"NXdata.nxdl.xml"] =
      some s%"data" := by decide +kernel
  have hroot : textAt (inSet defsSets.user.disk s%"main") [s%"base_classes", s%"NXroot.nxdl.xml"] =
      some s%"entry" := by decide +kernel
  refine ⟨laterUse, laterArchive, s%"definitions-main", defsSets.user.disk, mixed.1, mixed.2.1,
    listAmong defsNames, defsLxml, mixedDir, rfl, laterArchive_tidy, by decide, defsRemoval_all,
    fun _ _ h => later_names h, hw, hq, hc, fun h => ?_, fun h => ?_, easyLib, cmdPattern, ?_⟩
  · have := h.content .baseClasses _ rfl ⟨s%"NXroot.nxdl.xml", defsLxml.xml s%"x"⟩ (by simp)
    rw [show textAt (inSet defsSets.user.disk laterUse.name) [categoryDir .baseClasses, _] = _ from
      hroot] at this
    cases this
  · have := h.content .baseClasses _ rfl ⟨s%"NXdata.nxdl.xml", defsLxml.xml s%"x"⟩ (by simp)
    rw [show textAt (inSet mixed.1 laterUse.name) [categoryDir .baseClasses, _] = _ from
      hdata] at this
    cases this
  · exact own_of ⟨.baseClasses, _, ⟨s%"NXroot.nxdl.xml", defsLxml.xml s%"x"⟩, rfl, by simp, ⟨s%"NXroot", rfl⟩⟩
      (by decide +kernel)

/-! ## a set that is not found for a moment -/

/-- The set `main` is asked for while it is updated. -/
def otherUse : Look (Str × SetDir) :=
  useSet (listAmong []) defsLxml.xsd defsLxml.xml s%"/home/me/.config/punx"
    [s%"main", s%"v2018.5"] (some s%"main")

def otherTurns : List Bool :=
  List.replicate 24 false ++ List.replicate 12 true ++ List.replicate 10 false

/-- The name of the set that was used. -/
def Look.used : Look (Str × SetDir) → Option Str
  | .done (.ok (k, _)) => some k
  | _ => none

theorem used_iff {r : Look (Str × SetDir)} {k : Str} (h : r.used = some k) :
    ∃ sd, r = .done (.ok (k, sd)) := by
  cases r with
  | done x => cases x with
    | ok a => cases h; exact ⟨_, rfl⟩
    | error e => cases h
  | look k => cases h

def otherEnd : Disk × Prog × Look (Str × SetDir) :=
  inTurn cacheOfTwo updateUse.proc otherUse otherTurns

theorem otherEnd_used : otherEnd.2.2.used = some s%"v2018.5" ∧ otherEnd.2.1.isOk = true ∧
    IsListed cacheOfTwo s%"main" := by
  decide +kernel

theorem cacheOfTwo_main (q : FPath) : cacheOfTwo (s%"main" :: q) = installedDisk (s%"main" :: q) := by
  unfold cacheOfTwo
  rw [if_neg (by simp), if_neg (by simp)]

theorem updateUse_tidy (_ : Unit) : updateUse.Tidy := by
  intro z hz
  cases hz
  exact ⟨_, someArchive_tidy⟩

/-- **C114** (violated): a set is installed before and after its update, and the update succeeds.  If
it is asked for meanwhile, another set is read instead, without complaint. -/
theorem use_another :
    ∃ (u : Use) (z : Archive) (top : Str) (d e : Disk) (q : Prog) (ls : Disk → FPath → List Str)
      (lx : Lxml) (path : Str) (names : List Str) (k : Str) (sd : SetDir),
      u.net 0 = .archive z ∧ OneDirectory z top ∧ top ≠ u.name ∧ RemovesAll u.rm d u.name ∧
      IsListed d u.name ∧ u.name ∈ names ∧
      (∀ e qs, Arrives d (fun _ : Unit => u.proc) e qs → ListsSet ls e k) ∧
      Watches d (fun _ : Unit => u.proc) (useSet ls lx.xsd lx.xml path names (some u.name)) e
        (fun _ => q) (.done (.ok (k, sd))) ∧
      q = .done (.ok ()) ∧ Complete z top u.name e [u.name] ∧ k ≠ u.name := by
  have hw := inTurn_watches otherTurns (Watches.start (d := cacheOfTwo)
    (ps := fun _ : Unit => updateUse.proc) (r := otherUse))
  have hq : otherEnd.2.1 = .done (.ok ()) := isOk_iff otherEnd_used.2.1
  have hrm : RemovesAll someRemoval cacheOfTwo s%"main" := by
    intro q hq
    rw [cacheOfTwo_main] at hq
    exact someRemoval_all q hq
  have hc : Complete someArchive s%"definitions-main" s%"main" otherEnd.1 [s%"main"] :=
    installs_complete (us := fun _ : Unit => updateUse) (i := ()) updateUse_tidy
      (fun _ _ _ _ _ => rfl) (watches_arrives hw) hq rfl someArchive_tidy (by decide) hrm (Or.inl rfl)
  obtain ⟨sd, hsd⟩ := used_iff otherEnd_used.1
  rw [show (inTurn cacheOfTwo updateUse.proc otherUse otherTurns).2.2 = _ from hsd] at hw
  refine ⟨updateUse, someArchive, s%"definitions-main", cacheOfTwo, otherEnd.1, otherEnd.2.1,
    listAmong [], defsLxml, _, _, s%"v2018.5", sd, rfl, someArchive_tidy, by decide, hrm,
    otherEnd_used.2.2, List.mem_cons_self, fun e qs h => ?_, hw, hq, hc, by decide⟩
  refine listAmong_set (by decide) fun c n hn => ?_
  rw [installs_elsewhere_partial (us := fun _ : Unit => updateUse) updateUse_tidy h] at hn
  · exact absurd (by unfold cacheOfTwo installedDisk; simp) hn
  · rintro _ ⟨k, r, hk, h | ⟨z, m, ms, hz, hm, h⟩⟩
    · cases hk
      exact absurd h (by decide)
    · cases hk
      cases hz
      cases hm
      exact absurd h (by decide)

end Punx

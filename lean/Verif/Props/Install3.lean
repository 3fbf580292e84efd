import Verif.Props.Install2

/-!
# Interrupted installations: what goes wrong (C45–C47, C66–C68)

Concrete runs, which also show that the hypotheses of the theorems can be met.
-/

namespace Punx

open Spec

/-- A small archive like those of GitHub. -/
def someArchive : Archive :=
  { members :=
      [⟨s%"definitions-main/", [], ⟨2021, 12, 17, 13, 9, 18⟩⟩,
       ⟨s%"definitions-main/README.md", s%"read", ⟨2021, 12, 17, 13, 9, 18⟩⟩,
       ⟨s%"definitions-main/nxdl.xsd", s%"schema", ⟨2020, 1, 1, 0, 0, 0⟩⟩,
       ⟨s%"definitions-main/base_classes/NXdata.nxdl.xml", s%"new data",
         ⟨2021, 12, 17, 13, 9, 18⟩⟩]
    comment := s%"041c2c0" }

theorem someArchive_tidy : OneDirectory someArchive s%"definitions-main" := by
  refine ⟨by simp [someArchive], by decide, by decide, ?_⟩
  intro m hm
  simp only [someArchive, List.mem_cons, List.not_mem_nil, or_false] at hm
  rcases hm with rfl | rfl | rfl | rfl <;> exact ⟨_, rfl⟩

/-- The network gives the archive. -/
def goodNet : Nat → Answer := fun _ => .archive someArchive

/-- An empty cache directory. -/
def emptyDisk : Disk := fun p => if p = [] then some .dir else none

/-- A cache directory with an installed set `main`. -/
def installedDisk : Disk := fun p =>
  if p = [] then some .dir
  else if p = [s%"main"] then some .dir
  else if p = [s%"main", infoName] then
    some (.file (.json [(s%"ref", s%"main"), (s%"sha", s%"aa1ccd1"),
      (s%"last_modified", s%"2018-05-15 08:24:34")]))
  else if p = [s%"main", s%"base_classes"] then some .dir
  else if p = [s%"main", s%"base_classes", s%"NXdata.nxdl.xml"] then some (.file (.raw s%"old data"))
  else if p = [s%"main", s%"base_classes", s%"NXold.nxdl.xml"] then some (.file (.raw s%"old"))
  else none

/-- The order in which the files of the installed set may be removed. -/
def someRemoval : Removal :=
  [[s%"base_classes", s%"NXdata.nxdl.xml"], [s%"base_classes", s%"NXold.nxdl.xml"],
   [s%"base_classes"], [infoName], []]

theorem someRemoval_all : RemovesAll someRemoval installedDisk s%"main" := by
  intro q hq
  unfold installedDisk at hq
  simp only [List.cons.injEq, true_and, reduceCtorEq, if_false] at hq
  unfold someRemoval
  repeat' split at hq
  all_goals (subst_vars; simp_all)

/-- The operations of an update. -/
def someInfo : Content :=
  .json (infoFields s%"main" s%"041c2c0" s%"2021-12-17 13:09:18" s%"today")

theorem update_ops :
    (downloadFileSet goodNet someRemoval s%"today" installedDisk s%"main" true).ops =
      [.mkdir [s%"definitions-main"],
       .create [s%"definitions-main", s%"nxdl.xsd"],
       .write [s%"definitions-main", s%"nxdl.xsd"] (.raw s%"schema"),
       .mkdir [s%"definitions-main", s%"base_classes"],
       .create [s%"definitions-main", s%"base_classes", s%"NXdata.nxdl.xml"],
       .write [s%"definitions-main", s%"base_classes", s%"NXdata.nxdl.xml"] (.raw s%"new data"),
       .create [s%"definitions-main", infoName],
       .write [s%"definitions-main", infoName] someInfo,
       .remove [s%"main", s%"base_classes", s%"NXdata.nxdl.xml"],
       .remove [s%"main", s%"base_classes", s%"NXold.nxdl.xml"],
       .remove [s%"main", s%"base_classes"],
       .remove [s%"main", infoName],
       .remove [s%"main"],
       .rename [s%"definitions-main"] [s%"main"]] := by
  decide +kernel

theorem update_res :
    (downloadFileSet goodNet someRemoval s%"today" installedDisk s%"main" true).res = .ok () := by
  rfl

theorem stops_take (d : Disk) (ops : List Op) (k : Nat) : Stops d ops (applyAll d (ops.take k)) := by
  have := stops_append (d := d) (a := ops.take k) (b := ops.drop k) (s := applyAll d (ops.take k))
  rw [List.take_append_drop] at this
  exact this.2 (Or.inl (stops_end _ _))

/-- The disk when the update stops after so many operations. -/
def stoppedAfter (k : Nat) : Disk :=
  applyAll installedDisk
    ((downloadFileSet goodNet someRemoval s%"today" installedDisk s%"main" true).ops.take k)

theorem stoppedAfter_stops (k : Nat) :
    Stops installedDisk
      (downloadFileSet goodNet someRemoval s%"today" installedDisk s%"main" true).ops
      (stoppedAfter k) := stops_take _ _ _

theorem data_final : FinalAt someArchive s%"definitions-main"
    [s%"definitions-main", s%"base_classes", s%"NXdata.nxdl.xml"]
    ⟨s%"definitions-main/base_classes/NXdata.nxdl.xml", s%"new data", ⟨2021, 12, 17, 13, 9, 18⟩⟩ := by
  refine ⟨someArchive.members.take 3, [], rfl, ?_, by decide, by simp⟩
  rw [← extractable_iff (by decide)]
  decide

/-- **C45** (violated): an update that stops while the old set is removed leaves a set that is listed
but is neither the previous nor the new one. -/
theorem half_removed_set_listed :
    ¬ ∀ (net : Nat → Answer) (z : Archive) (top : Str) (rm : Removal) (w : Str) (d s : Disk)
        (name : Str) (replace : Bool), net 0 = .archive z → OneDirectory z top → top ≠ name →
        RemovesAll rm d name → Stops d (downloadFileSet net rm w d name replace).ops s →
        IsListed s name → SameBelow s d name ∨ Complete z top name s [name] := by
  intro h
  have hs9 : stoppedAfter 9 [s%"main", s%"base_classes", s%"NXdata.nxdl.xml"] = none := by
    unfold stoppedAfter; rw [update_ops]; rfl
  rcases h goodNet someArchive s%"definitions-main" someRemoval s%"today" installedDisk
    (stoppedAfter 9) s%"main" true rfl someArchive_tidy (by decide) someRemoval_all
    (stoppedAfter_stops 9)
    (by unfold stoppedAfter IsListed; rw [update_ops]; decide +kernel) with h | h
  · have := h [s%"base_classes", s%"NXdata.nxdl.xml"]
    rw [hs9] at this
    revert this
    decide
  · have := h.2.1 _ _ data_final
    rw [show ([s%"main"] ++ [s%"base_classes", s%"NXdata.nxdl.xml"] : FPath) =
      [s%"main", s%"base_classes", s%"NXdata.nxdl.xml"] from rfl, hs9] at this
    cases this

/-- **C46** (violated): an update that stops between the removal and the renaming leaves nothing
under the requested name. -/
theorem update_loses_set :
    ¬ ∀ (net : Nat → Answer) (z : Archive) (top : Str) (rm : Removal) (w : Str) (d s : Disk)
        (name : Str), net 0 = .archive z → OneDirectory z top → top ≠ name →
        RemovesAll rm d name → IsListed d name →
        Stops d (downloadFileSet net rm w d name true).ops s → s [name] ≠ none := by
  intro h
  refine h goodNet someArchive s%"definitions-main" someRemoval s%"today" installedDisk
    (stoppedAfter 13) s%"main" rfl someArchive_tidy (by decide) someRemoval_all (by decide +kernel)
    (stoppedAfter_stops 13) ?_
  unfold stoppedAfter
  rw [update_ops]
  decide +kernel

/-- **C66** (violated): if the old set cannot be removed (errors are ignored) the new one is put inside
of it, and success is reported: the installed set is still the old one. -/
theorem removal_fails_silently :
    ¬ ∀ (net : Nat → Answer) (z : Archive) (top : Str) (rm : Removal) (w : Str) (d : Disk)
        (name : Str), net 0 = .archive z → OneDirectory z top → top ≠ name →
        (downloadFileSet net rm w d name true).res = .ok () →
        Complete z top name (applyAll d (downloadFileSet net rm w d name true).ops) [name] := by
  intro h
  have := (h goodNet someArchive s%"definitions-main" [] s%"today" installedDisk s%"main" rfl
    someArchive_tidy (by decide) rfl).2.1 _ _ data_final
  revert this
  decide +kernel

/-- The complete set is inside of the old one. -/
example : Complete someArchive s%"definitions-main" s%"main"
    (applyAll installedDisk (downloadFileSet goodNet [] s%"today" installedDisk s%"main" true).ops)
    [s%"main", s%"definitions-main"] :=
  (install_success_nested rfl someArchive_tidy (by decide) (by decide +kernel) (by simp) rfl
    (by decide +kernel) rfl).1

/-- **C67** (violated for updates): after an interrupted update the plain command (without
`--update`) reports success, but what is there is the remains of the old set. -/
theorem interrupted_update_stuck :
    ¬ ∀ (net : Nat → Answer) (z : Archive) (top : Str) (rm rm' : Removal) (w : Str) (d s : Disk)
        (name : Str), net 0 = .archive z → OneDirectory z top → top ≠ name →
        RemovesAll rm d name → Stops d (downloadFileSet net rm w d name true).ops s →
        (downloadFileSet net rm' w s name false).res = .ok () →
        SameBelow (applyAll s (downloadFileSet net rm' w s name false).ops) d name ∨
        Complete z top name (applyAll s (downloadFileSet net rm' w s name false).ops) [name] := by
  intro h
  have hd : stoppedAfter 9 [s%"main"] ≠ none := by
    unfold stoppedAfter; rw [update_ops]; decide +kernel
  have hs9 : stoppedAfter 9 [s%"main", s%"base_classes", s%"NXdata.nxdl.xml"] = none := by
    unfold stoppedAfter; rw [update_ops]; rfl
  obtain ⟨hsame, hres⟩ := no_replace_untouched (net := goodNet) (rm := []) (w := s%"today") hd
    (stops_end _ _)
  have := h goodNet someArchive s%"definitions-main" someRemoval [] s%"today" installedDisk
    (stoppedAfter 9) s%"main" rfl someArchive_tidy (by decide) someRemoval_all
    (stoppedAfter_stops 9) hres
  rw [hsame] at this
  rcases this with h | h
  · have := h [s%"base_classes", s%"NXdata.nxdl.xml"]
    rw [hs9] at this
    revert this
    decide
  · have := h.2.1 _ _ data_final
    rw [show ([s%"main"] ++ [s%"base_classes", s%"NXdata.nxdl.xml"] : FPath) =
      [s%"main", s%"base_classes", s%"NXdata.nxdl.xml"] from rfl, hs9] at this
    cases this

/-- **C68** (violated): an installation that stops while the info file is written makes every later
listing of the cache fail: no command works until the directory is removed by hand. -/
theorem listing_broken :
    ¬ ∀ (net : Nat → Answer) (z : Archive) (top : Str) (rm : Removal) (w : Str) (d s : Disk)
        (name path : Str) (listing : List Str) (replace : Bool), net 0 = .archive z →
        OneDirectory z top → top ≠ name → (∀ k, IsListed d k → ∃ o, Described d k o) →
        Stops d (downloadFileSet net rm w d name replace).ops s →
        ∃ sets, (CacheDir.mk path listing s).allFileSets = .ok sets := by
  intro h
  obtain ⟨sets, hs⟩ := h goodNet someArchive s%"definitions-main" someRemoval s%"today" installedDisk
    (stoppedAfter 7) s%"main" s%"/home/me/.config/punx" [s%"main", s%"definitions-main"] true rfl
    someArchive_tidy (by decide)
    (by
      intro k hk
      by_cases hm : k = s%"main"
      · subst hm; exact ⟨_, rfl⟩
      · have := hk.1
        simp [installedDisk, hm] at this)
    (stoppedAfter_stops 7)
  obtain ⟨o, ho⟩ := (listing_works_iff _).1 ⟨sets, hs⟩ s%"definitions-main" (by simp)
    (by unfold stoppedAfter IsListed; rw [update_ops]; decide +kernel)
  unfold Described stoppedAfter at ho
  rw [update_ops] at ho
  have : (some (FObj.file (.raw []))) = some (FObj.file (.json o)) := by
    rw [← ho]; rfl
  cases this

/-! ## the good case -/

/-- The first installation works, and the new set is listed and selected. -/
example : (downloadFileSet goodNet [] s%"today" emptyDisk s%"main" false).res = .ok () := rfl

/-- The hypotheses of `first_install_atomic` can be met. -/
example : Gone emptyDisk s%"main" := fun q => by simp [emptyDisk]

example :
    let s := applyAll emptyDisk (downloadFileSet goodNet [] s%"today" emptyDisk s%"main" false).ops
    Complete someArchive s%"definitions-main" s%"main" s [s%"main"] ∧ Gone s s%"definitions-main" := by
  have := install_success_partial (net := goodNet) (z := someArchive) (top := s%"definitions-main")
    (rm := []) (w := s%"today") (d := emptyDisk) (name := s%"main") (replace := false) rfl
    someArchive_tidy (by decide) (fun q hq => absurd (by simp [emptyDisk]) hq) (Or.inr rfl) rfl rfl
  exact ⟨this.1, this.2.1⟩

example :
    let s := applyAll emptyDisk (downloadFileSet goodNet [] s%"today" emptyDisk s%"main" false).ops
    ((CacheDir.mk s%"/home/me/.config/punx" [s%"main"] s).allFileSets.toOption.map
      (·.map (fun kv => (kv.1, kv.2.lastModified)))) =
      some [(s%"main", some s%"2021-12-17 13:09:18")] := by decide +kernel

/-- An update works if the old set can be removed. -/
example : Complete someArchive s%"definitions-main" s%"main"
    (applyAll installedDisk
      (downloadFileSet goodNet someRemoval s%"today" installedDisk s%"main" true).ops)
    [s%"main"] :=
  (install_success_partial rfl someArchive_tidy (by decide) someRemoval_all (Or.inl rfl) update_res
    rfl).1

/-- Too few members. -/
example : (downloadFileSet
    (fun _ => .archive ⟨[⟨s%"x/nxdl.xsd", [], ⟨2020, 1, 1, 0, 0, 0⟩⟩, ⟨s%"x/a/b.xml", [], ⟨2020, 1, 1, 0, 0, 0⟩⟩], []⟩)
    [] s%"today" emptyDisk s%"main" false).res = .error .valueError := by rfl

end Punx

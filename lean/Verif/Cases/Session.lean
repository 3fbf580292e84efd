import Verif.Props.Session
import Verif.Cases.Installed
import Verif.Cases.Argparse

/-!
# C120: a session
-/

namespace Punx
open Spec

/-- A machine: the source cache has a set `main` of 2018. -/
def exMachine : Machine where
  texts := exTexts
  lib := easyLib
  pattern := cmdPattern
  env := sampleEnv
  upper := fun c => [c]
  abspath := id
  source := ⟨s%"/x/punx/cache", [s%"main"], installedDisk⟩
  userPath := s%"/home/me/.config/punx"
  ls := fun d => [s%"main", s%"v3.3", s%"definitions-main"].filter (fun n => d.has [n])
  dir := fun _ p =>
    if p = s%"/home/me/.config/punx/main" then defsDirListed else ⟨false, none, none, fun _ => none⟩
  demoFile := s%"demo.h5"

theorem exMachine_shipped : Shipped exMachine.source where
  readable := installed_true.2
  names := installed_true.1
  some := ⟨s%"main", by decide, by decide +kernel⟩

/-- The network works. -/
def onlineMoment : Moment where
  files := cmdFiles
  xml := fun _ => .missing
  fileExists := fun _ => false
  xslt := fun _ _ => .ok none
  net := fun _ _ => .archive defsArchive
  removal := fun _ _ => []
  written := fun _ => s%"today"

/-- It does not. -/
def offlineMoment : Moment := { onlineMoment with net := fun _ _ => .connectionError }

/-- Some commands after the installation of `main`; the second one fails. -/
def exSession : List (Moment × List Str) :=
  [(onlineMoment, [s%"configuration"]), (offlineMoment, [s%"in", s%"v3.3", s%"-u"]),
   (offlineMoment, [s%"tree", s%"a.h5"]), (offlineMoment, [s%"nonsense"])]

/-- The disk after `punx install -u main`. -/
def exInstalled : Disk := (runMain exMachine onlineMoment emptyDisk [s%"install", s%"-u", s%"main"]).2

theorem ex_uses {u : Use} (h : u ∈ sessionUses exMachine exInstalled exSession) :
    u.net = (fun _ => .connectionError) ∧ u.name ≠ s%"main" := by
  obtain ⟨x, c, rest, hm, hc, ⟨i, hi⟩, hn⟩ := session_use h
  simp only [exSession, List.mem_cons, List.not_mem_nil, or_false, Prod.mk.injEq, List.cons.injEq] at hm
  rcases hm with ⟨rfl, rfl, rfl⟩ | ⟨rfl, rfl, rfl⟩ | ⟨rfl, rfl, rfl⟩ | ⟨rfl, rfl, rfl⟩
  · exact absurd hc.2 (by decide)
  · refine ⟨hi, ?_⟩
    simp only [List.mem_cons, List.not_mem_nil, or_false] at hn
    rcases hn with (h | h) | ⟨_, h⟩
    · simp [h]
    · simp [h]
    · exact absurd (by unfold PlainWord; decide) (h s%"v3.3" (Or.inl rfl))
  · exact absurd hc.2 (by decide)
  · exact absurd hc.2 (by decide)

theorem ex_line : mainCommand exTexts exMachine.source (exMachine.user emptyDisk)
    [s%"install", s%"-u", s%"main"] = .ok (.install [s%"main"] true) := by
  obtain ⟨_, _, _, _, k, _, _, hdef⟩ := session_sets (M := exMachine) (d := emptyDisk) (l := [])
    exMachine_shipped (fun k hk => absurd emptyDisk_below hk)
    (fun k o h => by rw [emptyDisk_below] at h; cases h) (fun u hu => by cases hu) trivial
  unfold mainCommand
  rw [show defaultRef exMachine.source (exMachine.user emptyDisk) = .ok (some k) from hdef]
  rfl

theorem ex_alone : Use.alone ⟨fun _ => .archive defsArchive, [], s%"today", s%"main", true⟩ emptyDisk =
    defsUse.alone emptyDisk := by
  unfold Use.alone downloadFileSet
  have : emptyDisk.has [s%"main"] = false := by
    unfold Disk.has
    rw [emptyDisk_below]
    rfl
  simp only [defsUse, this, Bool.false_and]

theorem exInstalled_eq : exInstalled = defsSets.user.disk := by
  unfold exInstalled runMain
  rw [show exMachine.texts = exTexts from rfl, ex_line]
  simp only [one_performed]
  show applyAll emptyDisk (Use.alone ⟨fun _ => .archive defsArchive, [], s%"today", s%"main", true⟩ emptyDisk).ops = _
  rw [ex_alone]
  rfl

theorem afterUses_offline {us : List Use} (h : ∀ u ∈ us, u.net = fun _ => .connectionError) {d : Disk} :
    afterUses d us = d := by
  induction us with
  | nil => rfl
  | cons u us ih =>
    have : (downloadFileSet u.net u.rm u.written d u.name u.update).ops = [] := by
      unfold downloadFileSet
      rw [h u (by simp)]
      split <;> rfl
    rw [afterUses, this]
    exact ih fun v hv => h v (List.mem_cons_of_mem _ hv)

theorem ex_untroubled {us : List Use} (h : ∀ u ∈ us, u.net = fun _ => .connectionError) {d : Disk} :
    Untroubled d us := by
  induction us generalizing d with
  | nil => trivial
  | cons u us ih =>
    refine ⟨fun ⟨z, hz⟩ => ?_, ih fun v hv => h v (List.mem_cons_of_mem _ hv)⟩
    rw [h u (by simp)] at hz
    cases hz

theorem ex_honest : Honest defsLxml exMachine exInstalled s%"main" where
  ls := by
    intro n
    show n ∈ [s%"main", s%"v3.3", s%"definitions-main"].filter (fun n => exInstalled.has [n]) ↔ _
    rw [exInstalled_eq, List.mem_filter]
    have hmain : defsSets.user.disk [s%"main"] ≠ none := by
      rw [defs_content (q := []) (by simp)]
      decide +kernel
    have hother : ∀ m, m ≠ s%"main" → defsSets.user.disk [m] = none := by
      intro m hm
      by_cases hd : m = s%"definitions-main"
      · subst hd
        exact (install_success_partial (net := defsUse.net) (rm := defsUse.rm) (w := defsUse.written)
          (d := emptyDisk) (name := s%"main") rfl defsArchive_tidy (by decide)
          (fun q hq => absurd emptyDisk_below hq) (.inr emptyDisk_below) defs_installed rfl).2.1 []
      · exact (other_sets_untouched (net := defsUse.net) (rm := defsUse.rm) (w := defsUse.written)
          (d := emptyDisk) (name := s%"main") (replace := false) rfl defsArchive_tidy (by decide)
          (stops_end _ _) hm hd []).trans emptyDisk_below
    by_cases hn : n = s%"main"
    · subst hn
      simp [Disk.has, Option.isSome_iff_ne_none, hmain]
    · simp [Disk.has, hother n hn]
  dir := by
    rw [exInstalled_eq]
    exact defsDir_perm

/-- `punx install -u main`, the session, `punx va a.h5 -f main`: the lines are those of the definitions in
the archive. -/
example (fname : Str) (line : Line) :
    (∃ rows sm sc, Shown.act (.report fname rows sm sc) ∈
        (runMain exMachine onlineMoment (session exMachine exInstalled exSession).2
          [s%"va", s%"a.h5", s%"-f", s%"main"]).1.log ∧ line ∈ rows.map lineOf) ↔
      fname = s%"a.h5" ∧ ∃ mgr file, OwnDefinitions easyLib cmdPattern defsDir mgr ∧
        cmdFiles s%"a.h5" = .hdf5 file ∧ Validatable sampleEnv mgr file ∧
        Expected sampleEnv mgr [] file (contents sampleEnv file) line := by
  have hd'' : (session exMachine exInstalled exSession).2 = exInstalled := by
    rw [session_disk]
    exact afterUses_offline fun u hu => (ex_uses hu).1
  have hres : (runMain exMachine onlineMoment emptyDisk [s%"install", s%"-u", s%"main"]).1.res = .ok () := by
    have : (runMain exMachine onlineMoment emptyDisk [s%"install", s%"-u", s%"main"]).1.res.toBool = true := by
      decide +kernel
    revert this
    cases (runMain exMachine onlineMoment emptyDisk [s%"install", s%"-u", s%"main"]).1.res <;>
      simp [Except.toBool]
  have h := install_then_validate_partial (lx := defsLxml) (M := exMachine) exMachine_shipped
    (d := emptyDisk) (fun k hk => absurd emptyDisk_below hk)
    (fun k o h => by rw [emptyDisk_below] at h; cases h)
    (x := onlineMoment) (c := s%"install") (name := s%"main") ⟨by decide, List.prefix_refl _⟩
    (by unfold PlainWord; decide) (z := defsArchive) (top := s%"definitions-main") rfl defsArchive_tidy
    (by decide) (by decide +kernel) (fun q hq => absurd emptyDisk_below hq) (fun q => emptyDisk_below)
    hres (sa := defsDir) ⟨_, archiveHas_at _ (by decide), defsDir_of⟩
    ⟨.baseClasses, _, ⟨s%"NXdata.nxdl.xml", _⟩, rfl, List.mem_cons_self .., ⟨s%"NXdata", rfl⟩⟩
    defs_lawful (l := exSession) (d' := exInstalled) (d'' := (session exMachine exInstalled exSession).2)
    rfl rfl
    (fun u hu => ⟨(ex_uses hu).2, fun z hz => by rw [(ex_uses hu).1] at hz; cases hz⟩)
    (ex_untroubled fun u hu => (ex_uses hu).1)
    (by rw [hd'']; exact ex_honest) (y := onlineMoment) (c' := s%"va") (f := s%"a.h5")
    ⟨by decide, by decide⟩ (by unfold PlainWord; decide) rfl
    (fun file h => by
      have : FileState.hdf5 attrFile = .hdf5 file := h
      injection this with this
      rw [← this]
      exact attrFile_wellNamed) fname line
  rw [h]
  constructor
  · rintro ⟨h1, _, h2⟩; exact ⟨h1, h2⟩
  · rintro ⟨h1, h2⟩; exact ⟨h1, by decide, h2⟩

/-- It reads the definitions, opens the file and prints a report. -/
example : ((runMain exMachine onlineMoment exInstalled
    [s%"va", s%"a.h5", s%"-f", s%"main", s%"--report=error"]).1.log.filterMap
      (fun | .act a => some a | _ => none)).length = 3 := by
  decide +kernel

end Punx

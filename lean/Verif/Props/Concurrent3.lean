import Verif.Props.Concurrent2
import Verif.Props.Install3

/-!
# Installations that run at the same time: the properties (C103, C104)
-/

namespace Punx

open Spec

theorem apart_owns {ι : Type} {us : ι → Use} (h : Apart us) (i j : ι) (q : FPath)
    (hi : (us i).Owns q) (hj : (us j).Owns q) : i = j := by
  obtain ⟨k, r, rfl, hk⟩ := hi
  obtain ⟨k', r', he, hk'⟩ := hj
  cases he
  exact h i j k hk hk'

/-! ## C103: different sets -/

/-- **C103**: any number of installations of different sets are under way.  At every moment, whatever
the order of their steps, each directory is as its own installation alone could have left it if it
had been stopped; everything else is as before. -/
theorem installs_meanwhile {ι : Type} [DecidableEq ι] {us : ι → Use} (ht : ∀ i, (us i).Tidy)
    (ha : Apart us) {d e : Disk} {qs : ι → Prog} (h : Arrives d (fun i => (us i).proc) e qs) :
    (∀ i, ∃ s, Stops d ((us i).alone d).ops s ∧ ∀ q, (us i).Owns q → e q = s q) ∧
      ∀ q, (∀ i, ¬ (us i).Owns q) → e q = d q := by
  obtain ⟨h1, _, h3⟩ := reaches_local (apart_owns ha) (fun i => local_install (ht i)) h
  refine ⟨fun i => ?_, h3⟩
  obtain ⟨s, hs, hag⟩ := h1 i
  exact ⟨s, (goes_steps (install_alone (us i) d) hs).1, hag⟩

/-- **C103**: an installation that has come to its end, while any number of others of different sets
may still be under way, has the result that it would have had alone, and its directories are as it
would have left them alone. -/
theorem installs_independent {ι : Type} [DecidableEq ι] {us : ι → Use} (ht : ∀ i, (us i).Tidy)
    (ha : Apart us) {d e : Disk} {qs : ι → Prog} (h : Arrives d (fun i => (us i).proc) e qs) (i : ι)
    {r : Except PyErr Unit} (hr : qs i = .done r) :
    r = ((us i).alone d).res ∧
      ∀ q, (us i).Owns q → e q = applyAll d ((us i).alone d).ops q := by
  obtain ⟨h1, _, _⟩ := reaches_local (apart_owns ha) (fun i => local_install (ht i)) h
  obtain ⟨s, hs, hag⟩ := h1 i
  obtain ⟨h4, h5⟩ := (goes_steps (install_alone (us i) d) hs).2 r hr
  exact ⟨h4, fun q hq => h5 ▸ hag q hq⟩

/-- **C103**: so every installation that reports success while others are under way has installed
the complete set. -/
theorem installs_complete {ι : Type} [DecidableEq ι] {us : ι → Use} (ht : ∀ i, (us i).Tidy)
    (ha : Apart us) {d e : Disk} {qs : ι → Prog} (h : Arrives d (fun i => (us i).proc) e qs) (i : ι)
    (hr : qs i = .done (.ok ())) {z : Archive} {top : Str} (hz : (us i).net 0 = .archive z)
    (ho : OneDirectory z top) (hne : top ≠ (us i).name)
    (hrm : RemovesAll (us i).rm d (us i).name)
    (hnew : (us i).update = true ∨ d [(us i).name] = none) :
    Complete z top (us i).name e [(us i).name] := by
  obtain ⟨h1, h2⟩ := installs_independent ht ha h i hr
  refine complete_congr (fun q => h2 _ ⟨_, _, rfl, Or.inl rfl⟩) ?_
  exact (install_success_partial hz ho hne hrm hnew h1.symm rfl).1

/-- **C103**: no installation is ever stuck: from every moment it can come to its end without the
others. -/
theorem install_can_finish {ι : Type} [DecidableEq ι] {d e : Disk} {ps qs : ι → Prog}
    (h : Arrives d ps e qs) (i : ι) :
    ∃ e' r, Arrives d ps e' (Function.update qs i (.done r)) := by
  suffices H : ∀ (p : Prog) (e : Disk) (qs : ι → Prog), qs i = p → Arrives d ps e qs →
      ∃ e' r, Arrives d ps e' (Function.update qs i (.done r)) from H _ _ _ rfl h
  intro p
  induction p with
  | done r =>
    intro e qs hp h
    exact ⟨e, r, by rw [← hp, Function.update_eq_self]; exact h⟩
  | look k ih =>
    intro e qs hp h
    obtain ⟨e', r, h'⟩ := ih e e (Function.update qs i (k e)) (Function.update_self ..)
      (.next h (by rw [hp]; rfl))
    exact ⟨e', r, by rwa [Function.update_idem] at h'⟩
  | act o k ih =>
    intro e qs hp h
    cases ho : o.attempt e with
    | none =>
      refine ⟨e, .error .osError, .next h ?_⟩
      rw [hp, Prog.step, ho]
    | some e1 =>
      obtain ⟨e', r, h'⟩ := ih e1 (Function.update qs i k) (Function.update_self ..)
        (.next h (by rw [hp, Prog.step, ho]))
      exact ⟨e', r, by rwa [Function.update_idem] at h'⟩

/-! ## C104: the same set -/

/-- **C104** (what holds): any number of installations of any sets, also of the same one: everything
outside of their directories is at every moment as before. -/
theorem installs_elsewhere_partial {ι : Type} [DecidableEq ι] {us : ι → Use} (ht : ∀ i, (us i).Tidy)
    {d e : Disk} {qs : ι → Prog} (h : Arrives d (fun i => (us i).proc) e qs) {q : FPath}
    (hq : ∀ i, ¬ (us i).Owns q) : e q = d q :=
  (reaches_elsewhere (fun i => local_install (ht i)) h).2 q hq

/-- **C104** (what holds): a set that is there at the start stays as it is at every moment, however
many installations (also of this set) are under way, if those of this set are without `--update` and
no archive has a directory of this name. -/
theorem installed_kept_partial {ι : Type} [DecidableEq ι] {us : ι → Use} (ht : ∀ i, (us i).Tidy)
    {d e : Disk} {qs : ι → Prog} (h : Arrives d (fun i => (us i).proc) e qs) {k : Str}
    (hk : d [k] ≠ none) (hplain : ∀ i, (us i).name = k → (us i).update = false)
    (htop : ∀ i z m ms, (us i).net 0 = .archive z → z.members = m :: ms → firstComp '/' m.name ≠ k) :
    SameBelow e d k := by
  suffices H : SameBelow e d k ∧ ∀ i, Local (fun q => q.head? ≠ some k) (qs i) ∨
      (qs i = (us i).proc ∧ (us i).name = k) from H.1
  induction h with
  | start =>
    refine ⟨fun _ => rfl, fun i => ?_⟩
    by_cases hi : (us i).name = k
    · exact Or.inr ⟨rfl, hi⟩
    · left
      have hsub : ∀ x, (us i).Dirs x → x ≠ k := by
        rintro x (rfl | ⟨z, m, ms, h1, h2, rfl⟩)
        · exact hi
        · exact htop i z m ms h1 h2
      exact local_mono (fun q hq => by
        obtain ⟨x, r, rfl, hx⟩ := hq
        simpa using hsub x hx) (local_install (ht i))
  | @next e qs i e' q _ hs ih =>
    obtain ⟨h1, h2⟩ := ih
    rcases h2 i with hl | ⟨hp, hn⟩
    · obtain ⟨h4, h5, _⟩ := hl.step (fun _ _ => rfl) hs
      refine ⟨fun r => by rw [h5 _ (by simp), h1 r], fun j => ?_⟩
      by_cases hj : j = i
      · subst hj; rw [Function.update_self]; exact Or.inl h4
      · rw [Function.update_of_ne hj]; exact h2 j
    · rw [hp] at hs
      have hh : e.has [k] = true := by
        rw [Disk.has, h1 []]
        cases hd : d [k] with
        | none => exact absurd hd hk
        | some o => rfl
      have hq : e' = e ∧ q = .done (.ok ()) := by
        unfold Use.proc installProc at hs
        simp only [Prog.step, hn, hh, hplain i hn, Bool.not_false, Bool.and_self, if_true,
          Option.some.injEq, Prod.mk.injEq] at hs
        exact ⟨hs.1.symm, hs.2.symm⟩
      obtain ⟨rfl, rfl⟩ := hq
      refine ⟨h1, fun j => ?_⟩
      by_cases hj : j = i
      · subst hj; rw [Function.update_self]; exact Or.inl (.done _)
      · rw [Function.update_of_ne hj]; exact h2 j

/-- Steps in a given order (a process that has ended does nothing). -/
def inOrder {ι : Type} [DecidableEq ι] (d : Disk) (ps : ι → Prog) : List ι → Disk × (ι → Prog)
  | [] => (d, ps)
  | i :: is =>
    match (ps i).step d with
    | none => inOrder d ps is
    | some (d', p) => inOrder d' (Function.update ps i p) is

theorem inOrder_reaches {ι : Type} [DecidableEq ι] {d : Disk} {ps : ι → Prog} (is : List ι) {e : Disk}
    {qs : ι → Prog} (h : Arrives d ps e qs) :
    Arrives d ps (inOrder e qs is).1 (inOrder e qs is).2 := by
  induction is generalizing e qs with
  | nil => exact h
  | cons i is ih =>
    rw [inOrder]
    cases hs : (qs i).step e with
    | none => exact ih h
    | some x => exact ih (.next h hs)

/-- An order of steps of two installations of the same set: the one extracts a file, the other does
everything, the first goes on. -/
def badOrder : List Bool :=
  List.replicate 7 false ++ List.replicate 40 true ++ List.replicate 40 false

/-- Both installations of the same set. -/
def sameUse : Use :=
  { net := goodNet, written := s%"today", name := s%"main", update := false,
    rm := [[s%"nxdl.xsd"], [s%"base_classes", s%"NXdata.nxdl.xml"], [s%"base_classes"], [infoName], []] }

/-- What is there in the end. -/
def badEnd : Disk × (Bool → Prog) := inOrder emptyDisk (fun _ => sameUse.proc) badOrder

/-- The process has ended with success. -/
def Prog.isOk : Prog → Bool
  | .done (.ok ()) => true
  | _ => false

theorem isOk_iff {p : Prog} (h : p.isOk = true) : p = .done (.ok ()) := by
  cases p with
  | done r => cases r with
    | ok u => rfl
    | error e => cases h
  | look k => cases h
  | act o k => cases h

theorem badEnd_ok : (badEnd.2 true).isOk = true ∧ (badEnd.2 false).isOk = true ∧
    badEnd.1 [s%"main", s%"nxdl.xsd"] = none ∧ IsListed badEnd.1 s%"main" := by
  decide +kernel

theorem xsd_final : FinalAt someArchive s%"definitions-main"
    [s%"definitions-main", s%"nxdl.xsd"]
    ⟨s%"definitions-main/nxdl.xsd", s%"schema", ⟨2020, 1, 1, 0, 0, 0⟩⟩ := by
  refine ⟨someArchive.members.take 2, someArchive.members.drop 3, rfl, ?_, by decide, ?_⟩
  · rw [← extractable_iff (by decide)]
    decide
  · intro m' hm' _
    rw [show someArchive.members.drop 3 = [⟨s%"definitions-main/base_classes/NXdata.nxdl.xml",
      s%"new data", ⟨2021, 12, 17, 13, 9, 18⟩⟩] from rfl, List.mem_singleton] at hm'
    subst hm'
    decide

theorem sameUse_alone : (sameUse.alone emptyDisk).ops =
      [.mkdir [s%"definitions-main"],
       .create [s%"definitions-main", s%"nxdl.xsd"],
       .write [s%"definitions-main", s%"nxdl.xsd"] (.raw s%"schema"),
       .mkdir [s%"definitions-main", s%"base_classes"],
       .create [s%"definitions-main", s%"base_classes", s%"NXdata.nxdl.xml"],
       .write [s%"definitions-main", s%"base_classes", s%"NXdata.nxdl.xml"] (.raw s%"new data"),
       .create [s%"definitions-main", infoName],
       .write [s%"definitions-main", infoName] someInfo,
       .rename [s%"definitions-main"] [s%"main"]] := by
  decide +kernel

theorem sameUse_removes :
    RemovesAll sameUse.rm (applyAll emptyDisk (sameUse.alone emptyDisk).ops) s%"main" := by
  intro q hq
  rw [sameUse_alone] at hq
  simp [applyAll, Op.apply, Disk.put, emptyDisk] at hq
  simp only [sameUse, List.mem_cons, List.not_mem_nil, or_false]
  by_contra hc
  push Not at hc
  obtain ⟨h1, h2, h3, h4, h5⟩ := hc
  simp [h1, h2, h3, h4, h5] at hq

/-- **C104** (violated): two installations of a set that is not there yet, from the same archive, each
able to remove what the other one leaves.  Both report success, the set is listed, but it is not
complete. -/
theorem same_set_incomplete :
    ¬ ∀ (u : Use) (z : Archive) (top : Str) (d e : Disk) (qs : Bool → Prog),
        u.net 0 = .archive z → OneDirectory z top → top ≠ u.name → Gone d u.name → Gone d top →
        RemovesAll u.rm (applyAll d (u.alone d).ops) u.name →
        Arrives d (fun _ => u.proc) e qs → (∀ i, qs i = .done (.ok ())) → IsListed e u.name →
        Complete z top u.name e [u.name] := by
  intro h
  have hb := badEnd_ok
  have := (h sameUse someArchive s%"definitions-main" emptyDisk badEnd.1 badEnd.2 rfl
    someArchive_tidy (by decide) (fun q => rfl) (fun q => rfl) sameUse_removes
    (inOrder_reaches badOrder .start)
    (fun i => by cases i; exacts [isOk_iff hb.2.1, isOk_iff hb.1]) hb.2.2.2).2.1 _ _ xsd_final
  rw [show ([sameUse.name] ++ [s%"nxdl.xsd"] : FPath) = [s%"main", s%"nxdl.xsd"] from rfl,
    hb.2.2.1] at this
  cases this

end Punx

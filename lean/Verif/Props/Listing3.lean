import Verif.Props.Listing2

/-!
# A listing of the cache while sets are installed: what can go wrong (C112)
-/

namespace Punx

open Spec

/-- Steps of one installation (`false`) and a listing (`true`) in a given order. -/
def inTurn {α : Type} (d : Disk) (p : Prog) (r : Look α) : List Bool → Disk × Prog × Look α
  | [] => (d, p, r)
  | true :: is =>
    match r with
    | .done x => inTurn d p (.done x) is
    | .look k => inTurn d p (k d) is
  | false :: is =>
    match p.step d with
    | none => inTurn d p r is
    | some (d', p') => inTurn d' p' r is

theorem inTurn_watches {α : Type} {d : Disk} {p : Prog} {r : Look α} (is : List Bool) {e : Disk}
    {q : Prog} {r' : Look α} (h : Watches d (fun _ : Unit => p) r e (fun _ => q) r') :
    Watches d (fun _ : Unit => p) r (inTurn e q r' is).1 (fun _ => (inTurn e q r' is).2.1)
      (inTurn e q r' is).2.2 := by
  induction is generalizing e q r' with
  | nil => exact h
  | cons b is ih =>
    cases b with
    | true =>
      cases r' with
      | done x => exact ih h
      | look k => exact ih (.look h)
    | false =>
      rw [inTurn]
      cases hs : q.step e with
      | none => exact ih h
      | some x =>
        have h' := Watches.other (i := ()) h hs
        rw [show Function.update (fun _ : Unit => q) () x.2 = fun _ => x.2 by
          funext j; cases j; exact Function.update_self ..] at h'
        exact ih h'

/-- The exception, if there is one. -/
def Look.failure {α : Type} : Look α → Option PyErr
  | .done (.error y) => some y
  | _ => none

theorem failure_iff {α : Type} {r : Look α} {y : PyErr} (h : r.failure = some y) :
    r = .done (.error y) := by
  cases r with
  | done x => cases x with
    | ok a => cases h
    | error e => cases h; rfl
  | look k => cases h

/-- The first installation of the set `main`, for the examples. -/
def firstUse : Use :=
  { net := goodNet, rm := [], written := s%"today", name := s%"main", update := false }

/-- When the listing begins the directory of the archive has been made. -/
def firstMoment : Disk × Prog × Look Unit :=
  inTurn emptyDisk firstUse.proc (.done (.ok ())) (List.replicate 4 false)

/-- The listing that has begun then. -/
def someListing : Look (Dict Str FileSet) :=
  listLook s%"/home/me/.config/punx" [s%"definitions-main"] []

theorem firstMoment_arrives :
    Arrives emptyDisk (fun _ : Unit => firstUse.proc) firstMoment.1 (fun _ => firstMoment.2.1) :=
  watches_arrives (inTurn_watches _ (Watches.start (r := Look.done (.ok ()))))

/-- The info file is read while it is empty. -/
def emptyInfo : Disk × Prog × Look (Dict Str FileSet) :=
  inTurn firstMoment.1 firstMoment.2.1 someListing
    (List.replicate 12 false ++ List.replicate 4 true)

/-- The directory of the archive gets the name of the set before the info file is read. -/
def movedInfo : Disk × Prog × Look (Dict Str FileSet) :=
  inTurn firstMoment.1 firstMoment.2.1 someListing
    (List.replicate 13 false ++ List.replicate 2 true ++ List.replicate 3 false ++
      List.replicate 2 true)

theorem moments : firstMoment.1 [s%"definitions-main"] ≠ none ∧
    emptyInfo.2.2.failure = some .valueError ∧ movedInfo.2.2.failure = some .fileNotFound := by
  decide +kernel

/-- **C112** (violated): a set is installed for the first time into a cache without any problem.  A
listing that has begun meanwhile fails, because an info file is read before it is written
(`ValueError`), or because the directory has got another name after the info file has been seen
(`FileNotFoundError`). -/
theorem listing_disturbed {y : PyErr} (hy : y = .valueError ∨ y = .fileNotFound) :
    ∃ (u : Use) (z : Archive) (top : Str) (d e e' : Disk) (q q' : Prog) (path : Str)
      (names : List Str),
      u.net 0 = .archive z ∧ OneDirectory z top ∧ top ≠ u.name ∧ Gone d u.name ∧ Gone d top ∧
      (∀ k, ¬ IsListed d k) ∧ Arrives d (fun _ : Unit => u.proc) e (fun _ => q) ∧
      (∀ k ∈ names, e [k] ≠ none) ∧
      Watches e (fun _ : Unit => q) (listLook path names []) e' (fun _ => q') (.done (.error y)) := by
  have key : ∀ is : List Bool,
      (inTurn firstMoment.1 firstMoment.2.1 someListing is).2.2.failure = some y →
      ∃ (e' : Disk) (q' : Prog), Watches firstMoment.1 (fun _ : Unit => firstMoment.2.1)
        (listLook s%"/home/me/.config/punx" [s%"definitions-main"] []) e' (fun _ => q')
        (.done (.error y)) := by
    intro is h
    have := inTurn_watches is (Watches.start (d := firstMoment.1)
      (ps := fun _ : Unit => firstMoment.2.1) (r := someListing))
    rw [failure_iff h] at this
    exact ⟨_, _, this⟩
  obtain ⟨e', q', hw⟩ : ∃ (e' : Disk) (q' : Prog),
      Watches firstMoment.1 (fun _ : Unit => firstMoment.2.1)
        (listLook s%"/home/me/.config/punx" [s%"definitions-main"] []) e' (fun _ => q')
        (.done (.error y)) := by
    rcases hy with rfl | rfl
    · exact key _ moments.2.1
    · exact key _ moments.2.2
  refine ⟨firstUse, someArchive, s%"definitions-main", emptyDisk, _, e', _, q', _, _, rfl,
    someArchive_tidy, by decide, fun q => rfl, fun q => rfl, fun k h => ?_, firstMoment_arrives,
    fun k hk => ?_, hw⟩
  · cases h.1
  · rw [List.mem_singleton.1 hk]
    exact moments.1

/-- The update of the set `main`, for the examples. -/
def updateUse : Use :=
  { net := goodNet, rm := someRemoval, written := s%"today", name := s%"main", update := true }

/-- A listing that has begun before the update and goes on while the old set is removed; then the
update comes to its end. -/
def duringUpdate : Disk × Prog × Look (Dict Str FileSet) :=
  inTurn installedDisk updateUse.proc (listLook s%"/home/me/.config/punx" [s%"main"] [])
    (List.replicate 24 false ++ [true] ++ List.replicate 10 false)

/-- The listing has ended without a set. -/
def Look.isEmpty : Look (Dict Str FileSet) → Bool
  | .done (.ok []) => true
  | _ => false

theorem duringUpdate_missing : duringUpdate.2.2.isEmpty = true ∧ duringUpdate.2.1.isOk = true ∧
    IsListed installedDisk s%"main" := by
  decide +kernel

/-- **C112** (violated): a set is installed before and after its update, and the update succeeds, but
a listing meanwhile does not have it. -/
theorem listing_misses_updated :
    ∃ (u : Use) (z : Archive) (top : Str) (d e : Disk) (q : Prog) (path : Str),
      u.net 0 = .archive z ∧ OneDirectory z top ∧ top ≠ u.name ∧ RemovesAll u.rm d u.name ∧
      IsListed d u.name ∧ q = .done (.ok ()) ∧ Complete z top u.name e [u.name] ∧
      Watches d (fun _ : Unit => u.proc) (listLook path [u.name] []) e (fun _ => q)
        (.done (.ok [])) := by
  have hq := isOk_iff duringUpdate_missing.2.1
  have hw := inTurn_watches (List.replicate 24 false ++ [true] ++ List.replicate 10 false)
    (Watches.start (d := installedDisk) (ps := fun _ : Unit => updateUse.proc)
      (r := listLook s%"/home/me/.config/punx" [s%"main"] []))
  have hr : duringUpdate.2.2 = .done (.ok []) := by
    have := duringUpdate_missing.1
    unfold Look.isEmpty at this
    split at this
    · assumption
    · cases this
  refine ⟨updateUse, someArchive, s%"definitions-main", installedDisk, duringUpdate.1,
    duringUpdate.2.1, s%"/home/me/.config/punx", rfl, someArchive_tidy, by decide, someRemoval_all,
    duringUpdate_missing.2.2, hq, ?_, ?_⟩
  · refine installs_complete (us := fun _ : Unit => updateUse) (i := ()) ?_ ?_ (watches_arrives hw) hq
      rfl someArchive_tidy (by decide) someRemoval_all (Or.inl rfl)
    · intro _ z hz
      cases hz
      exact ⟨_, someArchive_tidy⟩
    · intro _ _ _ _ _
      rfl
  · rw [← hr]
    exact hw

end Punx

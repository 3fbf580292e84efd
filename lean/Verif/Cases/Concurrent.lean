import Verif.Props.Concurrent3

/-!
# Concrete cases: installations that run at the same time
-/

namespace Punx

open Spec

/-- Another archive. -/
def otherArchive : Archive :=
  { members :=
      [⟨s%"definitions-3.3/nxdl.xsd", s%"old schema", ⟨2017, 7, 12, 10, 41, 12⟩⟩,
       ⟨s%"definitions-3.3/applications/NXsas.nxdl.xml", s%"sas", ⟨2017, 7, 12, 10, 41, 12⟩⟩]
    comment := s%"9285af9" }

theorem otherArchive_tidy : OneDirectory otherArchive s%"definitions-3.3" := by
  refine ⟨by simp [otherArchive], by decide, by decide, ?_⟩
  intro m hm
  simp only [otherArchive, List.mem_cons, List.not_mem_nil, or_false] at hm
  rcases hm with rfl | rfl <;> exact ⟨_, rfl⟩

/-- `punx install main --update` and `punx install v3.3`. -/
def twoUses : Bool → Use
  | true => { net := goodNet, written := s%"today", name := s%"main", update := true, rm := someRemoval }
  | false => { net := fun _ => .archive otherArchive, written := s%"today", name := s%"v3.3",
               update := false, rm := [] }

theorem twoUses_tidy (i : Bool) : (twoUses i).Tidy := by
  cases i <;> intro z hz <;> cases hz
  · exact ⟨_, otherArchive_tidy⟩
  · exact ⟨_, someArchive_tidy⟩

theorem twoUses_dirs (i : Bool) (k : Str) (h : (twoUses i).Dirs k) :
    k ∈ (if i then [s%"main", s%"definitions-main"] else [s%"v3.3", s%"definitions-3.3"]) := by
  cases i <;> rcases h with rfl | ⟨z, m, ms, hz, hm, rfl⟩
  · simp [twoUses]
  · cases hz; cases hm; decide
  · simp [twoUses]
  · cases hz; cases hm; decide

theorem twoUses_apart : Apart twoUses := by
  intro i j k hi hj
  have h1 := twoUses_dirs i k hi
  have h2 := twoUses_dirs j k hj
  cases i <;> cases j <;> try rfl
  all_goals
    simp only [if_true, Bool.false_eq_true, if_false, List.mem_cons, List.not_mem_nil, or_false] at h1 h2
    rcases h1 with rfl | rfl <;> exact absurd h2 (by decide)

/-- They take turns; the second one finishes first. -/
def takeTurns (n : Nat) : List Bool := (List.replicate n [true, false]).flatten

/-- The disk and the processes after some turns. -/
def afterTurns (n : Nat) : Disk × (Bool → Prog) :=
  inOrder installedDisk (fun i => (twoUses i).proc) (takeTurns n)

theorem afterTurns_reached (n : Nat) :
    Arrives installedDisk (fun i => (twoUses i).proc) (afterTurns n).1 (afterTurns n).2 :=
  inOrder_reaches _ .start

-- the second one has ended, the first one has not: `v3.3` is complete
example : Complete otherArchive s%"definitions-3.3" s%"v3.3" (afterTurns 21).1 [s%"v3.3"] :=
  installs_complete twoUses_tidy twoUses_apart (afterTurns_reached 21) false
    (isOk_iff (by decide +kernel)) rfl otherArchive_tidy (by decide) (by intro q hq; exact absurd rfl hq)
    (Or.inr rfl)

example : ((afterTurns 21).2 true).isOk = false := by decide +kernel

-- both have ended: `main` is complete, too
example : Complete someArchive s%"definitions-main" s%"main" (afterTurns 40).1 [s%"main"] :=
  installs_complete twoUses_tidy twoUses_apart (afterTurns_reached 40) true
    (isOk_iff (by decide +kernel)) rfl someArchive_tidy (by decide) someRemoval_all (Or.inl rfl)

-- the result is that of the installation alone
example : ((twoUses true).alone installedDisk).res = .ok () :=
  ((installs_independent twoUses_tidy twoUses_apart (afterTurns_reached 40) true
    (isOk_iff (by decide +kernel))).1).symm

-- at any time every other set is as before
example (n : Nat) : SameBelow (afterTurns n).1 installedDisk s%"v2018.5" := by
  intro q
  refine (installs_meanwhile twoUses_tidy twoUses_apart (afterTurns_reached n)).2 _ fun i h => ?_
  obtain ⟨k, r, he, hk⟩ := h
  cases he
  have := twoUses_dirs i _ hk
  cases i <;> exact absurd this (by decide)

-- half-way the first one can come to its end
example : ∃ e r, Arrives installedDisk (fun i => (twoUses i).proc) e
    (Function.update (afterTurns 5).2 true (.done r)) :=
  install_can_finish (afterTurns_reached 5) true

-- two installations of the same set without `--update`: the set that is there is kept
example (is : List Bool) :
    SameBelow (inOrder installedDisk (fun _ => sameUse.proc) is).1 installedDisk s%"main" := by
  refine installed_kept_partial (us := fun _ : Bool => sameUse) ?_ (inOrder_reaches is .start)
    (by decide) (fun _ _ => rfl) ?_
  · intro i z hz; cases hz; exact ⟨_, someArchive_tidy⟩
  · intro i z m ms hz hm; cases hz; cases hm; decide

-- they fail to make a complete one if there is none, but other sets are as before
example : SameBelow badEnd.1 emptyDisk s%"v3.3" := by
  intro q
  refine installs_elsewhere_partial (us := fun _ : Bool => sameUse) ?_
    (inOrder_reaches badOrder .start) fun i h => ?_
  · intro i z hz; cases hz; exact ⟨_, someArchive_tidy⟩
  · obtain ⟨k, r, he, hk⟩ := h
    cases he
    rcases hk with hk | ⟨z, m, ms, hz, hm, hk⟩
    · exact absurd hk (by decide)
    · cases hz; cases hm; exact absurd hk (by decide)

end Punx

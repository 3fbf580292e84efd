import Verif.Props.Listing3
import Verif.Cases.Concurrent

/-!
# Concrete cases: a listing while sets are installed
-/

namespace Punx

open Spec

theorem firstUse_tidy (_ : Unit) : firstUse.Tidy := by
  intro z hz
  cases hz
  exact ⟨_, someArchive_tidy⟩

theorem firstUse_apart : Apart (fun _ : Unit => firstUse) := fun _ _ _ _ _ => rfl

/-- The result of a listing that has ended without an exception. -/
def Look.result : Look (Dict Str FileSet) → Option (Dict Str FileSet)
  | .done (.ok sets) => some sets
  | _ => none

theorem result_iff {r : Look (Dict Str FileSet)} {sets : Dict Str FileSet}
    (h : r.result = some sets) : r = .done (.ok sets) := by
  cases r with
  | done x => cases x with
    | ok a => cases h; rfl
    | error e => cases h
  | look k => cases h

/-- A listing that begins before the installation and ends after it. -/
def lateListing : List Bool := List.replicate 22 false ++ List.replicate 4 true

/-- What is listed: the new set. -/
def listedSet : FileSet :=
  { path := s%"/home/me/.config/punx/main", cache := s%"user",
    info := s%"/home/me/.config/punx/main/__github_info__.json", ref := some s%"main",
    sha := some s%"041c2c0",
    zipUrl := Dict.get? (infoFields s%"main" s%"041c2c0" s%"2021-12-17 13:09:18" s%"today") s%"zip_url",
    lastModified := some s%"2021-12-17 13:09:18" }

theorem lateListing_result :
    (inTurn emptyDisk firstUse.proc (listLook s%"/home/me/.config/punx" [s%"main"] [])
      lateListing).2.2.result = some [(s%"main", listedSet)] := by
  decide +kernel

-- the new set is listed, so it is complete
example : Complete someArchive s%"definitions-main" s%"main"
    (inTurn emptyDisk firstUse.proc (listLook s%"/home/me/.config/punx" [s%"main"] [])
      lateListing).1 [s%"main"] := by
  have hw := inTurn_watches lateListing (Watches.start (d := emptyDisk)
    (ps := fun _ : Unit => firstUse.proc)
    (r := listLook s%"/home/me/.config/punx" [s%"main"] []))
  rw [result_iff lateListing_result] at hw
  exact ((listing_new_partial firstUse_tidy firstUse_apart .start hw (i := ()) rfl someArchive_tidy
    (by decide) (fun q => rfl)).1 listedSet rfl).2.1

/-- A cache with the sets `main` and `v2018.5`. -/
def cacheOfTwo : Disk := fun p =>
  if p = [s%"v2018.5"] then some .dir
  else if p = [s%"v2018.5", infoName] then
    some (.file (.json [(s%"ref", s%"v2018.5"), (s%"sha", s%"aa1ccd1"),
      (s%"last_modified", s%"2018-05-15 08:24:34")]))
  else installedDisk p

/-- While `main` is updated. -/
def listedBoth : Disk × Prog × Look (Dict Str FileSet) :=
  inTurn cacheOfTwo updateUse.proc
    (listLook s%"/home/me/.config/punx" [s%"main", s%"v2018.5"] [])
    (List.replicate 24 false ++ List.replicate 5 true)

theorem listedBoth_result : (listedBoth.2.2.result.map Dict.keys) = some [s%"v2018.5"] := by
  decide +kernel

-- the other set is listed, with its own commit
example : ∃ sets s, listedBoth.2.2 = .done (.ok sets) ∧ Dict.get? sets s%"v2018.5" = some s ∧
    s.sha = some s%"aa1ccd1" := by
  have hw := inTurn_watches (List.replicate 24 false ++ List.replicate 5 true)
    (Watches.start (d := cacheOfTwo) (ps := fun _ : Unit => updateUse.proc)
      (r := listLook s%"/home/me/.config/punx" [s%"main", s%"v2018.5"] []))
  have hr := listedBoth_result
  cases hs : listedBoth.2.2.result with
  | none => rw [hs] at hr; cases hr
  | some sets =>
    have he := result_iff hs
    rw [show (inTurn cacheOfTwo updateUse.proc _ _).2.2 = _ from he] at hw
    refine ⟨sets, ⟨s%"/home/me/.config/punx/v2018.5", s%"user",
      s%"/home/me/.config/punx/v2018.5/__github_info__.json", some s%"v2018.5", some s%"aa1ccd1", none,
      some s%"2018-05-15 08:24:34"⟩, he, ?_, rfl⟩
    refine (listing_others_partial (us := fun _ : Unit => updateUse) ?_ .start hw ?_ _).2
      ⟨by decide, by decide, _, rfl, ⟨rfl, rfl, rfl, rfl, rfl, rfl⟩, by decide⟩
    · intro _ z hz
      cases hz
      exact ⟨_, someArchive_tidy⟩
    · rintro _ (h | ⟨z, m, ms, hz, hm, h⟩)
      · exact absurd h (by decide)
      · cases hz
        cases hm
        exact absurd h (by decide)

-- the listing that fails has looked at the directory of the archive
example : ∃ z m ms, firstUse.net 0 = .archive z ∧ z.members = m :: ms ∧
    firstComp '/' m.name ∈ [s%"definitions-main"] := by
  have hw := inTurn_watches (List.replicate 12 false ++ List.replicate 4 true)
    (Watches.start (d := firstMoment.1) (ps := fun _ : Unit => firstMoment.2.1) (r := someListing))
  rw [show (inTurn firstMoment.1 firstMoment.2.1 someListing _).2.2 = _ from
    failure_iff moments.2.1] at hw
  obtain ⟨_, h⟩ := listing_fails_partial (us := fun _ : Unit => firstUse) firstUse_tidy firstUse_apart
    (fun _ q => rfl) (fun k hk => by cases hk.1) firstMoment_arrives hw
  exact h

end Punx

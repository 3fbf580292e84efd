import Verif.Props.Reading2

/-!
# Concrete cases: definitions are read while sets are installed
-/

namespace Punx

open Spec

-- a set that is installed, nothing else happens
example : ∃ sd, (readSetDir (listAmong defsNames) defsLxml.xsd defsLxml.xml s%"main").run
      defsSets.user.disk = .ok sd ∧ DirOf defsLxml (inSet defsSets.user.disk s%"main") sd :=
  reading_alone (later_names .start)

/-- The sets in the cache are listed while `main` is installed for the first time, it is found and
read. -/
def newUse : Look (Str × SetDir) :=
  useSet (listAmong defsNames) defsLxml.xsd defsLxml.xml s%"/home/me/.config/punx" [s%"main"]
    (some s%"main")

def newTurns : List Bool := List.replicate 60 false ++ List.replicate 30 true

def newEnd : Disk × Prog × Look (Str × SetDir) :=
  inTurn emptyDisk defsUse.proc newUse newTurns

theorem newEnd_used : newEnd.2.2.used = some s%"main" := by decide +kernel

theorem defsUse_tidy (_ : Unit) : defsUse.Tidy := by
  intro z hz
  cases hz
  exact ⟨_, defsArchive_tidy⟩

theorem defs_lists {e : Disk} {qs : Unit → Prog}
    (h : Arrives emptyDisk (fun _ : Unit => defsUse.proc) e qs) :
    ListsSet (listAmong defsNames) e s%"main" := by
  refine listAmong_set (by decide) fun c n hn => ?_
  obtain ⟨s, hs, hag⟩ := (installs_meanwhile (us := fun _ : Unit => defsUse) defsUse_tidy
    (fun _ _ _ _ _ => rfl) h).1 ()
  rw [hag [s%"main", c, n] ⟨s%"main", [c, n], rfl, Or.inl rfl⟩] at hn
  have h0 : NamesAmong defsNames emptyDisk := fun k c n hn => absurd emptyDisk_below hn
  exact namesAmong_stops hs h0 (by decide +kernel) _ _ _ hn

-- what is read are the definitions of the archive
example : ∃ sd, newEnd.2.2 = .done (.ok (s%"main", sd)) ∧ ∀ mgr,
    OwnDefinitions easyLib cmdPattern sd mgr ↔ OwnDefinitions easyLib cmdPattern defsDir mgr := by
  obtain ⟨sd, hsd⟩ := used_iff newEnd_used
  refine ⟨sd, hsd, ?_⟩
  have hw := inTurn_watches newTurns (Watches.start (d := emptyDisk)
    (ps := fun _ : Unit => defsUse.proc) (r := newUse))
  rw [show (inTurn emptyDisk defsUse.proc newUse newTurns).2.2 = _ from hsd] at hw
  exact use_new_partial (us := fun _ : Unit => defsUse) defsUse_tidy (fun _ _ _ _ _ => rfl) .start
    (i := ()) rfl defsArchive_tidy (by decide) (fun q => emptyDisk_below) (fun q => emptyDisk_below)
    (fun _ _ h => defs_lists h) hw
    ⟨_, archiveHas_at _ (by decide), defsDir_of⟩ easyLib cmdPattern

/-- Another set is updated while `main` is read. -/
def besideUse : Use := { updateUse with name := s%"v2018.5" , net := fun _ => .archive someArchive }

/-- The update and the reading take turns. -/
def besideTurns : List Bool := (List.replicate 20 [false, true]).flatten

def besideEnd : Disk × Prog × Look SetDir :=
  inTurn defsSets.user.disk besideUse.proc someReading besideTurns

/-- The program has ended without an exception. -/
def Look.fine {α : Type} : Look α → Bool
  | .done (.ok _) => true
  | _ => false

theorem besideEnd_fine : besideEnd.2.2.fine = true ∧
    besideEnd.1 [s%"v2018.5", s%"nxdl.xsd"] ≠ none := by decide +kernel

theorem beside_dirs (_ : Unit) : ¬ besideUse.Dirs s%"main" := by
  rintro (h | ⟨z, m, ms, hz, hm, h⟩)
  · exact absurd h (by decide)
  · cases hz
    cases hm
    exact absurd h (by decide)

theorem besideUse_tidy (_ : Unit) : besideUse.Tidy := by
  intro z hz
  cases hz
  exact ⟨_, someArchive_tidy⟩

-- what is read is what is there
example : ∃ sd, besideEnd.2.2 = .done (.ok sd) ∧
    DirOf defsLxml (inSet defsSets.user.disk s%"main") sd := by
  have hw := inTurn_watches besideTurns (Watches.start (d := defsSets.user.disk)
    (ps := fun _ : Unit => besideUse.proc) (r := someReading))
  cases hr : besideEnd.2.2 with
  | look k => have := besideEnd_fine.1; rw [hr] at this; cases this
  | done x =>
    rw [show (inTurn defsSets.user.disk besideUse.proc someReading besideTurns).2.2 = _ from hr] at hw
    obtain ⟨sd, hx, hsd⟩ := reading_others_partial (us := fun _ : Unit => besideUse) besideUse_tidy
      .start beside_dirs (fun e qs h => by
        refine listAmong_set (by decide) fun c n hn => ?_
        rw [installs_elsewhere_partial (us := fun _ : Unit => besideUse) besideUse_tidy h] at hn
        · exact defs_names _ _ _ hn
        · rintro _ ⟨k, r, hk, h⟩
          cases hk
          exact beside_dirs () h) hw
    exact ⟨sd, by rw [hx], hsd⟩

end Punx

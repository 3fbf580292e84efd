import Verif.Props.Configuration
import Verif.Props.Cli2

/-!
# Cases for C108, C109
-/

namespace Punx
open Spec

/-- a cache with one set, in the directory `dir` -/
def cacheWith (path dir : Str) (info : Dict Str Str) : CacheDir :=
  ⟨path, [dir], fun p =>
    if p = [dir] then some .dir
    else if p = [dir, infoName] then some (.file (.json info))
    else none⟩

/-- what a description says -/
def infoOf (ref date : Str) : Dict Str Str :=
  [(s%"ref", ref), (s%"sha", s%"9285af9c80ff"), (s%"last_modified", date)]

/-- a set of the user that is as old as that of the package -/
def sameDate : CacheDir :=
  cacheWith s%"/home/me/.config/punx" s%"main" (infoOf s%"main" s%"2017-07-12 10:41:12")

/-- a copy of the set `main` -/
def copiedSet : CacheDir :=
  cacheWith s%"/home/me/.config/punx" s%"copy" (infoOf s%"main" s%"2021-12-17 13:09:18")

/-- a newer set of the user -/
def newerSet : CacheDir :=
  cacheWith s%"/home/me/.config/punx" s%"main" (infoOf s%"main" s%"2021-12-17 13:09:18")

/-- the names of the rows, and the default -/
def shownNames (x : Except PyErr (List CacheRow × Option Str)) : Option (List Str × Option Str) :=
  x.toOption.map fun r => (r.1.map CacheRow.name, r.2)

theorem shownNames_some {x : Except PyErr (List CacheRow × Option Str)} {ns : List Str} {d : Option Str}
    (h : shownNames x = some (ns, d)) : ∃ rows, x = .ok (rows, d) ∧ rows.map CacheRow.name = ns := by
  cases x with
  | error e => cases h
  | ok r =>
    simp only [shownNames, Except.toOption, Option.map_some, Option.some.injEq, Prod.mk.injEq] at h
    exact ⟨r.1, by rw [← h.2], h.1⟩

/-- C108 (violated): of two sets with the same date the one listed last is the last of the table,
and the one listed first is the default. -/
theorem default_not_last : ¬ ∀ (source user : CacheDir) (rows : List CacheRow) (d : Option Str),
    funcConfiguration source user = .ok (rows, d) →
      ∃ r, rows.getLast? = some r ∧ d = some r.name := by
  intro h
  have e : shownNames (funcConfiguration packageCache sameDate) =
      some ([s%"v3.3", s%"main"], some s%"v3.3") := by rfl
  obtain ⟨rows, e, e2⟩ := shownNames_some e
  obtain ⟨r, h1, h2⟩ := h _ _ _ _ e
  have h3 := congrArg List.getLast? e2
  rw [List.getLast?_map, h1] at h3
  simp only [Option.map_some, Option.some.injEq, List.getLast?_cons_cons, List.getLast?_singleton] at h2 h3
  rw [h3] at h2
  revert h2
  decide

/-- C108 (violated): the default that is shown need not be the name of a known set: it is taken from the
description of the set, the names are those of the directories. -/
theorem default_not_known : ¬ ∀ (source user : CacheDir) (rows : List CacheRow) (d : Str)
    (sets : Dict Str FileSet), funcConfiguration source user = .ok (rows, some d) →
      allFileSets source user = .ok sets → d ∈ Dict.keys sets := by
  intro h
  have e : shownNames (funcConfiguration packageCache copiedSet) =
      some ([s%"v3.3", s%"copy"], some s%"main") := by rfl
  obtain ⟨rows, e, e2⟩ := shownNames_some e
  have := h _ _ _ _ _ e rfl
  revert this
  decide

example : ∃ rows d, funcConfiguration packageCache newerSet = .ok (rows, d) ∧
    ∃ r, rows.getLast? = some r ∧ d = some r.name := by
  have e : shownNames (funcConfiguration packageCache newerSet) =
      some ([s%"v3.3", s%"main"], some s%"main") := by rfl
  obtain ⟨rows, e, e2⟩ := shownNames_some e
  refine ⟨rows, _, e, configuration_default_partial e rfl ?_ ?_⟩
  · decide
  · unfold Earlier
    decide

example : ∃ r, funcConfiguration packageCache copiedSet = .ok r :=
  (configuration_iff _ _).2 ⟨_, rfl, by decide, by decide, by decide⟩

example : ¬ ∃ r, funcConfiguration ⟨s%"/a", [], fun _ => none⟩ ⟨s%"/b", [], fun _ => none⟩ = .ok r := by
  rw [configuration_iff]
  rintro ⟨sets, h, hne, _⟩
  cases h
  exact hne rfl

theorem demo_case : (funcDemo sampleWorld s%"n.h5").res = .ok () := by
  have hv : (funcDemo sampleWorld s%"n.h5").res.toBool = true := by decide +kernel
  cases h : (funcDemo sampleWorld s%"n.h5").res with
  | ok u => rfl
  | error e => rw [h] at hv; cases hv

/-- the demonstration with the sample definitions under the name `main` -/
example : ∃ mgr file ls, sampleWorld.load s%"main" = .ok mgr ∧ sampleWorld.files s%"n.h5" = .hdf5 file ∧
    Act.tree ls ∈ (funcDemo sampleWorld s%"n.h5").log := by
  obtain ⟨_, _, mgr, file, h1, h2, _, ls, h4⟩ := demo_succeeds_iff.1 demo_case
  exact ⟨mgr, file, ls, h1, h2, (demo_shows.2 ls).2 ⟨demo_case, by rw [h2]; exact h4⟩⟩

example : ∃ rows sm sc mgr file, Act.report s%"n.h5" rows sm sc ∈ (funcDemo sampleWorld s%"n.h5").log ∧
    rows.Perm (findings (validateOpen sampleEnv mgr [] file).log) := by
  obtain ⟨_, ⟨sets, s, q1, q2⟩, mgr, file, h1, h2, h3, _⟩ := demo_succeeds_iff.1 demo_case
  have hr : (demoValidate sampleWorld s%"n.h5").res = .ok () :=
    (validate_succeeds_iff demo_option.1).2 ⟨demo_option.2.1, s%"main", mgr, file,
      ⟨by decide, rfl, sets, q1, s, q2⟩, h1, h2, h3⟩
  obtain ⟨fname, rows, sm, sc, h⟩ := (validate_reports_iff _ _).1 hr
  have h' := demo_log.2 (.inl h)
  obtain ⟨rfl, mgr, file, _, _, h6, _⟩ := demo_shows.1 h'
  exact ⟨rows, sm, sc, mgr, file, h', h6⟩

end Punx

import Verif.Props.InstallHistory
import Verif.Props.Install3
import Verif.Props.Cache
import Verif.Props.Dates

/-!
# Cases for C42–C48, C64–C70
-/

namespace Punx
open Spec

/-! ## file sets -/

theorem someSets_described : ∀ kv ∈ someSets, WellDescribed kv.2 := by
  intro kv h
  simp [someSets] at h
  rcases h with rfl | rfl | rfl <;> simp [WellDescribed]

theorem someSets_nodup : (Dict.keys someSets).Nodup := by decide

example := select_known someSets_described (r := s%"main") rfl
example := select_latest someSets_nodup someSets_described (by decide) (some s%"v9")
  (by rintro r ⟨⟩; decide)
example := select_fails_iff someSets_nodup someSets_described (some s%"v9") .indexError
example := table_rows (sets := someSets) (rows := (tableOfCaches someSets).toOption.getD []) (by rfl)

/-- a user's cache with one installed set -/
def userDir : CacheDir := ⟨s%"/home/me/.config/punx", [s%"main", s%"settings.ini"], installedDisk⟩

/-- the shipped cache with one set of the same name and one other -/
def cacheDir : CacheDir where
  path := s%"/lib/punx/cache"
  listing := [s%"main", s%"v3.3"]
  disk := fun p =>
    if p = [s%"main"] ∨ p = [s%"v3.3"] then some .dir
    else if p = [s%"main", infoName] ∨ p = [s%"v3.3", infoName] then
      some (.file (.json [(s%"ref", s%"r"), (s%"sha", s%"9285af9"),
        (s%"last_modified", s%"2018-05-15 16:34:19")]))
    else none

/-- the sets of the user -/
def userSets : Dict Str FileSet := userDir.allFileSets.toOption.getD []

theorem userSets_listed : userDir.allFileSets = .ok userSets := by rfl

example : (Dict.keys userSets) = [s%"main"] := by rfl
example := listed_sets userSets_listed s%"main"
example := (listing_works_iff userDir).1 ⟨_, userSets_listed⟩
example := cache_label_partial userSets_listed (k := s%"main") (by rfl)
  (by rw [← hasSub_infix]; decide) (by decide) (by decide)
example := cache_label_iff userSets_listed (k := s%"main") (by rfl) (by decide) (by decide)
example := user_precedence (source := cacheDir) (user := userDir)
  (sets := (allFileSets cacheDir userDir).toOption.getD []) (by rfl)
example : Dict.keys ((allFileSets cacheDir userDir).toOption.getD []) = [s%"main", s%"v3.3"] := by rfl

/-! ## installation -/

theorem emptyDisk_gone : Gone emptyDisk s%"main" := fun q => by simp [emptyDisk]

/-- a connection that fails -/
def badNet : Nat → Answer := fun _ => .connectionError

/-- An archive of one definition. -/
def smallArchive : Archive :=
  ⟨[⟨s%"x/nxdl.xsd", [], ⟨2020, 1, 1, 0, 0, 0⟩⟩], []⟩

theorem smallArchive_tidy : OneDirectory smallArchive s%"x" := by
  refine ⟨by simp [smallArchive], by decide, by decide, ?_⟩
  intro m hm
  simp only [smallArchive, List.mem_cons, List.not_mem_nil, or_false] at hm
  subst hm
  exact ⟨_, rfl⟩

example := no_replace_untouched (net := goodNet) (rm := someRemoval) (w := s%"today")
  (d := installedDisk) (name := s%"main") (by simp [installedDisk]) (stops_take _ _ 0)
example := failed_download_untouched (net := badNet) (rm := someRemoval) (w := s%"today")
  (d := installedDisk) (name := s%"main") (replace := true) (by simp [badNet]) (stops_take _ _ 0)
/-- an update stopped after five steps -/
example := interrupted_install_partial (net := goodNet) (w := s%"today") rfl someArchive_tidy
  (by decide) (stoppedAfter_stops 5)
example := other_sets_untouched (net := goodNet) (w := s%"today") rfl someArchive_tidy (by decide)
  (stoppedAfter_stops 5) (other := s%"v3.3") (by decide) (by decide)
example := update_keeps_a_copy_partial (net := goodNet) (w := s%"today") rfl someArchive_tidy
  (by decide) (stoppedAfter_stops 5)
example := listing_after_stop_partial (net := goodNet) (w := s%"today") rfl someArchive_tidy
  (by decide) (by decide) (stoppedAfter_stops 0) (k := s%"main")
example := not_retried badNet rfl
example := first_request_partial goodNet
example := one_request badNet
example := too_few_refused (net := fun _ => .archive smallArchive) (rm := []) (w := s%"today")
  (d := emptyDisk) (name := s%"main") (replace := false) rfl smallArchive_tidy (.inr rfl)
  (Nat.lt_of_le_of_lt (List.length_filter_le _ _) (by decide)) (s := emptyDisk)
example := extracted_exactly (z := someArchive) (top := s%"definitions-main") (by decide)
  (d := emptyDisk) (dt := preNexus) (n := 0) (r := _) rfl rfl
example := extracted_count (z := someArchive) (top := s%"definitions-main") (by decide)
  (d := emptyDisk) (dt := ⟨2021, 12, 17, 13, 9, 18⟩) (n := 2) rfl
example := first_install_repeatable (net := goodNet) (net' := goodNet) (rm := []) (rm' := [])
  (w := s%"today") (w' := s%"later") (replace := false) rfl someArchive_tidy (by decide) rfl
  someArchive_tidy (by decide) emptyDisk_gone (stops_take _ _ 3) (by decide +kernel) rfl
example := update_repeatable_partial (net := goodNet) (w := s%"today") rfl someArchive_tidy
  (by decide) someRemoval_all update_res rfl
example := iso_order (a := ⟨2018, 5, 15, 8, 24, 34⟩) (b := ⟨2021, 12, 17, 13, 9, 18⟩) rfl rfl

theorem goodUse_usual : (Use.mk goodNet [] s%"today" s%"main" true).Usual := by
  intro z hz
  have : z = someArchive := by
    simp only [goodNet, Answer.archive.injEq] at hz
    exact hz.symm
  subst this
  refine ⟨_, someArchive_tidy, by decide, ?_⟩
  decide

example := cache_usable (us := [Use.mk goodNet [] s%"today" s%"main" true])
  (by intro u hu; simp at hu; subst hu; exact goodUse_usual)
  (d := emptyDisk) (fun k hk => absurd (by simp [emptyDisk]) hk) s%"/home/me/.config/punx" [s%"main"]

end Punx

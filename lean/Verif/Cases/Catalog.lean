import Verif.Props.Report
import Verif.Props.Unfold
import Verif.Props.Completes5
import Verif.Props.TreeGraph
import Verif.Props.OpenFiles

/-!
# Cases for C01–C11, C59, C91, C92

The modules in `Verif/Cases` apply theorems of the manifest to concrete values, so that all
their hypotheses are met at once.
-/

namespace Punx
open Spec

/-! ## reports -/

/-- Findings of four statuses at three addresses. -/
def caseFindings : List Finding :=
  [⟨some s%"/a/b", s%"t", .ok, []⟩, ⟨some s%"/a@x", s%"t", .error, []⟩,
   ⟨some s%"/a", s%"t", .note, []⟩, ⟨some s%"/a", s%"u", .warn, []⟩]

example : findingScore caseFindings = findingScore caseFindings.reverse :=
  findingScore_perm (List.reverse_perm _).symm

example : ((findingScore caseFindings).avgNum : Rat) / (findingScore caseFindings).avgDen < 0 :=
  error_score_negative_partial ⟨⟨some s%"/a@x", s%"t", .error, []⟩, by decide, rfl⟩ (by decide)

example : ¬ ((findingScore (caseFindings.drop 2)).avgNum : Rat) /
    (findingScore (caseFindings.drop 2)).avgDen < 0 :=
  no_error_score_nonneg (by decide)

example : (Status.warn, 1) ∈ ([(.ok, 1), (.note, 1), (.warn, 1), (.error, 1)] : Dict Status Nat) ↔
    Status.warn ∈ requested [.ok, .note, .warn, .error] ∧ 1 = Spec.count .warn caseFindings :=
  (findingSummary_exact (by decide)).2 _ _

example : ([⟨some s%"/b", [], .note, []⟩, ⟨some s%"/a", [], .note, []⟩] : List Finding).Perm
    ([⟨some s%"/b", [], .note, []⟩, ⟨some s%"/c", [], .ok, []⟩, ⟨some s%"/a", [], .note, []⟩].filter
      fun f => [s%"NOTE"] = [] ∨ f.status.key ∈ [s%"NOTE"]) := by
  have h : reportRows [s%"NOTE"]
      [⟨some s%"/b", [], .note, []⟩, ⟨some s%"/c", [], .ok, []⟩, ⟨some s%"/a", [], .note, []⟩] =
      .ok [⟨some s%"/a", [], .note, []⟩, ⟨some s%"/b", [], .note, []⟩] := by decide
  exact (List.Perm.swap ..).trans (reportRows_perm h)

example := reportRows_sorted (sel := [s%"NOTE"])
  (fs := [⟨some s%"/b", [], .note, []⟩, ⟨some s%"/c", [], .ok, []⟩, ⟨some s%"/a", [], .note, []⟩])
  (rows := [⟨some s%"/a", [], .note, []⟩, ⟨some s%"/b", [], .note, []⟩]) (by decide)

example := reportRows_stable (sel := [])
  (fs := [⟨some s%"/b", s%"1", .note, []⟩, ⟨some s%"/a", [], .ok, []⟩, ⟨some s%"/b", s%"2", .note, []⟩])
  (rows := [⟨some s%"/a", [], .ok, []⟩, ⟨some s%"/b", s%"1", .note, []⟩,
    ⟨some s%"/b", s%"2", .note, []⟩]) (by decide) (findingKey ⟨some s%"/b", [], .note, []⟩)

example := md5Preimage_injective (f := ⟨some s%"/a", s%"b", .ok, []⟩)
  (g := ⟨some s%"/a", s%"b", .note, s%"c"⟩) (x := s%"/a\nb") rfl rfl (by decide) (by decide)

/-! ## catalogues -/

theorem sampleFile_wellNamed : WellNamedFile sampleFile := by
  simp [WellNamedFile, sampleFile, WellNamedKids, WellNamed, Kids.toList]

example := catalog_visits sampleFile_ok
example := catalog_once_containers_first sampleFile_ok
example := catalog_addresses_nodup_partial sampleFile_ok sampleFile_wellNamed
example := catalog_addresses_complete sampleFile_ok sampleFile_wellNamed
  (it := (catalog sampleEnv sampleFile).log[5]) (List.getElem_mem _) (a := s%"/entry/title") (by rfl)
example := catalog_contained sampleFile_ok _
  (List.getElem_mem (l := (catalog sampleEnv sampleFile).log) (n := 8) (by decide +kernel))
example := catalog_parent_partial sampleFile_ok
  (it := (catalog sampleEnv sampleFile).log[8]) (List.getElem_mem _) rfl
example : FileReadable sampleEnv sampleFile :=
  (catalog_completes_iff sampleFile_wellNamed).1 sampleFile_ok

/-! ## stores -/

theorem sharedStore_fine : ¬ CycleBelow sharedStore 0 ∧ ¬ BrokenBelow sharedStore 0 :=
  (walk_finishes_iff _ _).1 ⟨4, [[], [0], [0, 0], [1], [1, 0]], by decide⟩

example := walk_limit sharedStore_fine.1 sharedStore_fine.2
example := fun n => walk_cycle (g := cyclicStore) (v := 0)
  ⟨[], 0, [0, 0], .nil, by simp,
    .cons (ms := [some 1, some 2]) rfl rfl (.cons (ms := [some 0]) rfl rfl .nil)⟩
  (follows_members (by simp [cyclicStore]) 0) n
example := walk_visits (g := sharedStore) (n := 4) (v := 0) (l := [[], [0], [0, 0], [1], [1, 0]])
  (by decide)

/-- A file with two links to one group. -/
def sharedFile : H5File where
  attrs := []
  kids := .cons s%"a" .hard (.group s%"/a" [] (.cons s%"x" .hard (.datatype s%"/a/x" []) .nil))
    (.cons s%"b" .hard (.group s%"/b" [] (.cons s%"x" .hard (.datatype s%"/b/x" []) .nil)) .nil)

example : objectPositions ((catalog sampleEnv sharedFile).log.map Item.visit) =
    ([[], [0], [0, 0], [1], [1, 0]] : List (List Nat)).map position :=
  catalog_is_walk (g := sharedStore) (v := 0) (n := 4) (nm := s%"/")
    (by simp [Unfolds, UnfoldsKids, Store.at, sharedStore, sharedFile]) (by decide) (by rfl)

example : walk sharedStore 4 0 = .ok [[], [0], [0, 0], [1], [1, 0]] →
    Intact (.group s%"/" [] sharedFile.kids) :=
  fun h => (walk_of_tree (g := sharedStore) (v := 0)
    (by simp [Unfolds, UnfoldsKids, Store.at, sharedStore, sharedFile])).1 ⟨4, _, h⟩

/-! ## tree reports of stores -/

theorem targetedLoop_named : NamedLinks targetedLoop := by
  intro v t links h l hl
  match v, h with
  | 0, h => cases h; simp at hl; subst hl; simp
  | 1, h => cases h; simp at hl; rcases hl with rfl | rfl <;> simp
  | v + 2, h => cases h

theorem targetedLoop_shown : treeWalk targetedLoop 3 s%"/" 0 = .ok [s%"/", s%"/a"] := by
  decide +kernel

theorem targetedLoop_free : ∀ s, Relation.ReflTransGen (Shows targetedLoop) (s%"/", 0) s →
    ¬ FreeCycle targetedLoop s.2 :=
  (tree_finishes_iff targetedLoop_named).1 ⟨3, _, targetedLoop_shown⟩

example := tree_limit targetedLoop_named targetedLoop_free
example := treeWalk_ok targetedLoop_shown
example := treeWalk_error (freeLoop_never 1000)

/-! ## files opened -/

example := one_file_at_a_time sampleEnv sampleMgr
  (calls := [(twoFiles, .validate s%"a.h5"), (twoFiles, .validate s%"b.h5")])
  (o := some (s%"b.h5", emptyFile))
  (OpenAfter.call (l := [(twoFiles, .validate s%"a.h5")]) (.file (by rfl)))

end Punx

import Verif.Cases.Groups
import Verif.Props.History
import Verif.Props.Addressed
import Verif.Props.Utils

/-!
# Cases for C27–C37
-/

namespace Punx
open Spec

/-! ## default plots -/

/-- the verdict of a run is its last finding -/
theorem plot_finding {l : List Eff} {t : Str} {s : Status} {c : Str}
    (h : lastVerdict l = some (t, s, c)) :
    ∃ x ∈ findings l, x.test = t ∧ x.status = s ∧ x.comment = c := by
  unfold lastVerdict at h
  obtain ⟨x, hx, e⟩ := Option.map_eq_some_iff.1 h
  injection e with e1 e2
  injection e2 with e2 e3
  exact ⟨x, List.mem_of_getLast? hx, e1, e2, e3⟩

theorem niac_plot : AttributePlot sampleEnv niacFile (catalog sampleEnv niacFile).log s%"/e/d@signal" := by
  obtain ⟨x, hx, ht, _, hc⟩ := plot_finding
    (l := (validateOpen sampleEnv sampleMgr [] niacFile).log) (t := s%"NeXus default plot")
    (s := .ok) (c := s%"found by v3: /e/d@signal") (by rfl)
  exact (found_by_v3 niacFile_ok hx ht).1 hc

example := default_plot_once niacFile_ok
example := attribute_plot_exists niac_plot
example := v3_exact (env := sampleEnv) (mgr := sampleMgr) (mins := []) (f := niacFile)
  (r := some s%"/e/d@signal") (by rfl)
example := v2_exact (env := sampleEnv) (mgr := sampleMgr) (mins := []) (f := markedFile)
  (validateOpen_ok_iff.1 markedFile_ok).1 (r := some s%"/e/d/x") (by rfl)
example := signalPlot_iff (validateOpen_ok_iff.1 markedFile_ok).1

/-! ## several files -/

theorem sampleMgr_nodup : EntryGroupsNodup sampleMgr := by
  intro d hd
  cases hd
  decide

/-- `/` with one NXentry is validated, then a file without. -/
abbrev caseCalls : List ((Str → FileState) × Call) := [(twoFiles, .validate s%"a.h5")]

example := repeatable_iff (m' := [((s%"NXentry", s%"data"), 1)]) nameFile_ok sampleMgr_nodup
example := repeatable_history_iff sampleMgr_nodup caseCalls
  (env := sampleEnv) (f := emptyFile) (by rfl)

theorem nameFile_entry : HasClass sampleEnv (groupItems sampleEnv nameFile) s%"NXentry" := by
  refine ⟨(groupItems sampleEnv nameFile)[1]'(by decide +kernel), List.getElem_mem _, _, rfl, ?_,
    .inr ⟨?_, rfl⟩⟩ <;> decide +kernel

example := repeatable_with_entry sampleMgr_nodup caseCalls nameFile_entry

/-- As the samples, but an NXentry must have data. -/
def strictMgr : Manager where
  classes := Dict.set sampleMgr.classes s%"NXentry"
    (baseClass s%"NXentry" [] [(s%"data", .mk [(s%"minOccurs", .raw s%"1")] [] [] [])] []).2
  itemPats := sampleMgr.itemPats
  classPats := sampleMgr.classPats
  fieldMinOccursIsOne := some true

example := fun f => repeatable_when_required (env := sampleEnv) (mgr := strictMgr)
  (by intro d hd; cases hd; decide)
  (by
    rintro d spec n hd hs h
    cases hd
    cases hs
    rcases h with ⟨h, _⟩ | ⟨s, h, hn⟩
    · cases h
    · cases h
      cases hn
      decide)
  caseCalls f

example := history_stored (env := sampleEnv) (mgr := sampleMgr) (calls := caseCalls)
  (c := s%"NXentry") (g := s%"data") (n := 0) (by rfl) (d := entryDef) entryDef_known
  (spec := default) (by rfl) (by decide)

example := findings_named_partial sampleEnv sampleMgr caseCalls [(twoFiles, .close)] twoFiles
  s%"b.h5" emptyFile (by rfl) (by simp [Finds])
example := findings_of_last_opened sampleEnv sampleMgr caseCalls
example := fname_of_last_found sampleEnv sampleMgr caseCalls

/-! ## addresses and records -/

example : ∃ a, (∃ it ∈ (catalog sampleEnv groupFile).log, it.addr = some a) ∨ a = s%"" := by
  obtain ⟨x, hx, ht, _⟩ := mine_found
  obtain ⟨a, _, h | ⟨h, _⟩⟩ := findings_addressed sampleEnv sampleMgr [] groupFile hx
  · exact ⟨a, .inl h⟩
  · exact ⟨[], .inr rfl⟩

example := itemRecord_keeps_partial (oid := (itemAt nameFile 5 (by decide +kernel)).oid)
  (effs := (validateOpen sampleEnv sampleMgr [] nameFile).log) (k := s%"validItemName")
  (x := ⟨some s%"/e/X1", s%"validItemName", .note, s%"relaxed pattern: [A-Za-z_][\\w_]*"⟩) (by rfl)

/-- `/e/other` -/
abbrev plainNode : Node := .group s%"/e/other" [(s%"note", .int 3)]
  (.cons s%"x" .hard (.dataset s%"/e/other/x" [] (.ofVal (.int 1))) .nil)

theorem other_found : ∃ x ∈ findings (validateOpen sampleEnv sampleMgr [] plainGroupFile).log,
    x.addr = some s%"/e/other" := by decide +kernel

example : ∃ x ∈ findings (validateOpen sampleEnv sampleMgr [] plainGroupFile).log,
    x.addr ≠ some s%"/e/other@note" := by
  obtain ⟨x, hx, ha⟩ := other_found
  have h := nonNexus_findings plainGroupFile_ok plainGroupFile_named
    (it := itemAt plainGroupFile 3 (by decide +kernel)) itemAt_mem (by rfl)
    (n := plainNode) (by rfl) hx ha
  exact ⟨x, hx, nonNexus_attributes_silent (validateOpen_ok_iff.1 plainGroupFile_ok).1
    plainGroupFile_named (it := itemAt plainGroupFile 3 (by decide +kernel)) itemAt_mem (by rfl)
    (n := plainNode) (by rfl) s%"note" hx⟩

/-! ## texts -/

example := decode_unchanged sampleEnv (v := .list [s%"a"]) (by simp [NotStrings])
example := decode_idempotent sampleEnv (v := .arrO [s%"a", s%"b"]) (r := .list [s%"a", s%"b"]) (by rfl)
example := decode_fails_iff sampleEnv (.arrS [[200]]) .unicodeDecodeError
example := decode_encoded { sampleEnv with dec := utf8Codec } utf8Codec_isUtf8 [s%"µm", s%"x"]
example := stringListToHdf5_injective (xs := [s%"µm"]) (ys := [s%"µm"]) rfl
example := isNeXusFile_spec sampleEnv

end Punx

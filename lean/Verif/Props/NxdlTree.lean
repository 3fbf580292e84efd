import Verif.Model.Main
import Verif.Spec.NxdlTree
import Verif.Props.Argparse4
import Verif.Props.Cli2

/-!
# C124: `punx tree` of an NXDL file

What is printed, from the arguments and the caches to the lines, and how the run ends.
-/

namespace Punx

open Spec

private theorem determineCategory_ok {st : XmlState} {p : Str} :
    determineCategory st = .ok p ↔ ∃ c, st = .doc (some c) ∧ CategoryDirectory c p := by
  rw [category_iff]
  simp [CategoryDirectory]

private theorem view_category {st : XmlState} {p : Str} :
    nxdlTreeView st = .ok (some p) ↔ ∃ c, st = .doc (some c) ∧ CategoryDirectory c p := by
  rw [← determineCategory_ok]
  cases st with
  | missing => simp [nxdlTreeView, determineCategory]
  | broken => simp [nxdlTreeView, determineCategory]
  | doc c =>
    simp only [nxdlTreeView]
    cases determineCategory (.doc c) <;> simp

private theorem sheet_eq (path dir : Str) :
    styleSheet path dir = path ++ '/' :: dir ++ '/' :: s%"nxdlformat.xsl" := by
  simp [styleSheet]

/-- A command is understood only if there is a default set: the latest one. -/
theorem latest_of_command {t : Texts} {source user : CacheDir} {args : List Str} {cmd : Command}
    (h : mainCommand t source user args = .ok cmd) :
    ∃ sets k s, allFileSets source user = .ok sets ∧ Latest sets k s ∧
      selectFileSet sets none = .ok s := by
  unfold mainCommand at h
  cases hr : defaultRef source user with
  | error e => rw [hr] at h; cases h
  | ok ref =>
    obtain ⟨sets, k, s, hs, hd, hk, hp, -⟩ := default_ref_iff.1 hr
    refine ⟨sets, k, s, hs, hk, ?_⟩
    have hm := mem_of_latest hk
    have hne : sets ≠ [] := List.ne_nil_of_mem hm
    obtain ⟨k', s', hl, hc⟩ := choose_latest ((comparable_iff hne).2 hd) hne none (fun _ h => by cases h)
    obtain ⟨rfl, rfl⟩ := latest_unique hl hk
    have hpr : s'.printable = true := by
      simpa [FileSet.printable, Option.isSome_iff_ne_none] using hp
    unfold selectFileSet
    rw [hc]
    simp only [Dict.get?_of_mem (allFileSets_nodup hs) hm, if_pos hpr]

variable {M : Machine} {x : Moment} {d : Disk} {args : List Str} {infile : Str} {a : Bool} {n : Int}

/-- The run, if the set `s` is the latest one. -/
private theorem tree_run (hm : mainCommand M.texts M.source (M.user d) args = .ok (.tree infile a n))
    (he : s%".nxdl.xml" <:+ infile) :
    ∃ sets k s, allFileSets M.source (M.user d) = .ok sets ∧ Latest sets k s ∧
      runMain M x d args = (showActs (match nxdlTreeView (x.xml (M.abspath infile)) with
        | .error _ => exitMessage
        | .ok category =>
          match nxdlTreeReport s.path x.fileExists x.xslt (M.abspath infile) category with
          | .error e => W.fail e
          | .ok ls => W.tell (.tree ls)), d) := by
  obtain ⟨sets, k, s, hs, hk, hsel⟩ := latest_of_command hm
  refine ⟨sets, k, s, hs, hk, ?_⟩
  have hp : M.defaultPath d = s.path := by
    unfold Machine.defaultPath
    rw [hs]
    simp only [hsel]
  unfold runMain
  rw [hm]
  simp only [funcTree, hp]
  rw [if_pos (by simpa [endsWith] using he)]
  rfl

/-- **C124**: `punx tree` of an NXDL file prints exactly this: the name of the file, the name of the
style sheet for its category in the latest file set, and what the style sheet makes of the file. -/
theorem nxdl_tree_prints_iff
    (hm : mainCommand M.texts M.source (M.user d) args = .ok (.tree infile a n))
    (he : s%".nxdl.xml" <:+ infile) (ls : List Str) :
    Shown.act (.tree ls) ∈ (runMain M x d args).1.log ↔
      ∃ sets k s c dir text, allFileSets M.source (M.user d) = .ok sets ∧ Latest sets k s ∧
        x.xml (M.abspath infile) = .doc (some c) ∧ CategoryDirectory c dir ∧
        x.fileExists (styleSheet s.path dir) = true ∧
        x.xslt (styleSheet s.path dir) (M.abspath infile) = .ok (some text) ∧
        ls = (s%"file: " ++ M.abspath infile) :: (s%"XSLT: " ++ styleSheet s.path dir) :: text := by
  obtain ⟨sets, k, s, hs, hk, hr⟩ := tree_run (x := x) hm he
  have key : Shown.act (.tree ls) ∈ (runMain M x d args).1.log ↔
      ∃ c dir text, x.xml (M.abspath infile) = .doc (some c) ∧ CategoryDirectory c dir ∧
        x.fileExists (styleSheet s.path dir) = true ∧
        x.xslt (styleSheet s.path dir) (M.abspath infile) = .ok (some text) ∧
        ls = (s%"file: " ++ M.abspath infile) :: (s%"XSLT: " ++ styleSheet s.path dir) :: text := by
    rw [hr]
    constructor
    · intro h
      rcases hv : nxdlTreeView (x.xml (M.abspath infile)) with e | _ | p
      · rw [hv] at h
        simp [showActs, exitMessage, W.fail] at h
      · rw [hv] at h
        simp [showActs, nxdlTreeReport, W.fail] at h
      · obtain ⟨c, hx, hc⟩ := (view_category (st := x.xml (M.abspath infile))).1 hv
        rw [hv] at h
        simp only [nxdlTreeReport, ← sheet_eq] at h
        cases hf : x.fileExists (styleSheet s.path p) with
        | false =>
          rw [hf] at h
          simp [showActs, W.fail] at h
        | true =>
          rcases ht : x.xslt (styleSheet s.path p) (M.abspath infile) with e | _ | text
          · rw [hf, ht] at h
            simp [showActs, W.fail] at h
          · rw [hf, ht] at h
            simp [showActs, W.fail] at h
          · rw [hf, ht] at h
            simp only [Bool.not_true, Bool.false_eq_true, if_false, showActs, W.tell, List.map_cons,
              List.map_nil, List.mem_singleton, Shown.act.injEq, Act.tree.injEq] at h
            exact ⟨c, p, text, hx, hc, hf, ht, h⟩
    · rintro ⟨c, dir, text, hx, hc, hf, ht, rfl⟩
      rw [view_category.2 ⟨c, hx, hc⟩]
      simp only [nxdlTreeReport, ← sheet_eq, hf, ht]
      simp [showActs, W.tell]
  rw [key]
  constructor
  · rintro ⟨c, dir, text, h⟩
    exact ⟨sets, k, s, c, dir, text, hs, hk, h⟩
  · rintro ⟨sets', k', s', c, dir, text, hs', hk', h⟩
    rw [hs] at hs'
    cases hs'
    obtain ⟨rfl, rfl⟩ := latest_unique hk hk'
    exact ⟨c, dir, text, h⟩

/-- **C124**: a file that is no XML, or has none of the three categories, is refused with a message and
status 1; nothing is printed. -/
theorem nxdl_tree_refused
    (hm : mainCommand M.texts M.source (M.user d) args = .ok (.tree infile a n))
    (he : s%".nxdl.xml" <:+ infile)
    (h : x.xml (M.abspath infile) = .broken ∨
      ∃ c, x.xml (M.abspath infile) = .doc c ∧ ∀ c', c = some c' → ¬ ∃ dir, CategoryDirectory c' dir) :
    runMain M x d args = (W.fail (.systemExit 1), d) := by
  obtain ⟨sets, k, s, hs, hk, hr⟩ := tree_run (x := x) hm he
  rw [hr]
  have : ∃ e, nxdlTreeView (x.xml (M.abspath infile)) = .error e := by
    rcases h with h | ⟨c, h, hc⟩
    · exact ⟨_, by rw [h]; rfl⟩
    · rw [h]
      simp only [nxdlTreeView]
      cases hd : determineCategory (.doc c) with
      | error e => exact ⟨e, rfl⟩
      | ok p =>
        obtain ⟨c', h', hp⟩ := determineCategory_ok.1 hd
        cases h'
        exact absurd ⟨p, hp⟩ (hc c' rfl)
  obtain ⟨e, this⟩ := this
  rw [this]
  simp [showActs, exitMessage, W.fail]

/-- **C124**: if the latest set has no style sheet for the category, the run ends with a `ValueError`
that is not caught; also if another set has one. -/
theorem nxdl_tree_no_sheet {sets : Dict Str FileSet} {k : Str} {s : FileSet} {c dir : Str}
    (hm : mainCommand M.texts M.source (M.user d) args = .ok (.tree infile a n))
    (he : s%".nxdl.xml" <:+ infile) (hs : allFileSets M.source (M.user d) = .ok sets)
    (hk : Latest sets k s) (hx : x.xml (M.abspath infile) = .doc (some c)) (hc : CategoryDirectory c dir)
    (hf : x.fileExists (styleSheet s.path dir) = false) :
    runMain M x d args = (W.fail .valueError, d) := by
  obtain ⟨sets', k', s', hs', hk', hr⟩ := tree_run (x := x) hm he
  rw [hs] at hs'
  cases hs'
  obtain ⟨rfl, rfl⟩ := latest_unique hk hk'
  rw [hr, view_category.2 ⟨c, hx, hc⟩]
  simp only [nxdlTreeReport, ← sheet_eq, hf]
  simp [showActs, W.fail]

end Punx

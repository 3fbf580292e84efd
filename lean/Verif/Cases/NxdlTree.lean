import Verif.Props.NxdlTree
import Verif.Cases.Session

/-!
# C124: the tree of an NXDL file
-/

namespace Punx
open Spec

/-- A machine with two sets; both are in the source directory. -/
def nxdlMachine : Machine :=
  { exMachine with source := argSets.source, userPath := argSets.user.path, ls := fun _ => argSets.user.listing }

/-- There is the NXDL file of a base class, and a style sheet for base classes in each set. -/
def nxdlMoment : Moment :=
  { onlineMoment with
    xml := fun f => if f = s%"/w/NXa.nxdl.xml" then .doc (some s%"base") else .broken
    fileExists := fun f => s%"/base_classes/nxdlformat.xsl" <:+ f
    xslt := fun sheet f => .ok (some [sheet, f]) }

theorem nxdl_line : mainCommand exTexts nxdlMachine.source (nxdlMachine.user argSets.user.disk)
    [s%"tree", s%"/w/NXa.nxdl.xml"] = .ok (.tree s%"/w/NXa.nxdl.xml" true 5) := by rfl

/-- The lines: the sheet of the newer set is used. -/
def nxdlLines : List Str :=
  [s%"file: /w/NXa.nxdl.xml", s%"XSLT: /x/punx/cache/v2/base_classes/nxdlformat.xsl",
    s%"/x/punx/cache/v2/base_classes/nxdlformat.xsl", s%"/w/NXa.nxdl.xml"]

theorem nxdl_listed : ∃ sets s, allFileSets nxdlMachine.source (nxdlMachine.user argSets.user.disk) = .ok sets ∧
    Latest sets s%"v2" s ∧ s.path = s%"/x/punx/cache/v2" := by
  refine ⟨_, _, rfl, ⟨[_], [], rfl, ?_, by simp⟩, rfl⟩
  unfold Earlier
  decide

example : Shown.act (.tree nxdlLines) ∈
    (runMain nxdlMachine nxdlMoment argSets.user.disk [s%"tree", s%"/w/NXa.nxdl.xml"]).1.log := by
  rw [nxdl_tree_prints_iff (M := nxdlMachine) nxdl_line (by decide)]
  obtain ⟨sets, s, hs, hk, hp⟩ := nxdl_listed
  refine ⟨sets, s%"v2", s, s%"base", s%"base_classes", _, hs, hk, rfl, Or.inr (Or.inl ⟨rfl, rfl⟩), ?_, rfl, ?_⟩
  · rw [hp]
    decide +kernel
  · rw [hp]
    rfl

/-- Other files are refused. -/
example : runMain nxdlMachine nxdlMoment argSets.user.disk [s%"tree", s%"b.nxdl.xml"] =
    (W.fail (.systemExit 1), argSets.user.disk) :=
  nxdl_tree_refused (M := nxdlMachine) (infile := s%"b.nxdl.xml") (a := true) (n := 5) rfl (by decide)
    (Or.inl rfl)

/-- Only the older set has the style sheets. -/
example : runMain nxdlMachine { nxdlMoment with fileExists := fun f => !(s%"/x/punx/cache/v2/" <+: f) }
    argSets.user.disk [s%"tree", s%"/w/NXa.nxdl.xml"] = (W.fail .valueError, argSets.user.disk) := by
  obtain ⟨sets, s, hs, hk, hp⟩ := nxdl_listed
  exact nxdl_tree_no_sheet (M := nxdlMachine) nxdl_line (by decide) hs hk rfl (Or.inr (Or.inl ⟨rfl, rfl⟩))
    (by rw [hp]; decide +kernel)

end Punx

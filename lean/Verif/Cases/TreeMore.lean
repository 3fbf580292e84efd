import Verif.Props.TreeMore
import Verif.Cases.TreeAlone

/-!
# C156 applied to a file
-/

namespace Punx
open Spec

/-- The file with two entries without one of them, without content of the other and without the
attribute of the root. -/
def smallFile : H5File where
  attrs := []
  kids := .cons s%"a" .hard (.group s%"/a" [(s%"NX_class", .str s%"NXentry")] .nil) .nil

theorem twoEntry_more : HasMoreKids smallFile.kids twoEntryFile.kids :=
  .extra (.cons (.group ⟨List.Sublist.refl _, rfl, rfl⟩ (.extra .nil)) .nil)

/-- `tree_more` -/
example : ∃ ts, treeReport sampleEnv 5 true s%"f" (.hdf5 smallFile) = .ok (some ts) ∧
    ts.Sublist [s%"f : NeXus data file", s%"  @creator = \"me\"",
      s%"  a:NXentry", s%"    @NX_class = \"NXentry\"", s%"    x:NX_INT64[] = ",
      s%"  b:NXentry", s%"    @NX_class = \"NXentry\"", s%"    x:NX_INT64[] = "] :=
  tree_more (f := smallFile) (f' := twoEntryFile) (nexus := true) ⟨List.nil_sublist _, rfl, rfl⟩ twoEntry_more
    ⟨[], _, _, _, rfl, ⟨_, _, _, _, rfl, rfl, .inl (.inl rfl)⟩, nofun⟩
    ⟨[], _, _, _, rfl, someEntry_group _, nofun⟩ twoEntry_report

example : treeReport sampleEnv 5 true s%"f" (.hdf5 smallFile) =
    .ok (some [s%"f : NeXus data file", s%"  a:NXentry", s%"    @NX_class = \"NXentry\""]) := by rfl

/-- **C156**: an additional entry makes a file a NeXus file and changes other lines, so that the
condition on both files is needed. -/
theorem tree_more_nexus : ∃ (env : Env) (f f' : H5File) (ts ts' : List Str),
    MoreAttrs f.attrs f'.attrs ∧ HasMoreKids f.kids f'.kids ∧
    treeReport env 5 true s%"f" (.hdf5 f) = .ok (some ts) ∧
    treeReport env 5 true s%"f" (.hdf5 f') = .ok (some ts') ∧ ¬ ts.Sublist ts' := by
  refine ⟨sampleEnv, ⟨[], .nil⟩, ⟨[], .cons s%"e" .hard (.group s%"/e" [(s%"NX_class", .str s%"NXentry")] .nil) .nil⟩,
    [s%"f"], [s%"f : NeXus data file", s%"  e:NXentry", s%"    @NX_class = \"NXentry\""],
    ⟨List.Sublist.refl _, rfl, rfl⟩, .extra .nil, by rfl, by rfl, ?_⟩
  rw [List.singleton_sublist]
  simp

end Punx

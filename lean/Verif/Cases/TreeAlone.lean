import Verif.Props.TreeAlone
import Verif.Cases.Agree

/-!
# C154 applied to a file
-/

namespace Punx
open Spec

/-- A group that is an entry. -/
def someEntry (name : Str) : Node := .group name [(s%"NX_class", .str s%"NXentry")]
  (.cons s%"x" .hard (.dataset (name ++ s%"/x") [] (.ofVal (.int 1))) .nil)

/-- A file with two entries. -/
def twoEntryFile : H5File where
  attrs := [(s%"creator", .str s%"me")]
  kids := .cons s%"b" .hard (someEntry s%"/b") (.cons s%"a" .hard (someEntry s%"/a") .nil)

theorem someEntry_group (name : Str) : GroupOf sampleEnv s%"NXentry" (someEntry name) :=
  ⟨_, _, _, _, rfl, rfl, .inl (.inl rfl)⟩

theorem twoEntry_report : treeReport sampleEnv 5 true s%"f" (.hdf5 twoEntryFile) = .ok (some
    [s%"f : NeXus data file", s%"  @creator = \"me\"",
      s%"  a:NXentry", s%"    @NX_class = \"NXentry\"", s%"    x:NX_INT64[] = ",
      s%"  b:NXentry", s%"    @NX_class = \"NXentry\"", s%"    x:NX_INT64[] = "]) := by rfl

/-- `tree_entry_alone`, `tree_member_alone` -/
example : ∃ head pre part post,
    [s%"f : NeXus data file", s%"  @creator = \"me\"",
      s%"  a:NXentry", s%"    @NX_class = \"NXentry\"", s%"    x:NX_INT64[] = ",
      s%"  b:NXentry", s%"    @NX_class = \"NXentry\"", s%"    x:NX_INT64[] = "] =
      head ++ (pre ++ part ++ post) ∧ head.length = 2 ∧
    treeReport sampleEnv 5 true s%"f" (.hdf5 ⟨twoEntryFile.attrs, onlyLink s%"a" .hard (some (someEntry s%"/a"))⟩) =
      .ok (some (head ++ part)) :=
  tree_entry_alone (f := twoEntryFile) (.cons .here) (someEntry_group _)
    ⟨[], _, _, _, rfl, someEntry_group _, nofun⟩ twoEntry_report

/-- **C154** (violated): in a NeXus file a dataset beside the entry is shown with another type than
in the file that has only this dataset. -/
theorem tree_member_fails : ¬ ∀ (env : Env) (shown : Int) (sa : Bool) (fname : Str) (f : H5File)
    (l : Str) (k : LinkKind) (o : Option Node) (ts ts' : List Str), LinkedFrom l k o f.kids →
    treeReport env shown sa fname (.hdf5 f) = .ok (some ts) →
    treeReport env shown sa fname (.hdf5 ⟨f.attrs, onlyLink l k o⟩) = .ok (some ts') →
    ∀ t ∈ ts'.drop (1 + f.attrs.length), t ∈ ts := by
  intro h
  have := h sampleEnv 5 true s%"f"
    ⟨[], .cons s%"e" .hard (.group s%"/e" [(s%"NX_class", .str s%"NXentry")] .nil)
      (.cons s%"x" .hard (.dataset s%"/x" [] (.ofVal (.int 1))) .nil)⟩ s%"x" .hard
    (some (.dataset s%"/x" [] (.ofVal (.int 1))))
    [s%"f : NeXus data file", s%"  x:NX_INT64[] = ", s%"  e:NXentry", s%"    @NX_class = \"NXentry\""]
    [s%"f", s%"  x:int64[] = "] (.cons .here) (by rfl) (by rfl) (s%"  x:int64[] = ") (by simp)
  simp at this

end Punx

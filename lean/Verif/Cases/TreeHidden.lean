import Verif.Props.TreeHidden
import Verif.Cases.Agree

/-!
# C153 applied to files
-/

namespace Punx
open Spec

/-- A file with an entry, a link with the attribute `target`, and a soft link. -/
def behindFile (n : Node) (soft : Kids → Kids) : H5File where
  attrs := []
  kids := .cons s%"e" .hard (.group s%"/e" [(s%"NX_class", .str s%"NXentry")]
    (.cons s%"l" .hard n (soft .nil))) .nil

/-- The link leads to a group with content, the soft link to a dataset. -/
def behindOne : H5File := behindFile
  (.group s%"/e/l" [(s%"target", .str s%"/e/x")] (.cons s%"y" .hard (.group s%"/e/l/y" [] .nil) .nil))
  (.cons s%"s" (.soft s%"/e/z") (.dataset s%"/e/s" [] (.ofVal (.int 1))))

/-- The link leads to a dataset, the soft link is broken. -/
def behindOther : H5File := behindFile
  (.dataset s%"/e/l" [(s%"units", .str s%"m"), (s%"target", .str s%"/e/x")] (.ofVal (.int 2)))
  (.broken s%"s" (.soft s%"/e/z"))

theorem behind_alike : ShownAlikeKids sampleEnv behindOne.kids behindOther.kids :=
  .shown (.group (.shown (.linked rfl rfl ⟨_, rfl, by simp [TextOf, Node.name], by simp [TextOf]⟩)
    (.gone (by rintro (h | ⟨_, _, h⟩) <;> cases h) .nil))) .nil

theorem behind_told (n : Node) (soft : Kids → Kids) : ToldNexus sampleEnv (behindFile n soft) true := by
  refine ⟨[], s%"e", _, [], rfl, ?_, nofun⟩
  exact ⟨_, _, _, _, rfl, rfl, .inl (.inl rfl)⟩

/-- `tree_hidden_partial` -/
example (shown : Int) (sa : Bool) : treeReport sampleEnv shown sa s%"f" (.hdf5 behindOne) =
    treeReport sampleEnv shown sa s%"f" (.hdf5 behindOther) :=
  tree_hidden_partial rfl behind_alike (behind_told _ _) (behind_told _ _)

example : (treeReport sampleEnv 5 false s%"f" (.hdf5 behindOther)).toOption.join =
    some [s%"f : NeXus data file", s%"  e:NXentry", s%"    l --> /e/x", s%"    s: --> /e/z"] := by rfl

/-- **C153** (violated): a soft link to an entry makes the file a NeXus file, although nothing
behind the link is shown. -/
theorem tree_hidden_fails : ¬ ∀ (env : Env) (shown : Int) (sa : Bool) (fname : Str) (f f' : H5File),
    f.attrs = f'.attrs → ShownAlikeKids env f.kids f'.kids →
    treeReport env shown sa fname (.hdf5 f) = treeReport env shown sa fname (.hdf5 f') := by
  intro h
  have := h sampleEnv 5 true s%"f"
    ⟨[], .cons s%"s" (.soft s%"/x") (.group s%"/s" [(s%"NX_class", .str s%"NXentry")] .nil) .nil⟩
    ⟨[], .broken s%"s" (.soft s%"/x") .nil⟩ rfl (.gone (by rintro (h | ⟨_, _, h⟩) <;> cases h) .nil)
  have e : treeReport sampleEnv 5 true s%"f" (.hdf5 ⟨[], .broken s%"s" (.soft s%"/x") .nil⟩) =
      .ok (some [s%"f", s%"  s: --> /x"]) := by rfl
  have e' : treeReport sampleEnv 5 true s%"f" (.hdf5
      ⟨[], .cons s%"s" (.soft s%"/x") (.group s%"/s" [(s%"NX_class", .str s%"NXentry")] .nil) .nil⟩) =
      .ok (some [s%"f : NeXus data file", s%"  s: --> /x"]) := by rfl
  rw [e, e'] at this
  simp at this

end Punx

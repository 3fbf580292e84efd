import Verif.Props.TreeStored
import Verif.Cases.Agree

/-!
# C151 applied to files
-/

namespace Punx
open Spec

/-- A file with an entry, with texts of variable length. -/
def treeTextFile : H5File where
  attrs := [(s%"creator", .str s%"x")]
  kids := .cons s%"e" .hard (.group s%"/e" [(s%"NX_class", .arrO [s%"NXentry"]),
    (s%"axes", .arrO [s%"a", s%"b"])] .nil) .nil

/-- The same with texts of fixed length. -/
def treeBytesFile : H5File where
  attrs := [(s%"creator", .bytes [120])]
  kids := .cons s%"e" .hard (.group s%"/e" [(s%"NX_class", .arrS [[78, 88, 101, 110, 116, 114, 121]]),
    (s%"axes", .arrS [[97], [98]])] .nil) .nil

theorem sampleEnv_ascii : ReadsAscii sampleEnv := fun _ _ h => h

theorem treeText_alike : TextsAlikeFile sampleEnv treeTextFile treeBytesFile where
  attrs := .cons ⟨rfl, .text (s := s%"x") (.inl rfl) (.inr ⟨_, rfl, rfl⟩), nofun⟩ .nil
  cls := nofun
  kids := .cons (.group (.cons ⟨rfl, .array (ss := [s%"NXentry"]) (.inl rfl) (.inr ⟨_, rfl, rfl⟩), nofun⟩
    (.cons ⟨rfl, .array (ss := [s%"a", s%"b"]) (.inl rfl) (.inr ⟨_, rfl, rfl⟩), nofun⟩ .nil))
    (by
      intro v hv
      cases hv
      rintro (h | ⟨b, h, -⟩) <;> cases h) .nil) .nil

/-- `tree_stored_partial` -/
example (shown : Int) (sa : Bool) (fname : Str) :
    treeReport sampleEnv shown sa fname (.hdf5 treeTextFile) =
      treeReport sampleEnv shown sa fname (.hdf5 treeBytesFile) :=
  tree_stored_partial sampleEnv_ascii treeText_alike

example : (treeReport sampleEnv 5 true s%"f" (.hdf5 treeBytesFile)).toOption.join =
    some [s%"f : NeXus data file", s%"  @creator = \"x\"", s%"  e:NXentry", s%"    @NX_class = [\"NXentry\"]",
      s%"    @axes = [\"a\", \"b\"]"] := by rfl

/-- **C151** (violated): an empty class ends the report if it is stored with fixed length. -/
theorem tree_stored_empty : ¬ ∀ (env : Env) (shown : Int) (sa : Bool) (fname : Str) (f f' : H5File),
    ReadsAscii env → StoredAlike env f f' →
    treeReport env shown sa fname (.hdf5 f) = treeReport env shown sa fname (.hdf5 f') := by
  intro h
  have := h sampleEnv 5 true s%"f"
    ⟨[], .cons s%"e" .hard (.group s%"/e" [(s%"NX_class", .str [])] .nil) .nil⟩
    ⟨[], .cons s%"e" .hard (.group s%"/e" [(s%"NX_class", .bytes [])] .nil) .nil⟩ sampleEnv_ascii
    ⟨.nil, .cons (.group (.cons ⟨rfl, .text (s := []) (.inl rfl) (.inr ⟨_, rfl, rfl⟩), nofun⟩ .nil) .nil) .nil⟩
  have e : treeReport sampleEnv 5 true s%"f"
      (.hdf5 ⟨[], .cons s%"e" .hard (.group s%"/e" [(s%"NX_class", .bytes [])] .nil) .nil⟩) =
      .error .typeError := by rfl
  rw [e] at this
  cases this

end Punx

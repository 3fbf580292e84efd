import Verif.Props.Extras3
import Verif.Cases.Expected

/-!
# C129 applied to files
-/

namespace Punx
open Spec

/-- A file with a default plot and the members `r`, `e`, `d` of its root, of the NXentry group and
of the NXdata group. -/
def extended (r e d : Kids) : H5File where
  attrs := [(s%"default", .str s%"e")]
  kids := .cons s%"e" .hard (.group s%"/e" [(s%"NX_class", .str s%"NXentry"), (s%"default", .str s%"d")]
    (.cons s%"d" .hard (.group s%"/e/d" [(s%"NX_class", .str s%"NXdata"), (s%"signal", .str s%"x")]
      (.cons s%"x" .hard (.dataset s%"/e/d/x" [] (.ofVal (.int 1))) d)) e)) r

/-- Objects called `raw`, `log` or `size`. -/
def spare (n : Node) : Bool :=
  baseName n.name == s%"raw" || baseName n.name == s%"log" || baseName n.name == s%"size"

/-- A field of the root, a field with notes in the data, and a group without a class that
contains a group with the class NXdata, whose signal does not exist. -/
def spareFile : H5File :=
  extended (.cons s%"size" .hard (.dataset s%"/size" [] (.ofVal (.int 3))) .nil)
    (.cons s%"log" .hard (.group s%"/e/log" [(s%"comment", .str s%"old")]
      (.cons s%"d2" .hard (.group s%"/e/log/d2"
        [(s%"NX_class", .str s%"NXdata"), (s%"signal", .str s%"nowhere")] .nil) .nil)) .nil)
    (.cons s%"raw" .hard (.dataset s%"/e/d/raw" [(s%"comment", .arrS [[200]])] (.ofVal (.int 2))) .nil)

theorem spareFile_wellNamed : WellNamedFile spareFile := by
  simp [WellNamedFile, spareFile, extended, WellNamedKids, WellNamed, Kids.toList]

theorem spareFile_trim : trim spare spareFile = extended .nil .nil .nil := by rfl

theorem strict_nameOk {mgr : Manager} {s : Str} (h : patMatch sampleEnv.word strictPat s = true) :
    NameOk sampleEnv mgr s :=
  .inl ((patMatch_strict s).1 h)

theorem spareFile_extras (mgr : Manager) : OnlyExtras sampleEnv mgr spare spareFile := by
  have h1 : NameOk sampleEnv mgr s%"size" := strict_nameOk (by decide +kernel)
  have h2 : NameOk sampleEnv mgr s%"raw" := strict_nameOk (by decide +kernel)
  have h3 : NameOk sampleEnv mgr s%"log" := strict_nameOk (by decide +kernel)
  have h4 : NameOk sampleEnv mgr s%"d2" := strict_nameOk (by decide +kernel)
  have h5 : NameOk sampleEnv mgr s%"comment" := strict_nameOk (by decide +kernel)
  have h6 : IsNote s%"comment" := ⟨by decide, by decide⟩
  refine ⟨⟨fun h => absurd h (by decide), ⟨fun h => absurd h (by decide),
    fun h => absurd h (by decide), fun _ => ?_, trivial⟩, ⟨fun _ => ?_,
    ⟨fun h => absurd h (by decide), trivial⟩, trivial⟩, trivial⟩, fun _ => ?_, trivial⟩
  · refine ⟨h2, by decide, fun ka hka => ?_⟩
    rw [List.mem_singleton] at hka
    subst hka
    exact ⟨h6, h5⟩
  · exact ⟨rfl, trivial, ⟨⟨h3, trivial⟩, ⟨⟨h4, trivial⟩, trivial⟩, trivial⟩, ⟨trivial, trivial⟩⟩
  · exact ⟨h1, by decide, fun ka hka => by cases hka⟩

theorem sampleMgr_noSlash (c : Str) (d : _) (h : Dict.get? sampleMgr.classes c = some d) :
    ¬ s%"/" <:+ c := by
  have key : ∀ e ∈ sampleMgr.classes, ¬ s%"/" <:+ e.1 := by decide
  have hm : ∀ l : Dict Str _, Dict.get? l c = some d → (c, d) ∈ l := by
    intro l
    induction l with
    | nil => intro h; cases h
    | cons e r ih =>
      intro h
      obtain ⟨k, x⟩ := e
      rw [Dict.get?] at h
      split at h
      · rename_i e
        cases h
        rw [← e]
        exact .head _
      · exact .tail _ (ih h)
  exact key _ (hm _ h)

/-- The hypotheses of C129 hold for the file. -/
theorem extras_case : (validateOpen sampleEnv sampleMgr [] spareFile).res = .ok () ∧
    ∀ x ∈ findings (validateOpen sampleEnv sampleMgr [] spareFile).log, x.status ≠ .error :=
  extras_accepted (X := spare) (by rfl) spareFile_wellNamed sampleMgr_entry sampleMgr_noSlash
    (spareFile_extras _) (by rfl) (by decide +kernel)

/-- The file without additional content is accepted; but not with a field called `definition`, with
a field with a wrong name, with a field whose `target` does not exist, or with a group that has a
NeXus class that is not defined. -/
theorem other_extras_reject :
    errorsOf (extended .nil .nil .nil) = [] ∧
    errorsOf (extended .nil (.cons s%"definition" .hard
      (.dataset s%"/e/definition" [] (.ofVal (.str s%"NXother"))) .nil) .nil) ≠ [] ∧
    errorsOf (extended .nil (.cons s%"1 x" .hard
      (.dataset s%"/e/1 x" [] (.ofVal (.int 2))) .nil) .nil) ≠ [] ∧
    errorsOf (extended .nil .nil (.cons s%"y" .hard
      (.dataset s%"/e/d/y" [(s%"target", .str s%"/nowhere")] (.ofVal (.int 2))) .nil)) ≠ [] ∧
    errorsOf (extended .nil (.cons s%"g" .hard
      (.group s%"/e/g" [(s%"NX_class", .str s%"NXnew")] .nil) .nil) .nil) ≠ [] := by
  refine ⟨?_, ?_, ?_, ?_, ?_⟩ <;> decide +kernel

end Punx

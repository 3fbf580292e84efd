import Verif.Props.Stored3
import Verif.Cases.Expected

/-!
# C126 applied to files
-/

namespace Punx
open Spec

/-- A file with a field that is marked with this attribute `signal`, the other texts as given. -/
def storedFile (default cls units title signal : Val) : H5File where
  attrs := [(s%"default", default)]
  kids := .cons s%"e" .hard (.group s%"/e" [(s%"NX_class", cls)]
    (.cons s%"title" .hard (.dataset s%"/e/title" [] (.ofVal title))
    (.cons s%"d" .hard (.group s%"/e/d" [(s%"NX_class", .str s%"NXdata")]
      (.cons s%"x" .hard (.dataset s%"/e/d/x" [(s%"signal", signal), (s%"units", units)]
        (.ofVal (.int 1))) .nil)) .nil))) .nil

/-- Texts of variable length. -/
def variableFile (signal : Val) : H5File :=
  storedFile (.str s%"e") (.str s%"NXentry") (.str s%"mm") (.arrO [s%"ab", s%"c"]) signal

/-- The same texts, with fixed length. -/
def fixedFile (signal : Val) : H5File :=
  storedFile (.bytes [101]) (.bytes [78, 88, 101, 110, 116, 114, 121]) (.bytes [109, 109])
    (.arrS [[97, 98], [99]]) signal

theorem variable_fixed (signal : Val) :
    StoredAlike sampleEnv (variableFile signal) (fixedFile signal) := by
  refine ⟨.cons ⟨rfl, .text (s := s%"e") (.inl rfl) (.inr ⟨_, rfl, by rfl⟩), False.elim⟩ .nil,
    .cons (.group (.cons ⟨rfl, .text (s := s%"NXentry") (.inl rfl) (.inr ⟨_, rfl, by rfl⟩),
      False.elim⟩ .nil) (.cons (.dataset .nil (.array (ss := [s%"ab", s%"c"]) (.inl rfl)
        (.inr ⟨_, rfl, by rfl⟩))) (.cons (.group (.cons ⟨rfl, .same _, False.elim⟩ .nil)
          (.cons (.dataset (.cons ⟨rfl, .same _, fun _ => rfl⟩ (.cons ⟨rfl, .text (s := s%"mm")
            (.inl rfl) (.inr ⟨_, rfl, by rfl⟩), ?_⟩ .nil)) (.same _)) .nil)) .nil))) .nil⟩
  rintro (h | h)
  · cases h
  · exact absurd h (by decide)

theorem variableFile_wellNamed (signal : Val) : WellNamedFile (variableFile signal) := by
  simp [WellNamedFile, variableFile, storedFile, WellNamedKids, WellNamed, Kids.toList]

/-- The hypotheses of C126 hold for these files. -/
theorem stored_case (l : Line) :
    l ∈ report (validateOpen sampleEnv sampleMgr [] (variableFile (.int 1))).log ↔
      l ∈ report (validateOpen sampleEnv sampleMgr [] (fixedFile (.int 1))).log :=
  stored_report_partial (variable_fixed _) (by rfl) (variableFile_wellNamed _) sampleMgr_entry (by rfl) l

/-- Python shows `bytes` with a `b` and quotes. -/
def quotingEnv : Env := { sampleEnv with
  str := fun v => match v with
    | .bytes b => s%"b'" ++ ((asciiDecode b).getD []) ++ s%"'"
    | _ => s%"?" }

/-- C126 does not hold for the attribute `signal` of a field: if "1" is stored with fixed length, the
file has no default plot.  The attribute is both right (as a value) and not 1 (as a mark). -/
theorem stored_signal_violated :
    TextOf quotingEnv (.str s%"1") s%"1" ∧ TextOf quotingEnv (.bytes [49]) s%"1" ∧
    (some s%"/", s%"NeXus default plot", Status.ok) ∈
      report (validateOpen quotingEnv sampleMgr [] (variableFile (.str s%"1"))).log ∧
    (some s%"/", s%"NeXus default plot", Status.ok) ∉
      report (validateOpen quotingEnv sampleMgr [] (variableFile (.bytes [49]))).log ∧
    (some s%"/e/d/x@signal", s%"attribute value", Status.ok) ∈
      report (validateOpen quotingEnv sampleMgr [] (variableFile (.bytes [49]))).log ∧
    (some s%"/e/d/x@signal", s%"NeXus default plot v2, @signal!=1", Status.warn) ∈
      report (validateOpen quotingEnv sampleMgr [] (variableFile (.bytes [49]))).log := by
  refine ⟨.inl rfl, .inr ⟨_, rfl, by rfl⟩, ?_, ?_, ?_, ?_⟩ <;> decide +kernel

end Punx

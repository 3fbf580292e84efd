import Verif.Props.Part5
import Verif.Cases.Command

/-!
# C113 applied to two files
-/

namespace Punx
open Spec

/-- The entry of `attrFile`. -/
def partEntry : Node := .group s%"/e" [(s%"NX_class", .str s%"NXentry")]
  (.cons s%"d" .hard (.group s%"/e/d"
      [(s%"NX_class", .str s%"NXdata"), (s%"axes", .arrO [s%"x", s%"q", s%"."]),
       (s%"signal", .str s%"x")]
      (.cons s%"x" .hard (.dataset s%"/e/d/x" [(s%"signal", .int 1),
        (s%"target", .str s%"/e/d/x"), (s%"units", .str s%"mm")] (.ofVal (.int 1)))
      (.cons s%"y" .hard (.dataset s%"/e/d/y" [(s%"signal", .int 2),
        (s%"target", .str s%"/e/q")] (.ofVal (.int 1))) .nil))) .nil)

/-- `attrFile` with another entry that has faults of its own, and an attribute of the root. -/
def moreFile : H5File where
  attrs := [(s%"default", .str s%"o")]
  kids := .cons s%"e" .hard partEntry
    (.cons s%"o" .hard (.group s%"/o" [(s%"NX_class", .str s%"NXentry")]
      (.cons s%"1x" .hard (.dataset s%"/o/1x" [(s%"signal", .int 1)] (.ofVal (.int 1))) .nil)) .nil)

theorem moreFile_wellNamed : WellNamedFile moreFile := by
  simp [WellNamedFile, moreFile, partEntry, WellNamedKids, WellNamed, Kids.toList]

theorem moreFile_ok : (validateOpen sampleEnv sampleMgr [] moreFile).res = .ok () := by rfl

theorem partEntry_attrFile : (s%"e", some partEntry) ∈ attrFile.kids.toList := List.mem_cons_self

theorem partEntry_moreFile : (s%"e", some partEntry) ∈ moreFile.kids.toList := List.mem_cons_self

/-- The texts in a value. -/
def textsIn : Val → Option (List Str)
  | .str s => some [s]
  | .arrO l => some l
  | .int _ => some []
  | _ => none

theorem texts_of {env : Env} {v : Val} {l : List Str} (h : textsIn v = some l) {s : Str}
    (hs : TextOf env v s ∨ ∃ names, AxesOf env v names ∧ s ∈ names) : s ∈ l := by
  have text : ∀ {s}, TextOf env v s → s ∈ l := by
    rintro s (rfl | ⟨b, rfl, _⟩)
    · rw [← Option.some.inj h]; exact List.mem_cons_self
    · cases h
  rcases hs with hs | ⟨names, hn, hs⟩
  · exact text hs
  · rcases hn with ⟨t, ht, rfl⟩ | ⟨_, rfl⟩ | ⟨bs, rfl, _⟩ | rfl | ⟨rfl, _⟩
    · rw [List.mem_singleton.1 hs]; exact text ht
    · rw [← Option.some.inj h]; exact hs
    · cases h
    · cases h
    · cases h

theorem noAbsolute_of {env : Env} {n : Node}
    (h : ∀ ka ∈ n.attrs, ∃ l, textsIn ka.2 = some l ∧
      (ka.1 ∈ [s%"signal", s%"axes", s%"default"] → ∀ s ∈ l, ¬ s%"/" <+: s)) : NoAbsolute env n := by
  intro k v s hk hm hs
  obtain ⟨l, h1, h2⟩ := h (k, v) hk
  exact h2 hm s (texts_of h1 hs)

theorem partEntry_relative : AllNodes (NoAbsolute sampleEnv) partEntry := by
  simp only [partEntry, AllNodes, AllKids]
  refine ⟨noAbsolute_of ?_, ⟨noAbsolute_of ?_, noAbsolute_of ?_, noAbsolute_of ?_, trivial⟩, trivial⟩
  all_goals
    intro ka hka
    simp only [Node.attrs, List.mem_cons, List.not_mem_nil, or_false] at hka
  · subst hka
    exact ⟨_, rfl, by decide⟩
  · rcases hka with rfl | rfl | rfl
    all_goals exact ⟨_, rfl, by decide⟩
  · rcases hka with rfl | rfl | rfl
    all_goals exact ⟨_, rfl, by decide⟩
  · rcases hka with rfl | rfl
    all_goals exact ⟨_, rfl, by decide⟩

theorem sampleMgr_simple : SimpleNames sampleMgr.classes := by
  intro c d hc
  have hm := Dict.mem_of_get? hc
  have key : ∀ kv ∈ sampleMgr.classes, (∀ x ∈ kv.2.fields, '/' ∉ x.1) ∧
      ∀ x ∈ kv.2.groups, '/' ∉ x.1 ∧ ∀ y ∈ x.2.fields, '/' ∉ y.1 := by decide
  exact key _ hm

theorem sampleMgr_groups (d : ClassDef) (h : Dict.get? sampleMgr.classes s%"NXentry" = some d) :
    (Dict.keys d.groups).Nodup := by
  cases h
  decide

/-- `entry_judged_alone`: what is said about `/e` in the one file is said in the other. -/
theorem partEntry_same {l : Line} (hl : OwnLine partEntry l) :
    l ∈ report (validateOpen sampleEnv sampleMgr [] attrFile).log ↔
      l ∈ report (validateOpen sampleEnv sampleMgr [] moreFile).log :=
  entry_judged_alone rfl attrFile_wellNamed moreFile_wellNamed sampleMgr_groups sampleMgr_simple
    attrFile_ok moreFile_ok partEntry_attrFile partEntry_moreFile (by decide) partEntry_relative hl

/-- A fault deep in the entry is such a line, and is in both reports. -/
example : OwnLine partEntry (some s%"/e/d@axes", s%"axes['q'] exists", .error) ∧
    (some s%"/e/d@axes", s%"axes['q'] exists", Status.error) ∈
      report (validateOpen sampleEnv sampleMgr [] attrFile).log :=
  ⟨⟨_, rfl, .inr ⟨.inl ⟨s%"d@axes", rfl⟩, by decide, by decide⟩⟩, by decide +kernel⟩

/-- The default plot is not a matter of the entry: another signal in the other entry changes it. -/
example : (some s%"/e/d@signal", s%"NeXus default plot v3, NXdata@signal", Status.ok) ∈
      report (validateOpen sampleEnv sampleMgr [] attrFile).log ∧
    report (validateOpen sampleEnv sampleMgr [] attrFile).log ≠
      report (validateOpen sampleEnv sampleMgr [] moreFile).log := by
  constructor <;> decide +kernel

/-! ## the default plot and link targets are not judged alone -/

/-- A field whose `target` is in the other entry, if there is one. -/
def awayEntry : Node := .group s%"/e" [(s%"NX_class", .str s%"NXentry")]
  (.cons s%"x" .hard (.dataset s%"/e/x" [(s%"target", .str s%"/o"), (s%"signal", .int 1)]
    (.ofVal (.int 1))) .nil)

/-- `awayEntry` alone, or with another entry. -/
def awayFile (more : Bool) : H5File where
  attrs := []
  kids := .cons s%"e" .hard awayEntry (if more then
    .cons s%"o" .hard (.group s%"/o" [(s%"NX_class", .str s%"NXentry")]
      (.cons s%"y" .hard (.dataset s%"/o/y" [(s%"signal", .int 1)] (.ofVal (.int 1))) .nil)) .nil
    else .nil)

/-- The verdict on the target depends on the rest of the file. -/
example : (some s%"/e/x@target", s%"attribute value", Status.error) ∈
      report (validateOpen sampleEnv sampleMgr [] (awayFile false)).log ∧
    (some s%"/e/x@target", s%"attribute value", Status.ok) ∈
      report (validateOpen sampleEnv sampleMgr [] (awayFile true)).log := by
  constructor <;> decide +kernel

/-- So does the existence of a signal that is given by a path from the root. -/
def farEntry : Node := .group s%"/e" [(s%"NX_class", .str s%"NXentry")]
  (.cons s%"d" .hard (.group s%"/e/d" [(s%"NX_class", .str s%"NXdata"), (s%"signal", .str s%"/o")]
    .nil) .nil)

def farFile (more : Bool) : H5File where
  attrs := []
  kids := .cons s%"e" .hard farEntry (if more then
    .cons s%"o" .hard (.group s%"/o" [(s%"NX_class", .str s%"NXentry")] .nil) .nil else .nil)

example : (some s%"/e/d@signal", s%"attribute value", Status.error) ∈
      report (validateOpen sampleEnv sampleMgr [] (farFile false)).log ∧
    (some s%"/e/d@signal", s%"attribute value", Status.ok) ∈
      report (validateOpen sampleEnv sampleMgr [] (farFile true)).log := by
  constructor <;> decide +kernel

/-! ## the command -/

theorem cmd_plainDocs : PlainDocs cmdDir := by
  have key : ∀ f ∈ cmdDefs, ∀ x, f.content = some x →
      PlainElements x.kids ∧ ∀ g ∈ x.kids, PlainElements g.kids := by
    intro f hf x hx
    simp only [cmdDefs, List.mem_cons, List.not_mem_nil, or_false] at hf
    rcases hf with rfl | rfl | rfl <;> (injection hx with hx; subst hx)
    all_goals
      refine ⟨?_, ?_⟩
      · intro e he k hk s hs
        rw [List.mem_singleton.1 he] at hs
        simp only [List.mem_cons, List.not_mem_nil, or_false] at hk
        rcases hk with rfl | rfl
        all_goals
          first
          | (cases hs; done)
          | (injection hs with hs; subst hs; decide)
      · intro g hg
        rw [List.mem_singleton.1 hg]
        intro e he
        cases he
  intro c fs f x h1 h2 h3
  injection h1 with h1
  cases c with
  | baseClasses => subst h1; exact key f h2 x h3
  | applications => subst h1; cases h2
  | contributed => subst h1; cases h2

def partFiles (f : Str) : FileState :=
  if f = s%"a.h5" then .hdf5 attrFile else if f = s%"b.h5" then .hdf5 moreFile else .missing

def partWorld : World :=
  commandWorld easyLib cmdPattern cmdSets sampleEnv partFiles (fun c => [c]) id

/-- The two runs, computed. -/
theorem part_runs : (funcValidate partWorld cmdCall).res.toBool = true ∧
    (funcValidate partWorld { cmdCall with infile := s%"b.h5" }).res.toBool = true ∧
    printed (funcValidate partWorld cmdCall).log =
      [(some s%"/e/d@axes", s%"axes['q'] exists", .error),
       (some s%"/e/d@axes", s%"valid name @axes['.']", .error),
       (some s%"/e/d/y@target", s%"attribute value", .error)] ∧
    (printed (funcValidate partWorld { cmdCall with infile := s%"b.h5" }).log).length = 4 := by
  decide +kernel

theorem ok_of_toBool {x : Except Exit Unit} (h : x.toBool = true) : x = .ok () := by
  cases x with
  | ok u => rfl
  | error e => cases h

/-- `command_part_alone` for these files. -/
example {l : Line} (hl : OwnLine partEntry l) :
    (∃ rows sm sc, Act.report s%"a.h5" rows sm sc ∈ (funcValidate partWorld cmdCall).log ∧
        l ∈ rows.map lineOf) ↔
      ∃ rows sm sc, Act.report s%"b.h5" rows sm sc ∈
        (funcValidate partWorld { cmdCall with infile := s%"b.h5" }).log ∧ l ∈ rows.map lineOf := by
  obtain ⟨sets, f, hs, hw, hf, hdir⟩ := cmd_listed
  refine command_part_alone (lib := easyLib) (pattern := cmdPattern) (a := cmdCall) hs hw ?_ cmd_plain
    rfl (other := s%"b.h5") (f := attrFile) (f' := moreFile) rfl rfl attrFile_wellNamed
    moreFile_wellNamed (ok_of_toBool part_runs.1) (ok_of_toBool part_runs.2.1)
    (.top partEntry_attrFile) (.top partEntry_moreFile) (by decide) partEntry_relative hl
  intro ref s e h
  obtain ⟨h1, h2⟩ := cmd_definitions hf hdir ref s e h
  refine ⟨h1, h2, ?_⟩
  have e' : s%"v1" = ref := by injection e
  rw [← e', hf] at h
  injection h with h
  rw [← h, hdir]
  exact cmd_plainDocs

end Punx

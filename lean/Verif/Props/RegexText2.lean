import Verif.Props.RegexText
import Verif.Props.SchemaManager5
import Verif.Props.Command
import Verif.Props.ItemName2
import Verif.Props.NxdlSchemaSample

/-!
# C111: `punx validate` judges names by the patterns that are written in the schema
-/

namespace Punx
open Spec

theorem written_accepts {pattern : Str → Pat} (hp : Compiles pattern) {ts : List Str}
    (ht : AllWritten ts) (word : Char → Bool) (s : Str) :
    (∃ p ∈ ts.map pattern, PatAccepts word p s) ↔ WrittenAccepts word ts s := by
  constructor
  · rintro ⟨_, hm, ha⟩
    obtain ⟨t, h, rfl⟩ := List.mem_map.1 hm
    obtain ⟨p, hw⟩ := ht t h
    rw [hp hw] at ha
    exact ⟨t, h, p, hw, ha⟩
  · rintro ⟨t, h, p, hw, ha⟩
    exact ⟨pattern t, List.mem_map_of_mem h, by rwa [hp hw]⟩

/-- The texts in the shipped schemas and in `punx/validate.py:47`. -/
theorem shipped_texts : PatternText s%"[a-z_][a-z0-9_]*" strictPat ∧
    PatternText s%"[A-Za-z_][\\w_]*" relaxedPat ∧ PatternText s%"NX.+" nxClassPat :=
  ⟨readPattern_iff.1 (by decide +kernel), readPattern_iff.1 (by decide +kernel),
    readPattern_iff.1 (by decide +kernel)⟩

theorem written_single {word : Char → Bool} {t : Str} {p : Pat} (h : PatternText t p) (s : Str) :
    WrittenAccepts word [t] s ↔ PatAccepts word p s := by
  constructor
  · rintro ⟨u, hu, q, hq, ha⟩
    rw [List.mem_singleton.1 hu] at hq
    rwa [patternText_unique h hq]
  · exact fun ha => ⟨t, List.mem_singleton_self t, p, h, ha⟩

/-- C111: what the pattern for item names in the shipped schemas accepts. -/
theorem shipped_item_names (word : Char → Bool) (s : Str) :
    WrittenAccepts word [s%"[A-Za-z_][\\w_]*"] s ↔ OrNewline (RelaxedName word) s := by
  rw [written_single shipped_texts.2.1, ← patMatch_iff, patMatch_relaxed]

/-- C111: what the patterns for class names in the shipped schemas accept. -/
theorem shipped_class_names (word : Char → Bool) (s : Str) :
    WrittenAccepts word [s%"NX.+", s%"[A-Za-z_][\\w_]*"] s ↔
      OrNewline ClassName s ∨ OrNewline (RelaxedName word) s := by
  rw [← shipped_item_names, ← patMatch_nxClass (word := word), patMatch_iff, ← written_single shipped_texts.2.2]
  simp [WrittenAccepts]

variable {lib : Lib} {pattern : Str → Pat} {w : Disks} {env : Env}
    {files : Str → FileState} {upper : Char → Str} {abspath : Str → Str} {sets : Dict Str FileSet}
    {a : ValidateArgs} {mgr : Manager} {file : H5File}

/-- A finding of the validation is printed if its status is asked for. -/
theorem command_prints (hs : allFileSets w.source w.user = .ok sets)
    (hw : ∀ kv ∈ sets, WellDescribed kv.2)
    (hd : ∀ ref f, a.fileSet = some ref → Dict.get? sets ref = some f →
      HasDefinitions (w.dir f.path)) (ha : PlainAscii a.report)
    (hr : CommandReaches lib pattern w files sets a mgr file)
    (hv : (validateOpen env mgr [] file).res = .ok ()) {o : List Nat} {x : Finding}
    (hx : nameFindings (validateOpen env mgr [] file).log o = [x]) :
    Asked a.report x.status → ∃ rows sm sc, Act.report a.infile rows sm sc ∈
      (funcValidate (commandWorld lib pattern w env files upper abspath) a).log ∧ x ∈ rows := by
  intro hk
  have hm : x ∈ nameFindings (validateOpen env mgr [] file).log o := by rw [hx]; simp
  have hm' : x ∈ findings (validateOpen env mgr [] file).log := by
    simp only [nameFindings, List.mem_filterMap] at hm
    obtain ⟨e, he, h⟩ := hm
    simp only [findings, List.mem_filterMap]
    refine ⟨e, he, ?_⟩
    match e, h with
    | .found o' _ f, h =>
      simp only at h
      split at h
      · exact h
      · cases h
    | .setMin .., h => cases h
  exact (command_rows hs hw hd ha a.infile x).2 ⟨rfl, mgr, file, hr, hv, hm', hk⟩

/-- C111: `punx validate` judges the name of a group or field by the strict rule and by the patterns
that are written in the schema of the set that is asked for. -/
theorem command_name_row (hs : allFileSets w.source w.user = .ok sets)
    (hw : ∀ kv ∈ sets, WellDescribed kv.2)
    (hd : ∀ ref f, a.fileSet = some ref → Dict.get? sets ref = some f →
      HasDefinitions (w.dir f.path)) (ha : PlainAscii a.report) (hp : Compiles pattern)
    {ts : List Str} (ht : AllWritten ts)
    (hx : ∀ ref f, a.fileSet = some ref → Dict.get? sets ref = some f →
      ∃ root base n, (w.dir f.path).xsd = some root ∧
        DeclaresNames root s%"validItemName" base ts n ∧ ¬ NameType root base)
    (hr : CommandReaches lib pattern w files sets a mgr file)
    (hv : (validateOpen env mgr [] file).res = .ok ()) {it : Item}
    (hit : it ∈ (catalog env file).log) {n : Node} (hobj : it.obj = .node n)
    (hat : '@' ∉ it.classpath) :
    ∃ st c, nameFindings (validateOpen env mgr [] file).log it.oid =
        [⟨it.addr, s%"validItemName", st, c⟩] ∧
      NameRule it.classpath it.name (WrittenAccepts env.word ts it.name) st ∧
      (Asked a.report st → ∃ rows sm sc, Act.report a.infile rows sm sc ∈
        (funcValidate (commandWorld lib pattern w env files upper abspath) a).log ∧
        ⟨it.addr, s%"validItemName", st, c⟩ ∈ rows) := by
  obtain ⟨ref, f, e1, e2, hown⟩ := hr.own
  obtain ⟨root, base, k, hroot, hdec, hb⟩ := hx ref f e1 e2
  have hip := (((command_patterns hown hroot).2.2 hdec hb).1)
  have hrel : RelaxedBy env.word mgr it.name ↔ WrittenAccepts env.word ts it.name := by
    rw [← written_accepts hp ht, RelaxedBy, hip]; rfl
  obtain ⟨st, c, h1, h2⟩ := object_name_verdict hv hit hobj hat
  rw [propext hrel] at h2
  exact ⟨st, c, h1, h2, command_prints hs hw hd ha hr hv h1⟩

/-- C111: `punx validate` judges the value of an `NX_class` attribute by the patterns that are written
in the schema for class names and, if this type restricts item names, those for item names. -/
theorem command_class_row (hs : allFileSets w.source w.user = .ok sets)
    (hw : ∀ kv ∈ sets, WellDescribed kv.2)
    (hd : ∀ ref f, a.fileSet = some ref → Dict.get? sets ref = some f →
      HasDefinitions (w.dir f.path)) (ha : PlainAscii a.report) (hp : Compiles pattern)
    {ts us : List Str} (ht : AllWritten ts) (hu : AllWritten us)
    (hx : ∀ ref f, a.fileSet = some ref → Dict.get? sets ref = some f →
      ∃ root base n k, (w.dir f.path).xsd = some root ∧
        DeclaresNames root s%"validItemName" base ts n ∧ ¬ NameType root base ∧
        DeclaresNames root s%"validNXClassName" s%"validItemName" us k)
    (hr : CommandReaches lib pattern w files sets a mgr file)
    (hv : (validateOpen env mgr [] file).res = .ok ()) {it : Item}
    (hit : it ∈ (catalog env file).log) {v : Val} (hobj : it.obj = .val v) {ad : Str}
    (had : it.addr = some ad) (hcl : s%"@NX_class" <:+ ad) :
    ∃ s st c, TextOf env v s ∧
      nameFindings (validateOpen env mgr [] file).log it.oid =
        [⟨it.addr, s%"validItemName", st, c⟩] ∧
      (WrittenAccepts env.word (us ++ ts) s → st = .ok) ∧
      (¬ WrittenAccepts env.word (us ++ ts) s → st = .error) ∧
      (Asked a.report st → ∃ rows sm sc, Act.report a.infile rows sm sc ∈
        (funcValidate (commandWorld lib pattern w env files upper abspath) a).log ∧
        ⟨it.addr, s%"validItemName", st, c⟩ ∈ rows) := by
  obtain ⟨ref, f, e1, e2, hown⟩ := hr.own
  obtain ⟨root, base, k, k', hroot, hdec, hb, hdec'⟩ := hx ref f e1 e2
  have hcp := (((command_patterns hown hroot).2.2 hdec hb).2.1 hdec')
  have hall : AllWritten (us ++ ts) := fun t h => (List.mem_append.1 h).elim (hu t) (ht t)
  obtain ⟨s, pats, h1, h2, st, c, h3, h4, h5⟩ := class_value_verdict hv hit hobj had hcl
  rw [hcp] at h2
  cases h2
  rw [written_accepts hp hall] at h4 h5
  exact ⟨s, st, c, h1, h3, h4, h5, command_prints hs hw hd ha hr hv h3⟩

/-! ## the shipped schema -/

/-- The shipped schema declares item names and class names with these texts. -/
theorem shipped_declares (l : Nat) :
    (∃ n, DeclaresNames (nxdlXsd l) s%"validItemName" s%"token" [s%"[A-Za-z_][\\w_]*"] n) ∧
    ¬ NameType (nxdlXsd l) s%"token" ∧
    ∃ n, DeclaresNames (nxdlXsd l) s%"validNXClassName" s%"validItemName" [s%"NX.+"] n := by
  have e : (nxdlXsd l).select s%"simpleType" = (nxdlXsd 0).select s%"simpleType" := rfl
  unfold DeclaresNames NameType
  rw [e]
  refine ⟨⟨_, [], _, _, _, s%"xs:token", rfl, rfl, ?_, rfl, rfl, ⟨by decide, .inr ⟨s%"xs", rfl⟩⟩,
    rfl, rfl⟩, ?_, ⟨_, [_], _, _, _, s%"nx:validItemName", rfl, rfl, ?_, rfl, rfl,
    ⟨by decide, .inr ⟨s%"nx", rfl⟩⟩, rfl, rfl⟩⟩
  · decide +kernel
  · rintro ⟨h, _⟩
    revert h
    decide
  · decide +kernel

end Punx

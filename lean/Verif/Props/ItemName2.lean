import Verif.Props.ItemName
import Verif.Props.Sample

/-!
# C12–C16 with the bundled naming rules: what accepted names look like
-/

namespace Punx
open Spec

theorem relaxedBy_bundled {mgr : Manager} (hb : Bundled mgr) (word : Char → Bool) (s : Str) :
    RelaxedBy word mgr s ↔ OrNewline (RelaxedName word) s := by
  rw [RelaxedBy, hb.1, ← patMatch_relaxed]
  simp [patMatch_iff]

/-- C12 with the bundled definitions: the verdict on the name of a group or field. -/
theorem object_name_verdict_bundled {env : Env} {mgr : Manager} {mins : Dict (Str × Str) Int}
    {f : H5File} (hb : Bundled mgr) (h : (validateOpen env mgr mins f).res = .ok ()) {it : Item}
    (hit : it ∈ (catalog env f).log) {n : Node} (hobj : it.obj = .node n)
    (hat : '@' ∉ it.classpath) :
    OneFinding (nameFindings (validateOpen env mgr mins f).log it.oid) it.addr
      (NameRule it.classpath it.name (OrNewline (RelaxedName env.word) it.name)) := by
  have := object_name_verdict h hit hobj hat
  have e := propext (relaxedBy_bundled hb env.word it.name)
  rw [e] at this
  exact this

example : ∃ it ∈ (catalog sampleEnv nameFile).log, (∃ n, it.obj = .node n) ∧
    '@' ∉ it.classpath ∧ it.name = s%"X1" ∧
    (nameFindings (validateOpen sampleEnv sampleMgr [] nameFile).log it.oid).map (·.status) =
      [.note] := by
  refine ⟨(catalog sampleEnv nameFile).log[5], List.getElem_mem _, ⟨_, rfl⟩, ?_, rfl, rfl⟩
  decide

/-- The statuses of all name findings of the example: `e`, `NX_class` of `e`, `x`, its
attribute `units`, `X1`, `1x`, `c`, its `NX_class`, and `Any name`. -/
example : (catalog sampleEnv nameFile).log.map (fun it =>
    (it.name, (nameFindings (validateOpen sampleEnv sampleMgr [] nameFile).log it.oid).map
      (·.status))) =
    [(s%"/", []), (s%"e", [.ok]), (s%"NX_class", [.ok]), (s%"x", [.ok]), (s%"units", [.ok]),
     (s%"X1", [.note]), (s%"1x", [.error]), (s%"c", [.warn]), (s%"NX_class", [.ok]),
     (s%"Any name", [.warn])] := by rfl

/-! ## C13 -/

/-- `\w` covers the ASCII letters and digits, as in Python. -/
def WordOk (word : Char → Bool) : Prop :=
  ∀ c, Lower c ∨ Digit c ∨ Upper c → word c = true

theorem strict_relaxed {word : Char → Bool} (hw : WordOk word) {s : Str} (h : StrictName s) :
    RelaxedName word s := by
  obtain ⟨c, cs, rfl, hc, hcs⟩ := h
  refine ⟨c, cs, rfl, ?_, ?_⟩
  · rcases hc with h | h
    · exact .inr (.inl h)
    · exact .inr (.inr h)
  · intro d hd
    rcases hcs d hd with h | h | h
    · exact .inl (hw d (.inl h))
    · exact .inl (hw d (.inr (.inl h)))
    · exact .inr h

/-- C13 (`_partial`): a name of a group or field outside NXcollection that is reported OK or
NOTE is, up to one newline at its end, a letter or underscore followed by word characters or
underscores.  Missing from the full claim: no newline, and at most 63 characters; neither is
checked, see `accepted_newline` and `accepted_long`. -/
theorem accepted_name_partial {env : Env} {mgr : Manager} {mins : Dict (Str × Str) Int}
    {f : H5File} (hb : Bundled mgr) (hw : WordOk env.word)
    (h : (validateOpen env mgr mins f).res = .ok ()) {it : Item}
    (hit : it ∈ (catalog env f).log) {n : Node} (hobj : it.obj = .node n)
    (hat : '@' ∉ it.classpath) {fd : Finding}
    (hf : fd ∈ nameFindings (validateOpen env mgr mins f).log it.oid)
    (hst : fd.status = .ok ∨ fd.status = .note) :
    OrNewline (RelaxedName env.word) it.name := by
  obtain ⟨st, c, hfs, h1, h2⟩ := object_name_verdict_bundled hb h hit hobj hat
  rw [hfs, List.mem_singleton] at hf
  subst hf
  simp only at hst
  by_cases hcol : s%"NXcollection" <:+: it.classpath
  · rw [h1 hcol] at hst; simp at hst
  · obtain ⟨h3, h4, h5⟩ := h2 hcol
    by_cases hs : OrNewline StrictName it.name
    · rcases hs with hs | ⟨t, ht, hs⟩
      · exact .inl (strict_relaxed hw hs)
      · exact .inr ⟨t, ht, strict_relaxed hw hs⟩
    · by_contra hr
      rw [h5 hs hr] at hst
      simp at hst

/-- Conversely, outside NXcollection OK means exactly the strict rule and NOTE exactly the
relaxed but not the strict rule, both up to one newline at the end. -/
theorem accepted_name_iff {env : Env} {mgr : Manager} {mins : Dict (Str × Str) Int}
    {f : H5File} (hb : Bundled mgr) (h : (validateOpen env mgr mins f).res = .ok ()) {it : Item}
    (hit : it ∈ (catalog env f).log) {n : Node} (hobj : it.obj = .node n)
    (hat : '@' ∉ it.classpath) (hcol : ¬ s%"NXcollection" <:+: it.classpath) {fd : Finding}
    (hf : fd ∈ nameFindings (validateOpen env mgr mins f).log it.oid) :
    (fd.status = .ok ↔ OrNewline StrictName it.name) ∧
    (fd.status = .note ↔ ¬ OrNewline StrictName it.name ∧
      OrNewline (RelaxedName env.word) it.name) ∧
    (fd.status = .error ↔ ¬ OrNewline StrictName it.name ∧
      ¬ OrNewline (RelaxedName env.word) it.name) := by
  obtain ⟨st, c, hfs, h1, h2⟩ := object_name_verdict_bundled hb h hit hobj hat
  rw [hfs, List.mem_singleton] at hf
  subst hf
  obtain ⟨h3, h4, h5⟩ := h2 hcol
  simp only
  by_cases hs : OrNewline StrictName it.name
  · simp [h3 hs, hs]
  · by_cases hr : OrNewline (RelaxedName env.word) it.name
    · simp [h4 hs hr, hs, hr]
    · simp [h5 hs hr, hs, hr]

theorem sampleEnv_wordOk : WordOk sampleEnv.word := by
  intro c hc
  have hv : c.toNat = c.val.toNat := rfl
  unfold Lower Digit Upper at hc
  rw [hv] at hc
  show (c.isAlphanum || c == '_') = true
  simp only [Char.isAlphanum, Char.isAlpha, Char.isUpper, Char.isLower, Char.isDigit,
    Bool.or_eq_true, Bool.and_eq_true, decide_eq_true_eq, UInt32.le_iff_toNat_le, ge_iff_le]
  left
  have e0 : 'A'.val.toNat = 65 := rfl
  have e1 : 'Z'.val.toNat = 90 := rfl
  have e2 : 'a'.val.toNat = 97 := rfl
  have e3 : 'z'.val.toNat = 122 := rfl
  have e4 : '0'.val.toNat = 48 := rfl
  have e5 : '9'.val.toNat = 57 := rfl
  omega

/-- A field with this name below `/e`. -/
def namedFile (l : Str) : H5File := entryFile (fieldIn l [] .nil)

/-- C13 is violated: a field name with a newline at its end is reported OK. -/
theorem accepted_newline : ∃ f : H5File,
    (validateOpen sampleEnv sampleMgr [] f).res = .ok () ∧
    ∃ it ∈ (catalog sampleEnv f).log, it.name = s%"x\n" ∧ ¬ RelaxedName sampleEnv.word it.name ∧
      (nameFindings (validateOpen sampleEnv sampleMgr [] f).log it.oid).map (·.status) = [.ok] := by
  refine ⟨namedFile s%"x\n", by rfl, (catalog sampleEnv (namedFile s%"x\n")).log[3],
    List.getElem_mem _, by rfl, ?_, by rfl⟩
  rintro ⟨c, cs, h, _, hcs⟩
  have h : s%"x\n" = c :: cs := h
  injection h with _ h
  subst h
  rcases hcs '\n' (by simp) with h | h
  · revert h; decide
  · revert h; decide

/-- C13 is violated: a field name of 64 characters is reported OK. -/
theorem accepted_long : ∃ f : H5File,
    (validateOpen sampleEnv sampleMgr [] f).res = .ok () ∧
    ∃ it ∈ (catalog sampleEnv f).log, it.name.length = 64 ∧
      (nameFindings (validateOpen sampleEnv sampleMgr [] f).log it.oid).map (·.status) = [.ok] := by
  refine ⟨namedFile (List.replicate 64 'a'), by rfl,
    (catalog sampleEnv (namedFile (List.replicate 64 'a'))).log[3], List.getElem_mem _, by rfl,
    by rfl⟩

/-! ## C14 -/

theorem classPats_bundled {mgr : Manager} (hb : Bundled mgr) (word : Char → Bool) {pats : List Pat}
    (hp : mgr.classPats = some pats) (s : Str) :
    (∃ p ∈ pats, PatAccepts word p s) ↔ OrNewline ClassName s ∨ OrNewline (RelaxedName word) s := by
  rw [hb.2] at hp
  injection hp with hp
  subst hp
  rw [← patMatch_relaxed, ← patMatch_nxClass (word := word)]
  simp [patMatch_iff]

/-- C14 (`_partial`): the verdict on an NX_class value with the bundled definitions is OK
exactly if the value is `NX` and more, or a relaxed item name.  Missing from the full claim:
the rule of the schema asks for both. -/
theorem class_value_partial {env : Env} {mgr : Manager} {mins : Dict (Str × Str) Int}
    {f : H5File} (hb : Bundled mgr) (h : (validateOpen env mgr mins f).res = .ok ()) {it : Item}
    (hit : it ∈ (catalog env f).log) {v : Val} (hobj : it.obj = .val v) {a : Str}
    (ha : it.addr = some a) (hcl : s%"@NX_class" <:+ a) :
    ∃ s, TextOf env v s ∧
      OneFinding (nameFindings (validateOpen env mgr mins f).log it.oid) it.addr (fun st =>
        (OrNewline ClassName s ∨ OrNewline (RelaxedName env.word) s → st = .ok) ∧
        (¬ (OrNewline ClassName s ∨ OrNewline (RelaxedName env.word) s) → st = .error)) := by
  obtain ⟨s, pats, h1, h2, h3⟩ := class_value_verdict h hit hobj ha hcl
  refine ⟨s, h1, ?_⟩
  have e := propext (classPats_bundled hb env.word h2 s)
  rw [e] at h3
  exact h3

/-- A NeXus group can have only one kind of bad class: in a completed validation the NX_class of
a group is reported OK unless there is a newline in it. -/
theorem class_of_group_ok {env : Env} {mgr : Manager} {mins : Dict (Str × Str) Int}
    {f : H5File} (hb : Bundled mgr) (hw : WordOk env.word)
    (h : (validateOpen env mgr mins f).res = .ok ()) {it : Item}
    (hit : it ∈ (catalog env f).log) {v : Val} (hobj : it.obj = .val v) {a : Str}
    (ha : it.addr = some a) (hcl : s%"@NX_class" <:+ a) {t : Str} (ht : TextOf env v (s%"NX" ++ t))
    (hn : '\n' ∉ t) :
    OneFinding (nameFindings (validateOpen env mgr mins f).log it.oid) it.addr (· = .ok) := by
  obtain ⟨s, h1, st, c, h2, h3, _⟩ := class_value_partial hb h hit hobj ha hcl
  have hs : s = s%"NX" ++ t := by
    rcases h1 with h1 | ⟨b, h1, hb1⟩ <;> rcases ht with ht | ⟨b', ht, hb2⟩
    · rw [h1] at ht; injection ht
    · rw [h1] at ht; cases ht
    · rw [h1] at ht; cases ht
    · rw [h1] at ht; injection ht with ht; subst ht; rw [hb1] at hb2; injection hb2
  refine ⟨st, c, h2, h3 ?_⟩
  subst hs
  cases t with
  | nil =>
    right; left
    refine ⟨'N', ['X'], rfl, .inl (by unfold Upper; decide), ?_⟩
    intro d hd
    simp at hd
    subst hd
    exact .inl (hw 'X' (.inr (.inr (by unfold Upper; decide))))
  | cons c t => left; left; exact ⟨c :: t, rfl, by simp, hn⟩

/-- A group `/e/g` of this class. -/
def classFile (c : Str) : H5File :=
  entryFile (.cons s%"g" .hard (.group s%"/e/g" [(s%"NX_class", .str c)] .nil) .nil)

/-- C14 is violated: a group class with a blank is reported OK although it is not a valid item
name. -/
theorem accepted_class_not_name : ∃ f : H5File,
    (validateOpen sampleEnv sampleMgr [] f).res = .ok () ∧
    ∃ it ∈ (catalog sampleEnv f).log, it.addr = some s%"/e/g@NX_class" ∧
      it.obj = .val (.str s%"NX a!") ∧ ¬ OrNewline (RelaxedName sampleEnv.word) s%"NX a!" ∧
      (nameFindings (validateOpen sampleEnv sampleMgr [] f).log it.oid).map (·.status) = [.ok] := by
  refine ⟨classFile s%"NX a!", by rfl, (catalog sampleEnv (classFile s%"NX a!")).log[4],
    List.getElem_mem _, by rfl, by rfl, ?_, by rfl⟩
  rw [← patMatch_relaxed]
  decide

/-- C14 is violated: NX_class of a field is reported OK although it does not start with NX. -/
theorem accepted_class_without_nx : ∃ f : H5File,
    (validateOpen sampleEnv sampleMgr [] f).res = .ok () ∧
    ∃ it ∈ (catalog sampleEnv f).log, it.addr = some s%"/e/x@NX_class" ∧
      it.obj = .val (.str s%"entry") ∧ ¬ OrNewline ClassName s%"entry" ∧
      (nameFindings (validateOpen sampleEnv sampleMgr [] f).log it.oid).map (·.status) = [.ok] := by
  refine ⟨entryFile (fieldIn s%"x" [(s%"NX_class", .str s%"entry")] .nil), by rfl,
    (catalog sampleEnv (entryFile (fieldIn s%"x" [(s%"NX_class", .str s%"entry")] .nil))).log[4],
    List.getElem_mem _, by rfl, by rfl, ?_, by rfl⟩
  rw [← patMatch_nxClass (word := sampleEnv.word)]
  decide

/-! ## cases for C14–C16 -/

example : ∃ it ∈ (catalog sampleEnv nameFile).log, (∃ v, it.obj = .val v) ∧
    it.addr = some s%"/e@NX_class" ∧ s%"@NX_class" <:+ s%"/e@NX_class" :=
  ⟨(catalog sampleEnv nameFile).log[2], List.getElem_mem _, ⟨_, rfl⟩, rfl, by decide⟩

example : ∃ it ∈ (catalog sampleEnv nameFile).log, (∃ v, it.obj = .val v) ∧
    it.addr = some s%"/e/x@units" ∧ ¬ s%"@NX_class" <:+ s%"/e/x@units" ∧
    (nameFindings (validateOpen sampleEnv sampleMgr [] nameFile).log it.oid).map (·.status) =
      [.ok] :=
  ⟨(catalog sampleEnv nameFile).log[4], List.getElem_mem _, ⟨_, rfl⟩, rfl, by decide, by rfl⟩

/-- A field linked to `/e/x`, with an attribute of bad name that is not judged. -/
def linkedFile : H5File :=
  entryFile (fieldIn s%"x" [] (fieldIn s%"y"
    [(s%"target", .str s%"/e/x"), (s%"bad name", .int 1)] .nil))

example : (validateOpen sampleEnv sampleMgr [] linkedFile).res = .ok () := by rfl

example : ∃ it ∈ (catalog sampleEnv linkedFile).log, Exempt sampleEnv it ∧
    it.addr = some s%"/e/y@bad name" := by
  refine ⟨(catalog sampleEnv linkedFile).log[5], List.getElem_mem _, ?_, by rfl⟩
  refine .linked (v := .int 1) (a := s%"/e/y@bad name") rfl rfl (by decide)
    ⟨_, [(s%"target", .str s%"/e/x"), (s%"bad name", .int 1)], s%"/e/y", rfl, rfl, rfl, ?_⟩
  show s%"/e/x" ≠ s%"/e/y"
  decide

/-- A field with `@` in its name is judged like an attribute: ERROR, never NOTE. -/
example : ∃ it ∈ (catalog sampleEnv (namedFile s%"a@b")).log, (∃ n, it.obj = .node n) ∧
    '@' ∈ it.classpath ∧
    (nameFindings (validateOpen sampleEnv sampleMgr [] (namedFile s%"a@b")).log it.oid).map
      (·.status) = [.error] :=
  ⟨(catalog sampleEnv (namedFile s%"a@b")).log[3], List.getElem_mem _, ⟨_, rfl⟩, by decide, by rfl⟩

end Punx

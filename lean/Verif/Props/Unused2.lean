import Verif.Props.Unused
import Verif.Props.Command
import Verif.Props.NxdlParse4

/-!
# Definition files that a data file does not need (C110)
-/

namespace Punx
open Spec

/-! ## what is read from a file does not depend on the files read before -/

/-- The value does not depend on the state, and the state keeps whether it has a `minOccurs` for
fields. -/
def Steady {α : Type} (r : Reader α) : Prop :=
  (∀ d d' a a' e e', r d = .ok (a, e) → r d' = .ok (a', e') → a = a') ∧
  ∀ d a e, r d = .ok (a, e) → (e.fieldMinOccurs = none ↔ d.fieldMinOccurs = none)

theorem Steady.pure {α : Type} (a : α) : Steady (pure a : Reader α) := by
  constructor
  · intro d d' b b' e e' h h'
    rw [Reader.pure_ok] at h h'
    exact h.1.symm.trans h'.1
  · intro d b e h
    rw [Reader.pure_ok] at h
    rw [h.2]

theorem Steady.raise {α : Type} (x : PyErr) : Steady (Reader.raise x : Reader α) := by
  constructor
  · intro d d' b b' e e' h; cases h
  · intro d b e h; cases h

theorem Steady.bind {α β : Type} {r : Reader α} {k : α → Reader β} (h : Steady r)
    (hk : ∀ a, Steady (k a)) : Steady (r >>= k) := by
  constructor
  · intro d d' b b' e e' h1 h2
    obtain ⟨a, d1, g1, g2⟩ := Reader.bind_ok.1 h1
    obtain ⟨a', d1', g1', g2'⟩ := Reader.bind_ok.1 h2
    have := h.1 _ _ _ _ _ _ g1 g1'
    subst this
    exact (hk a).1 _ _ _ _ _ _ g2 g2'
  · intro d b e h1
    obtain ⟨a, d1, g1, g2⟩ := Reader.bind_ok.1 h1
    exact ((hk a).2 _ _ _ g2).trans (h.2 _ _ _ g1)

theorem Steady.ite {α : Type} {p : Prop} [Decidable p] {r r' : Reader α} (h : Steady r)
    (h' : Steady r') : Steady (if p then r else r') := by
  split
  · exact h
  · exact h'

theorem steady_need (x : Xml) (k : Str) : Steady (x.need k) := by
  unfold Xml.need
  split
  · exact .raise _
  · exact .pure _

theorem steady_noteAttribute (c : Category) : Steady (noteAttribute c) :=
  ⟨fun _ _ _ _ _ _ _ _ => rfl, fun d a e h => by rw [(noteAttribute_ok h).2.1]⟩

theorem steady_noteGroup (c : Category) : Steady (noteGroup c) :=
  ⟨fun _ _ _ _ _ _ _ _ => rfl, fun d a e h => by rw [(noteGroup_ok h).2.1]⟩

theorem steady_noteField (c : Category) : Steady (noteField c) := by
  refine ⟨fun _ _ _ _ _ _ _ _ => rfl, fun d a e h => ?_⟩
  unfold noteField at h
  cases c with
  | applications =>
    simp only at h
    split at h
    · cases h
    · rename_i v hv
      injection h with h
      injection h with _ h
      rw [← h, hv]
      simp
  | _ => injection h with h; injection h with _ h; rw [h]

theorem steady_needComponent (here : Defaults → Bool) : Steady (needComponent here) := by
  refine ⟨fun _ _ _ _ _ _ _ _ => rfl, fun d a e h => ?_⟩
  unfold needComponent at h
  split at h
  · injection h with h; injection h with _ h; rw [h]
  · cases h

theorem steady_readAttributes (c : Category) : ∀ l acc, Steady (readAttributes c l acc)
  | [], acc => by rw [readAttributes]; exact .pure _
  | x :: xs, acc => by
    rw [readAttributes]
    exact .ite (.bind (steady_need _ _) fun name => .bind (steady_noteAttribute c) fun _ =>
      .ite (.raise _) (steady_readAttributes c xs _)) (steady_readAttributes c xs acc)

theorem steady_readDims : ∀ l acc, Steady (readDims l acc)
  | [], acc => by rw [readDims]; exact .pure _
  | x :: xs, acc => by
    rw [readDims]
    exact .ite (.bind (steady_needComponent _) fun _ => steady_readDims xs _) (steady_readDims xs acc)

theorem steady_readDimensions (x : Xml) : Steady (readDimensions x) := by
  unfold readDimensions
  split
  · exact .bind (steady_needComponent _) fun _ => .bind (steady_readDims _ _) fun _ => .pure _
  · exact .pure _

theorem steady_readField (c : Category) (x : Xml) : Steady (readField c x) := by
  unfold readField
  exact .bind (steady_need _ _) fun _ => .bind (steady_readAttributes _ _ _) fun _ =>
    .bind (steady_readDimensions _) fun _ => .pure _

theorem steady_readFields (c : Category) (used : List Str) : ∀ l acc, Steady (readFields c used l acc)
  | [], acc => by rw [readFields]; exact .pure _
  | x :: xs, acc => by
    rw [readFields]
    exact .ite (.bind (steady_readField _ _) fun f => .bind (steady_noteField c) fun _ =>
      steady_readFields c used xs _) (steady_readFields c used xs acc)

theorem steady_readLinks (used : List Str) : ∀ l acc, Steady (readLinks used l acc)
  | [], acc => by rw [readLinks]; exact .pure _
  | x :: xs, acc => by
    rw [readLinks]
    exact .ite (.bind (steady_need _ _) fun _ => steady_readLinks used xs _) (steady_readLinks used xs acc)

theorem steady_groupName (a : Dict Str Str) : Steady (groupName a) := by
  unfold groupName
  split
  · exact .raise _
  · exact .pure _

mutual
theorem steady_readGroup (c : Category) : ∀ x, Steady (readGroup c x)
  | .comment => by rw [readGroup]; exact .raise _
  | .elem _ _ attrib kids => by
    rw [readGroup]
    exact .bind (steady_groupName _) fun _ => .bind (steady_readAttributes _ _ _) fun _ =>
      .bind (steady_readGroups c kids _) fun _ => .bind (steady_readFields _ _ _ _) fun _ =>
      .bind (steady_readLinks _ _ _) fun _ => .pure _
theorem steady_readGroups (c : Category) : ∀ l acc, Steady (readGroups c l acc)
  | [], acc => by rw [readGroups]; exact .pure _
  | x :: xs, acc => by
    rw [readGroups]
    exact .ite (.bind (steady_readGroup c x) fun _ => .bind (steady_noteGroup c) fun _ =>
      steady_readGroups c xs _) (steady_readGroups c xs acc)
end

theorem steady_readDefinition (title : Str) (c : Category) (x : Xml) :
    Steady (readDefinition title c x) := by
  unfold readDefinition
  exact .bind (steady_readAttributes _ _ _) fun _ => .bind (steady_readGroups _ _ _) fun _ =>
    .bind (steady_readFields _ _ _ _) fun _ => .bind (steady_readLinks _ _ _) fun _ => .pure _

theorem steady_readFiles (valid : Xml → Bool) : ∀ l acc, Steady (readFiles valid l acc)
  | [], acc => by rw [readFiles]; exact .pure _
  | (c, f) :: l, acc => by
    rw [readFiles]
    refine .bind ?_ fun _ => steady_readFiles valid l _
    unfold readFile
    split
    · exact .raise _
    · exact .ite (steady_readDefinition _ _ _) (.raise _)

theorem readFrom_unique {valid : Xml → Bool} {p : Category × NxdlFile} {cd cd' : ClassDef}
    (h : ReadFrom valid p cd) (h' : ReadFrom valid p cd') : cd = cd' := by
  obtain ⟨x, d, e, h1, _, h2⟩ := h
  obtain ⟨x', d', e', h1', _, h2'⟩ := h'
  rw [h1] at h1'
  injection h1' with h1'
  subst h1'
  exact (steady_readDefinition _ _ _).1 _ _ _ _ _ _ h2 h2'

/-! ## two directories -/

theorem wins_iff {d d' : SetDir} {s s' : Option Defaults} {P : Str → Prop} (h : SameFilesFor P d d')
    {t : Str} (ht : P t) {c : Category} {f : NxdlFile} :
    Wins ⟨true, s, d.listing⟩ t c f → Wins ⟨true, s', d'.listing⟩ t c f := by
  rintro ⟨h1, h2, h3, h4⟩
  refine ⟨(h.files t ht c f h2 h3).1 h1, h2, h3, ?_⟩
  intro c' fs' f' g1 g2 g3 g4
  obtain ⟨fs, k1, k2⟩ := (h.files t ht c' f' g3 g4).2 ⟨fs', g1, g2⟩
  exact h4 c' fs f' k1 k2 g3 g4

theorem Spec.SameFilesFor.symm {d d' : SetDir} {P : Str → Prop} (h : SameFilesFor P d d') :
    SameFilesFor P d' d :=
  ⟨h.xsd.symm, h.types.symm, fun t ht c f h1 h2 => (h.files t ht c f h1 h2).symm⟩

theorem distinctNames_of {d : SetDir} (h : DistinctFiles d) (s : Option Defaults) :
    DistinctNames ⟨true, s, d.listing⟩ :=
  fun c fs f g h1 h2 h3 => h c f g ⟨fs, h1, h2⟩ ⟨fs, h1, h3⟩

/-- The class with a name is the one read from the file that wins. -/
theorem class_of_winner {valid : Xml → Bool} {dir : DefDir} {s : Defaults}
    (hs : dir.schema = some s) {cl : Dict Str ClassDef} {o : Option Defaults}
    (h : loadClasses valid dir = .ok (cl, o)) (t : Str) :
    (∃ c f cd, Wins dir t c f ∧ Dict.get? cl t = some cd ∧ ReadFrom valid (c, f) cd) ∨
    (Dict.get? cl t = none ∧ ∀ c f, ¬ Wins dir t c f) := by
  obtain ⟨l, d', hl, hr, _⟩ := loadClasses_ok hs h
  obtain ⟨hm, _, _, _⟩ := nxdlFileList_ok hl
  rcases readFiles_get hr t with ⟨pre, p, post, cd, he, ht, hp, hg, hread⟩ | ⟨hno, hg⟩
  · exact .inl ⟨p.1, p.2, cd, wins_last hl he ht hp, hg, hread⟩
  · refine .inr ⟨hg, ?_⟩
    rintro c f ⟨⟨fs, h1, h2⟩, h3, h4, _⟩
    exact hno (c, f) ((hm c f).2 ⟨fs, h1, h2, h3⟩) (titled_iff.1 h4)

/-- C110: two directories with the same schema files and the same definition files for the names in
`P` give the same classes for these names. -/
theorem same_files_classes {lib : Lib} {pattern : Str → Pat} {d d' : SetDir} {P : Str → Prop}
    (h : SameFilesFor P d d') (hd' : DistinctFiles d') {mgr mgr' : Manager}
    (ho : OwnDefinitions lib pattern d mgr) (ho' : OwnDefinitions lib pattern d' mgr') :
    mgr.itemPats = mgr'.itemPats ∧ mgr.classPats = mgr'.classPats ∧
    (mgr'.fieldMinOccursIsOne = none ↔ mgr.fieldMinOccursIsOne = none) ∧
    ∀ t, P t → Dict.get? mgr.classes t = Dict.get? mgr'.classes t := by
  obtain ⟨⟨ds, ⟨_, _, s, a1, a2⟩, a3, _⟩, own, a4, a5, a6⟩ := ho
  obtain ⟨⟨ds', ⟨_, _, s', b1, b2⟩, b3, _⟩, own', b4, b5, b6⟩ := ho'
  have hown : own = own' := by
    obtain ⟨sh, e⟩ := a4
    obtain ⟨sh', e'⟩ := b4
    rw [h.xsd, h.types, e'] at e
    injection e with e _
    injection e with e
    exact e.symm
  subst hown
  have hss : s = s' := by
    unfold readDefaults at a1 b1
    rw [h.xsd, b1] at a1
    injection a1 with a1
    exact a1.symm
  subst hss
  have hacc : acceptedBy lib d = acceptedBy lib d' := by
    funext x; unfold acceptedBy; rw [h.xsd, h.types]
  cases s with
  | none =>
    exfalso
    unfold loadClasses at a2
    simp only [if_true] at a2
    cases hl : nxdlFileList ⟨true, none, d.listing⟩ with
    | error e => rw [hl] at a2; cases a2
    | ok l =>
      rw [hl] at a2
      cases l with
      | nil => injection a2 with a2; injection a2 with _ a2; cases a2
      | cons x l => cases a2
  | some s =>
    refine ⟨a5.trans b5.symm, a6.trans b6.symm, ?_, ?_⟩
    · obtain ⟨l, e, _, hr, he⟩ := loadClasses_ok rfl a2
      obtain ⟨l', e', _, hr', he'⟩ := loadClasses_ok rfl b2
      injection he with he
      injection he' with he'
      subst he he'
      rw [a3, b3, (steady_readFiles _ _ _).2 _ _ _ hr, (steady_readFiles _ _ _).2 _ _ _ hr']
    · intro t ht
      rcases class_of_winner rfl a2 t with ⟨c, f, cd, hw, hg, hread⟩ | ⟨hg, hno⟩
      · rcases class_of_winner rfl b2 t with ⟨c', f', cd', hw', hg', hread'⟩ | ⟨_, hno'⟩
        · obtain ⟨rfl, rfl⟩ := wins_unique (distinctNames_of hd' _) (wins_iff h ht hw) hw'
          rw [← hacc] at hread'
          rw [hg, hg', readFrom_unique hread hread']
        · exact absurd (wins_iff h ht hw) (hno' c f)
      · rcases class_of_winner rfl b2 t with ⟨c', f', cd', hw', _⟩ | ⟨hg', _⟩
        · exact absurd (wins_iff h.symm ht hw') (hno c' f')
        · rw [hg, hg']

/-- C110: definition files that the data file does not need have no influence on the lines of the
report and on how it ends, as long as the set can be read. -/
theorem unused_files {lib : Lib} {pattern : Str → Pat} {d d' : SetDir} {env : Env} {f : H5File}
    (h : SameFilesFor (Mentions env f) d d') (hd' : DistinctFiles d')
    {mgr mgr' : Manager} (ho : OwnDefinitions lib pattern d mgr)
    (ho' : OwnDefinitions lib pattern d' mgr') (mins : Dict (Str × Str) Int) :
    (findings (validateOpen env mgr mins f).log).map lineOf =
      (findings (validateOpen env mgr' mins f).log).map lineOf ∧
    (validateOpen env mgr mins f).res = (validateOpen env mgr' mins f).res := by
  obtain ⟨h1, h2, h3, h4⟩ := same_files_classes h hd' ho ho'
  exact unused_definitions_lines env mins f h1 h2 h3 h4

/-- C110: `punx validate` on two installations whose sets with the name `ref` can be read and have
the same files for what the data file mentions: it prints the same lines, and ends normally on both or
on none. -/
theorem unused_files_command {lib : Lib} {pattern : Str → Pat} {w w' : Disks} {env : Env}
    {files : Str → FileState} {upper : Char → Str} {abspath : Str → Str}
    {sets sets' : Dict Str FileSet}
    (hs : allFileSets w.source w.user = .ok sets) (hw : ∀ kv ∈ sets, WellDescribed kv.2)
    (hs' : allFileSets w'.source w'.user = .ok sets') (hw' : ∀ kv ∈ sets', WellDescribed kv.2)
    {a : ValidateArgs} {ref : Str} (hr : a.fileSet = some ref) {s s' : FileSet}
    (hg : Dict.get? sets ref = some s) (hg' : Dict.get? sets' ref = some s')
    (hdef : HasDefinitions (w.dir s.path)) (hdef' : HasDefinitions (w'.dir s'.path))
    (hd : DistinctFiles (w.dir s.path)) (hd' : DistinctFiles (w'.dir s'.path))
    {mgr mgr' : Manager} (ho : OwnDefinitions lib pattern (w.dir s.path) mgr)
    (ho' : OwnDefinitions lib pattern (w'.dir s'.path) mgr')
    (h : ∀ f, files a.infile = .hdf5 f → SameFilesFor (Mentions env f) (w.dir s.path) (w'.dir s'.path))
    (ha : PlainAscii a.report) :
    (∀ fname l,
      (∃ rows sm sc, Act.report fname rows sm sc ∈
        (funcValidate (commandWorld lib pattern w env files upper abspath) a).log ∧
        l ∈ rows.map lineOf) ↔
      (∃ rows sm sc, Act.report fname rows sm sc ∈
        (funcValidate (commandWorld lib pattern w' env files upper abspath) a).log ∧
        l ∈ rows.map lineOf)) ∧
    ((funcValidate (commandWorld lib pattern w env files upper abspath) a).res = .ok () ↔
      (funcValidate (commandWorld lib pattern w' env files upper abspath) a).res = .ok ()) := by
  -- one direction for each claim
  have key : ∀ {w w' : Disks} {sets sets' : Dict Str FileSet} {s s' : FileSet} {mgr' : Manager},
      allFileSets w.source w.user = .ok sets → (∀ kv ∈ sets, WellDescribed kv.2) →
      allFileSets w'.source w'.user = .ok sets' → (∀ kv ∈ sets', WellDescribed kv.2) →
      Dict.get? sets ref = some s → Dict.get? sets' ref = some s' →
      HasDefinitions (w.dir s.path) → HasDefinitions (w'.dir s'.path) →
      DistinctFiles (w'.dir s'.path) →
      OwnDefinitions lib pattern (w'.dir s'.path) mgr' →
      (∀ f, files a.infile = .hdf5 f →
        SameFilesFor (Mentions env f) (w.dir s.path) (w'.dir s'.path)) →
      (∀ fname l,
        (∃ rows sm sc, Act.report fname rows sm sc ∈
          (funcValidate (commandWorld lib pattern w env files upper abspath) a).log ∧
          l ∈ rows.map lineOf) →
        (∃ rows sm sc, Act.report fname rows sm sc ∈
          (funcValidate (commandWorld lib pattern w' env files upper abspath) a).log ∧
          l ∈ rows.map lineOf)) ∧
      ((funcValidate (commandWorld lib pattern w env files upper abspath) a).res = .ok () →
        (funcValidate (commandWorld lib pattern w' env files upper abspath) a).res = .ok ()) := by
    intro w w' sets sets' s s' mgr' hs hw hs' hw' hg hg' hdef hdef' hd' ho' h
    have hD : ∀ r f, a.fileSet = some r → Dict.get? sets r = some f → HasDefinitions (w.dir f.path) := by
      intro r f h1 h2
      rw [hr] at h1
      injection h1 with h1
      subst h1
      rw [hg] at h2
      injection h2 with h2
      subst h2
      exact hdef
    have hD' : ∀ r f, a.fileSet = some r → Dict.get? sets' r = some f →
        HasDefinitions (w'.dir f.path) := by
      intro r f h1 h2
      rw [hr] at h1
      injection h1 with h1
      subst h1
      rw [hg'] at h2
      injection h2 with h2
      subst h2
      exact hdef'
    constructor
    · rintro fname l ⟨rows, sm, sc, h1, h2⟩
      obtain ⟨x, hx, rfl⟩ := List.mem_map.1 h2
      obtain ⟨e1, m, file, hR, r1, r2, r3⟩ := (command_rows hs hw hD ha fname x).1
        ⟨rows, sm, sc, h1, hx⟩
      obtain ⟨ref', s0, q1, q2, q3⟩ := hR.own
      rw [hr] at q1
      injection q1 with q1
      subst q1
      rw [hg] at q2
      injection q2 with q2
      subst q2
      obtain ⟨k1, k2⟩ := unused_files (h file hR.hdf5) hd' q3 ho' ([] : Dict (Str × Str) Int)
      have hx' : lineOf x ∈ (findings (validateOpen env mgr' [] file).log).map lineOf := by
        rw [← k1]; exact List.mem_map.2 ⟨x, r2, rfl⟩
      obtain ⟨y, hy, hxy⟩ := List.mem_map.1 hx'
      have hst : y.status = x.status := congrArg (fun l => l.2.2) hxy
      obtain ⟨rows', sm', sc', g1, g2⟩ := (command_rows (lib := lib) (pattern := pattern) (env := env)
        (files := files) (upper := upper) (abspath := abspath) hs' hw' hD' ha fname y).2
        ⟨e1, mgr', file, ⟨hR.options, hR.data, ⟨ref, s', hr, hg', ho'⟩, hR.hdf5⟩,
          k2 ▸ r1, hy, hst ▸ r3⟩
      exact ⟨rows', sm', sc', g1, List.mem_map.2 ⟨y, g2, hxy⟩⟩
    · intro h1
      obtain ⟨r1, r2, ref', s0, m, file, q1, q2, q3, q4, q5⟩ :=
        (command_validates_iff hs hw hD ha).1 h1
      rw [hr] at q1
      injection q1 with q1
      subst q1
      rw [hg] at q2
      injection q2 with q2
      subst q2
      obtain ⟨_, k2⟩ := unused_files (h file q4) hd' q3 ho' ([] : Dict (Str × Str) Int)
      exact (command_validates_iff hs' hw' hD' ha).2
        ⟨r1, r2, ref, s', mgr', file, hr, hg', ho', q4, k2 ▸ q5⟩
  have k1 := key hs hw hs' hw' hg hg' hdef hdef' hd' ho' h
  have k2 := key hs' hw' hs hw hg' hg hdef' hdef hd ho (fun f hf => (h f hf).symm)
  exact ⟨fun fname l => ⟨k1.1 fname l, k2.1 fname l⟩, ⟨k1.2, k2.2⟩⟩

end Punx

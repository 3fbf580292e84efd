import Verif.Props.Process5

/-!
# What `punx validate` reads (C89)
-/

namespace Punx
open Spec

theorem bind_of_ok {σ α β : Type} {m : Mut σ α} {f : α → Mut σ β} {s s' : σ} {a : α}
    (h : m s = (.ok a, s')) : (m >>= f) s = f a s' := by
  rw [Mut.bind_run, h]

theorem bind_of_error {σ α β : Type} {m : Mut σ α} {f : α → Mut σ β} {s s' : σ} {e : PyErr}
    (h : m s = (.error e, s')) : (m >>= f) s = (.error e, s') := by
  rw [Mut.bind_run, h]

/-- No schema manager has been made. -/
def Untouched (p : Proc) : Prop := p.shared = {} ∧ ∀ (i : Nat) (o : SetObj), p.objs[i]? = some o → o.schema = none

theorem untouched_addSets : ∀ (l : List (Str × FileSet)) (p : Proc), Untouched p →
    Untouched (addSets l p)
  | [], _, h => h
  | (k, f) :: l, p, h => by
    refine untouched_addSets l _ ⟨h.1, fun i o ho => ?_⟩
    change (p.objs ++ [⟨f, none⟩])[i]? = some o at ho
    rcases Nat.lt_or_ge i p.objs.length with hi | hi
    · rw [List.getElem?_append_left hi] at ho
      exact h.2 i o ho
    · rw [List.getElem?_append_right hi] at ho
      cases hk : i - p.objs.length with
      | zero => rw [hk] at ho; simp at ho; rw [← ho]
      | succ n => rw [hk] at ho; simp at ho

theorem untouched_readSets {w : Disks} {p p' : Proc} (hp : Untouched p)
    (h : readSets w p = (.ok (), p')) : Untouched p' := by
  unfold readSets at h
  split at h
  · cases h
  · split at h
    · cases h
    · injection h with _ h
      rw [← h]
      exact untouched_addSets _ _ (untouched_addSets _ _ hp)

/-- Selection of a set that is known. -/
theorem select_well {p : Proc} (hs : SetsOk p) (hw : ∀ kv ∈ p.infos, WellDescribed kv.2)
    {ref : Option Str} {k : Str} (hc : chooseSet p.infos ref = .ok k) :
    ∃ i o, Dict.get? p.infos k = some o.info ∧ p.objs[i]? = some o ∧
      selectSet ref p = (.ok (), { p with default := some i }) := by
  have hk : k ∈ Dict.keys p.infos := by
    rcases choose_cases hc with ⟨_, hk⟩ | ⟨⟨s, hl⟩, _⟩
    · exact hk
    · exact List.mem_map.2 ⟨_, mem_of_latest hl, rfl⟩
  rw [← Dict.has_iff] at hk
  cases hf : Dict.get? p.infos k with
  | none => simp [Dict.has, hf] at hk
  | some f =>
    obtain ⟨i, o, h1, h2, h3⟩ := (infos_get hs k f).1 hf
    refine ⟨i, o, by rw [h3], h2, ?_⟩
    have hp : o.info.printable = true := by
      have := (hw _ (Dict.mem_of_get? hf)).2
      rw [← h3] at this
      unfold FileSet.printable
      cases hsha : o.info.sha with
      | none => exact absurd hsha this
      | some _ => simp
    unfold selectSet
    rw [hc]
    dsimp only
    rw [h1]
    dsimp only
    rw [h2]
    dsimp only
    rw [if_pos hp]

/-- The part of `punx validate` before the definitions. -/
theorem command_start {w : Disks} {sets : Dict Str FileSet}
    (hs : allFileSets w.source w.user = .ok sets) (hw : ∀ kv ∈ sets, WellDescribed kv.2)
    (hne : sets ≠ []) :
    ∃ p, p.made = true ∧ SetsOk p ∧ Untouched p ∧ p.infos = sets ∧
      ∀ lib ref, commandLoad lib w ref {} =
        if ref ∈ Dict.keys sets then nxdlManager lib w (.named ref) p else (.error (.systemExit 1), p) := by
  have h00 : Untouched ({} : Proc) := ⟨rfl, by simp⟩
  obtain ⟨p1, h1⟩ := readSets_ok hs {}
  obtain ⟨a1, a2, a3, a4, a5⟩ := readSets_infos h1
  rw [hs] at a2
  injection a2 with a2
  have hd : datesComparable p1.infos = true := by rw [← a2]; exact comparable_of_well hw
  obtain ⟨k, s, _, hc⟩ := choose_latest hd (by rw [← a2]; exact hne) none (by simp)
  obtain ⟨i, o, b1, b2, b3⟩ := select_well a1 (by rw [← a2]; exact hw) hc
  have hcm : cacheManager w {} = (.ok (), { p1 with default := some i, made := true }) := by
    unfold cacheManager
    rw [if_neg (by decide)]
    have : initCaches w {} = (.ok (), { p1 with default := some i }) := by
      unfold initCaches
      refine (bind_of_ok h1).trans ?_
      change (match selectSet none p1 with
        | (Except.error PyErr.keyError, p') => (Except.ok (), p')
        | r => r) = _
      rw [b3]
    have e : ({ ({} : Proc) with sets := [], default := none } : Proc) = {} := rfl
    rw [e, this]
  obtain ⟨p2, h2⟩ := readSets_ok hs { p1 with default := some i, made := true }
  obtain ⟨c1, c2, c3, c4, c5⟩ := readSets_infos h2
  rw [hs] at c2
  injection c2 with c2
  have hu1 := untouched_readSets h00 h1
  refine ⟨p2, c3, c1, untouched_readSets (p := { p1 with default := some i, made := true })
    ⟨hu1.1, hu1.2⟩ h2, c2.symm, ?_⟩
  intro lib ref
  unfold commandLoad
  refine (bind_of_ok hcm).trans ((bind_of_ok h2).trans ?_)
  have : Dict.has p2.sets ref = true ↔ ref ∈ Dict.keys sets := by
    rw [Dict.has_iff, ← infos_keys c1, ← c2]
  by_cases hr : ref ∈ Dict.keys sets
  · rw [if_pos hr]
    exact if_pos (this.2 hr)
  · rw [if_neg hr]
    exact if_neg fun h => hr (this.1 h)

/-! ## the definitions -/

section
variable {lib : Lib} {w : Disks} {i : Nat} {o : SetObj} {p : Proc}

/-- The first use of the schema of the default set. -/
theorem setSchema_first (hu : Untouched p) (ho : p.objs[i]? = some o)
    (hh : (w.dir o.info.path).here = true) {own : OwnSchema} {sh : Shared} {x0 : XsNode}
    (hx : (w.dir o.info.path).xsd = some x0)
    (hn : newManager lib.fuel lib.int lib.compiles (w.dir o.info.path).xsd (w.dir o.info.path).types {} =
      (.ok own, sh)) :
    setSchema lib w i p = (.ok (some ⟨x0, (w.dir o.info.path).types, own⟩),
      { p with shared := sh,
               objs := p.objs.set i ⟨o.info, some ⟨x0, (w.dir o.info.path).types, own⟩⟩ }) := by
  unfold setSchema
  rw [ho]
  dsimp only
  rw [hu.2 i o ho]
  dsimp only
  rw [hh, hu.1, hn]
  dsimp only
  rw [hx]
  rfl

theorem setSchema_fails (hu : Untouched p) (ho : p.objs[i]? = some o)
    (hh : (w.dir o.info.path).here = true) {e : PyErr} {sh : Shared}
    (hn : newManager lib.fuel lib.int lib.compiles (w.dir o.info.path).xsd (w.dir o.info.path).types {} =
      (.error e, sh)) : (setSchema lib w i p).1 = .error e := by
  unfold setSchema
  rw [ho]
  dsimp only
  rw [hu.2 i o ho]
  dsimp only
  rw [hh, hu.1, hn]
  rfl

/-- The definitions of a set in a process that has made no schema manager: they are read like those of
a single directory. -/
theorem readDefs_first (hm : p.made = true) (hd : p.default = some i) (hu : Untouched p)
    (ho : p.objs[i]? = some o) (hh : (w.dir o.info.path).here = true)
    {l : List (Category × NxdlFile)} (hl : l ≠ []) {ds : Defaults}
    {r : Dict Str ClassDef × Defaults} {x0 : XsNode} (hx : (w.dir o.info.path).xsd = some x0) :
    (∀ p', readDefs lib w l [] ds p = (.ok r, p') → ∃ own, OwnManager lib (w.dir o.info.path) own ∧
        (readFiles (acceptedBy lib (w.dir o.info.path)) l []).run ds = .ok r) ∧
    ((∃ own, OwnManager lib (w.dir o.info.path) own ∧
        (readFiles (acceptedBy lib (w.dir o.info.path)) l []).run ds = .ok r) →
      ∃ p', readDefs lib w l [] ds p = (.ok r, p') ∧
        ∃ s, OwnManager lib (w.dir o.info.path) s.own ∧ p'.objs[i]? = some ⟨o.info, some s⟩) := by
  have hacc : acceptedBy lib (w.dir o.info.path) = lib.accepts x0 (w.dir o.info.path).types := by
    funext x
    unfold acceptedBy
    rw [hx]
  obtain ⟨⟨c, f⟩, l, rfl⟩ := List.exists_cons_of_ne_nil hl
  cases hn : newManager lib.fuel lib.int lib.compiles (w.dir o.info.path).xsd
      (w.dir o.info.path).types {} with
  | mk res sh =>
  cases res with
  | error e =>
    constructor
    · intro p' h
      exfalso
      unfold readDefs at h
      cases hf : f.content with
      | none => rw [hf] at h; exact Mut.fail_ok h
      | some x =>
        rw [hf] at h
        obtain ⟨_, p1, h1, _⟩ := Mut.bind_ok h
        unfold validateXml at h1
        obtain ⟨_, p2, g1, g⟩ := Mut.bind_ok h1
        rw [cacheManager_made hm] at g1
        injection g1 with _ g1
        subst g1
        obtain ⟨j, p3, g2, g'⟩ := Mut.bind_ok g
        obtain ⟨e1, g3⟩ := defaultSet_ok g2
        subst e1
        rw [hd] at g3
        injection g3 with g3
        subst g3
        obtain ⟨s, p4, g4, _⟩ := Mut.bind_ok g'
        have := setSchema_fails hu ho hh hn
        rw [g4] at this
        cases this
    · rintro ⟨own, ⟨sh', ho'⟩, _⟩
      rw [hn] at ho'
      injection ho' with ho' _
      cases ho'
  | ok own =>
    have hfirst := setSchema_first hu ho hh hx hn
    generalize hp4 : (Proc.mk sh (p.objs.set i ⟨o.info, some ⟨x0, (w.dir o.info.path).types, own⟩⟩)
      p.made p.sets p.default) = p4 at hfirst
    have hlt : i < p.objs.length := (List.getElem?_eq_some_iff.1 ho).1
    have hready : Ready p4 i ⟨x0, (w.dir o.info.path).types, own⟩ := by
      rw [← hp4]
      exact ⟨hm, hd, _, List.getElem?_set_self hlt, rfl⟩
    have hown : ∃ own, OwnManager lib (w.dir o.info.path) own := ⟨own, sh, hn⟩
    cases hf : f.content with
    | none =>
      constructor
      · intro p' h
        unfold readDefs at h
        rw [hf] at h
        exact absurd h fun h => Mut.fail_ok h
      · rintro ⟨_, _, h⟩
        exfalso
        unfold readFiles readFile at h
        rw [hf] at h
        cases h
    | some x =>
      have hv : validateXml lib w x p = validateXml lib w x p4 := by
        have h1 : validateXml lib w x p = (match (some (⟨x0, (w.dir o.info.path).types, own⟩ : SchemaObj)) with
            | none => Mut.fail .attributeError
            | some s => if lib.accepts s.xsd s.types x then pure () else Mut.fail .invalidNxdl : Mut Proc Unit) p4 := by
          refine (bind_of_ok (cacheManager_made hm)).trans ?_
          refine (bind_of_ok (a := i) (s' := p) ?_).trans ?_
          · unfold defaultSet
            rw [hd]
          · exact bind_of_ok hfirst
        rw [h1, validateXml_ready hready]
        dsimp only
        split <;> rfl
      have he : readDefs lib w ((c, f) :: l) [] ds p = readDefs lib w ((c, f) :: l) [] ds p4 := by
        unfold readDefs
        rw [hf]
        dsimp only
        rw [Mut.bind_run, Mut.bind_run, hv]
      rw [he, readDefs_ready hready, hacc]
      constructor
      · intro p' h
        injection h with h _
        exact ⟨own, ⟨sh, hn⟩, h⟩
      · rintro ⟨_, _, h⟩
        obtain ⟨_, _, o4, ho4, hs4⟩ := id hready
        refine ⟨p4, by rw [h], ⟨x0, (w.dir o.info.path).types, own⟩, ⟨sh, hn⟩, ?_⟩
        rw [← hp4]
        exact List.getElem?_set_self hlt

end

theorem fileList_nil_iff {d : SetDir} {s : Option Defaults} {l : List (Category × NxdlFile)}
    (h : fileListFrom ⟨true, s, d.listing⟩ allCategories = .ok l) : l = [] ↔ ¬ HasDefinitions d := by
  have h' : nxdlFileList ⟨true, s, d.listing⟩ = .ok l := h
  obtain ⟨hm, _, _, _⟩ := nxdlFileList_ok h'
  constructor
  · rintro rfl ⟨c, fs, f, h1, h2, h3⟩
    have := (hm c f).2 ⟨fs, h1, h2, h3⟩
    simp at this
  · intro hn
    cases l with
    | nil => rfl
    | cons q l =>
      obtain ⟨c, f⟩ := q
      obtain ⟨fs, h1, h2, h3⟩ := (hm c f).1 (by simp)
      exact absurd ⟨c, fs, f, h1, h2, h3⟩ hn

theorem loadClasses_list {valid : Xml → Bool} {s : Option Defaults}
    {li : Category → Option (List NxdlFile)} {l : List (Category × NxdlFile)}
    (h : nxdlFileList ⟨true, s, li⟩ = .ok l) :
    loadClasses valid ⟨true, s, li⟩ =
      (match (generalizing := false) s, l with
        | some d, l => ((readFiles valid l []).run d).map fun r => (r.1, some r.2)
        | none, [] => .ok ([], none)
        | none, _ :: _ => .error .assertionError) := by
  unfold loadClasses
  rw [if_pos rfl, h]
  cases s with
  | none => cases l <;> rfl
  | some d =>
    change (do let r ← (readFiles valid l []).run d
               .ok (r.1, some r.2)) =
      ((readFiles valid l []).run d).map fun r => (r.1, some r.2)
    cases (readFiles valid l []).run d <;> rfl

/-- The manager of a set in a process that has made no schema manager. -/
theorem readClasses_first {lib : Lib} {w : Disks} {i : Nat} {o : SetObj} {p : Proc}
    (hm : p.made = true) (hd : p.default = some i) (hu : Untouched p) (ho : p.objs[i]? = some o)
    (hh : (w.dir o.info.path).here = true) {s : Option Defaults}
    (hs : readDefaults lib (w.dir o.info.path) = .ok s) {l : List (Category × NxdlFile)}
    (hl : fileListFrom ⟨true, s, (w.dir o.info.path).listing⟩ allCategories = .ok l)
    {cl : Dict Str ClassDef} {ds : Option Defaults} :
    (∀ m p', readClasses lib w i s l p = (.ok m, p') → m.classes = cl → m.defaults = ds →
      ReadsTo lib (w.dir o.info.path) cl ds) ∧
    (ReadsTo lib (w.dir o.info.path) cl ds → ∃ p', readClasses lib w i s l p = (.ok ⟨i, cl, ds⟩, p') ∧
      ∃ so, p'.objs[i]? = some ⟨o.info, so⟩ ∧ (HasDefinitions (w.dir o.info.path) →
        ∃ z, so = some z ∧ OwnManager lib (w.dir o.info.path) z.own)) := by
  have hl' : nxdlFileList ⟨true, s, (w.dir o.info.path).listing⟩ = .ok l := hl
  have hnil := fileList_nil_iff hl
  have hload := loadClasses_list (valid := acceptedBy lib (w.dir o.info.path)) hl'
  have hreads : ReadsTo lib (w.dir o.info.path) cl ds ↔
      (HasDefinitions (w.dir o.info.path) → ∃ own, OwnManager lib (w.dir o.info.path) own) ∧
      loadClasses (acceptedBy lib (w.dir o.info.path)) ⟨true, s, (w.dir o.info.path).listing⟩ =
        .ok (cl, ds) := by
    constructor
    · rintro ⟨_, h1, s', h2, h3⟩
      rw [hs] at h2
      injection h2 with h2
      subst h2
      exact ⟨h1, h3⟩
    · rintro ⟨h1, h2⟩
      exact ⟨hh, h1, s, hs, h2⟩
  rw [hreads, hload]
  cases s with
  | none =>
    cases l with
    | nil =>
      have hno := hnil.1 rfl
      constructor
      · intro m p' h h1 h2
        obtain ⟨e, _⟩ := Mut.pure_ok h
        subst h1 h2
        rw [← e]
        exact ⟨fun h => absurd h hno, rfl⟩
      · rintro ⟨_, h⟩
        injection h with h
        injection h with h1 h2
        subst h1 h2
        exact ⟨p, rfl, o.schema, ho, fun h => absurd h hno⟩
    | cons q l =>
      constructor
      · intro m p' h
        exact absurd h fun h => Mut.fail_ok h
      · rintro ⟨_, h⟩
        cases h
  | some d =>
    dsimp only
    by_cases hl0 : l = []
    · have hno := hnil.1 hl0
      subst hl0
      constructor
      · intro m p' h h1 h2
        obtain ⟨r, p1, g1, g2⟩ := Mut.bind_ok h
        obtain ⟨e, _⟩ := Mut.pure_ok g1
        obtain ⟨e', _⟩ := Mut.pure_ok g2
        subst h1 h2 e
        rw [← e']
        exact ⟨fun h => absurd h hno, rfl⟩
      · rintro ⟨_, h⟩
        injection h with h
        injection h with h1 h2
        subst h1 h2
        exact ⟨p, rfl, o.schema, ho, fun h => absurd h hno⟩
    · have hyes : HasDefinitions (w.dir o.info.path) := by
        by_contra h
        exact hl0 (hnil.2 h)
      obtain ⟨x0, hx⟩ : ∃ x0, (w.dir o.info.path).xsd = some x0 := by
        unfold readDefaults at hs
        cases hx : (w.dir o.info.path).xsd with
        | none => rw [hx] at hs; cases hs
        | some x0 => exact ⟨x0, rfl⟩
      constructor
      · intro m p' h h1 h2
        obtain ⟨r, p1, g1, g2⟩ := Mut.bind_ok h
        obtain ⟨e', _⟩ := Mut.pure_ok g2
        obtain ⟨own, hown, hr⟩ := (readDefs_first hm hd hu ho hh hl0 hx).1 p1 g1
        subst h1 h2
        rw [← e', hr]
        exact ⟨fun _ => ⟨own, hown⟩, rfl⟩
      · rintro ⟨h1, h2⟩
        obtain ⟨own, hown⟩ := h1 hyes
        cases hr : (readFiles (acceptedBy lib (w.dir o.info.path)) l []).run d with
        | error e => rw [hr] at h2; cases h2
        | ok r =>
          rw [hr] at h2
          injection h2 with h2
          injection h2 with h2 h3
          obtain ⟨p', g1, z, g2, g3⟩ := (readDefs_first hm hd hu ho hh hl0 hx).2 ⟨own, hown, hr⟩
          subst h2 h3
          exact ⟨p', bind_of_ok g1, some z, g3, fun _ => ⟨z, rfl, g2⟩⟩

theorem command_load {lib : Lib} {w : Disks} {sets : Dict Str FileSet}
    (hs : allFileSets w.source w.user = .ok sets) (hw : ∀ kv ∈ sets, WellDescribed kv.2)
    {ref : Str} {cl : Dict Str ClassDef} {ds : Option Defaults} :
    (∀ m p', commandLoad lib w ref {} = (.ok m, p') → m.classes = cl → m.defaults = ds →
      ∃ f, Dict.get? sets ref = some f ∧ ReadsTo lib (w.dir f.path) cl ds) ∧
    (∀ f, Dict.get? sets ref = some f → ReadsTo lib (w.dir f.path) cl ds →
      ∃ m p', commandLoad lib w ref {} = (.ok m, p') ∧ m.classes = cl ∧ m.defaults = ds ∧
        ∃ so, p'.objs[m.fileSet]? = some ⟨f, so⟩ ∧ (HasDefinitions (w.dir f.path) →
          ∃ z, so = some z ∧ OwnManager lib (w.dir f.path) z.own)) := by
  by_cases hne : sets = []
  · subst hne
    constructor
    · intro m p' h
      exfalso
      unfold commandLoad at h
      obtain ⟨_, p1, h1, _⟩ := Mut.bind_ok h
      obtain ⟨sets, k, f, _, _, h2, h3, _⟩ := new_caches h1
      rw [hs] at h2
      injection h2 with h2
      have := mem_of_latest h3
      rw [← h2] at this
      simp at this
    · intro f h
      simp [Dict.get?] at h
  obtain ⟨p, h1, h2, h3, h4, h5⟩ := command_start hs hw hne
  rw [h5]
  by_cases hk : ref ∈ Dict.keys sets
  · rw [if_pos hk]
    have hc : chooseSet p.infos (some ref) = .ok ref :=
      choose_known (by rw [h4]; exact comparable_of_well hw) (by rw [h4]; exact hk)
    obtain ⟨i, o, g1, g2, g3⟩ := select_well h2 (by rw [h4]; exact hw) hc
    rw [h4] at g1
    have hwant : wantedSet w (.named ref) p = (.ok i, { p with default := some i }) :=
      (bind_of_ok (cacheManager_made h1)).trans ((bind_of_ok g3).trans rfl)
    have hobj : setObj i { p with default := some i } = (.ok o, { p with default := some i }) := by
      unfold setObj
      rw [g2]
    have hu : Untouched { p with default := some i } := ⟨h3.1, h3.2⟩
    constructor
    · intro m p' h e1 e2
      refine ⟨o.info, g1, ?_⟩
      obtain ⟨p1, o1, s, l, a1, a2, a3, a4, a5, a6⟩ := nxdlManager_ok h
      rw [hwant] at a1
      injection a1 with a0 a1
      injection a0 with a0
      subst a1
      rw [← a0, g2] at a2
      injection a2 with a2
      subst a2
      rw [← a0] at a6
      exact (readClasses_first (p := { p with default := some i }) h1 rfl hu g2 a3 a4 a5).1 m p' a6 e1 e2
    · intro f hf hr
      rw [hf] at g1
      injection g1 with g1
      subst g1
      obtain ⟨hh, _, s, hs', hl'⟩ := id hr
      obtain ⟨l, hl⟩ : ∃ l, fileListFrom ⟨true, s, (w.dir o.info.path).listing⟩ allCategories = .ok l := by
        cases hx : fileListFrom ⟨true, s, (w.dir o.info.path).listing⟩ allCategories with
        | ok l => exact ⟨l, rfl⟩
        | error e =>
          exfalso
          unfold loadClasses nxdlFileList at hl'
          rw [if_pos rfl, if_pos rfl, hx] at hl'
          cases hl'
      obtain ⟨p', b1, so, b2, b3⟩ := (readClasses_first (p := { p with default := some i }) h1 rfl hu g2 hh hs' hl).2 hr
      refine ⟨⟨i, cl, ds⟩, p', ?_, rfl, rfl, so, b2, b3⟩
      refine (bind_of_ok hwant).trans ((bind_of_ok hobj).trans ?_)
      have : (!(w.dir o.info.path).here) = false := by rw [hh]; rfl
      rw [this]
      refine (bind_of_ok (m := Mut.lift _) (a := s) (s' := { p with default := some i }) ?_).trans
        ((bind_of_ok (m := Mut.lift _) (a := l) (s' := { p with default := some i }) ?_).trans b1)
      · unfold Mut.lift; rw [hs']
      · unfold Mut.lift; rw [hl]
  · rw [if_neg hk]
    constructor
    · intro m p' h
      cases h
    · intro f hf
      exact absurd (by rw [← Dict.has_iff]; simp [Dict.has, hf]) hk

/-- **C89.** `punx validate` uses the definitions of the set that was asked for, checked with the schema
of that set; it depends on nothing else. -/
theorem command_load_iff {lib : Lib} {w : Disks} {sets : Dict Str FileSet}
    (hs : allFileSets w.source w.user = .ok sets) (hw : ∀ kv ∈ sets, WellDescribed kv.2)
    {ref : Str} {cl : Dict Str ClassDef} {ds : Option Defaults} :
    (∃ m p', commandLoad lib w ref {} = (.ok m, p') ∧ m.classes = cl ∧ m.defaults = ds) ↔
      ∃ f, Dict.get? sets ref = some f ∧ ReadsTo lib (w.dir f.path) cl ds := by
  constructor
  · rintro ⟨m, p', h, h1, h2⟩
    exact (command_load hs hw).1 m p' h h1 h2
  · rintro ⟨f, h1, h2⟩
    obtain ⟨m, p', a, b, c, _⟩ := (command_load hs hw).2 f h1 h2
    exact ⟨m, p', a, b, c⟩

/-- **C89.** The schema that `punx validate` works with is that of the set. -/
theorem command_schema {lib : Lib} {w : Disks} {sets : Dict Str FileSet}
    (hs : allFileSets w.source w.user = .ok sets) (hw : ∀ kv ∈ sets, WellDescribed kv.2)
    {ref : Str} {m : ManagerObj} {p' : Proc} (h : commandLoad lib w ref {} = (.ok m, p')) :
    ∃ f so, Dict.get? sets ref = some f ∧ p'.objs[m.fileSet]? = some ⟨f, so⟩ ∧
      (HasDefinitions (w.dir f.path) → ∃ z, so = some z ∧ OwnManager lib (w.dir f.path) z.own) := by
  obtain ⟨f, h1, h2⟩ := (command_load hs hw).1 m p' h rfl rfl
  obtain ⟨m2, p2, a, _, _, so, d, e⟩ := (command_load hs hw).2 f h1 h2
  rw [h] at a
  injection a with a1 a2
  injection a1 with a1
  subst a1 a2
  exact ⟨f, so, h1, d, e⟩

end Punx

import Verif.Props.Process

/-!
# Which schema is used for the definitions of a file set
-/

namespace Punx
open Spec

variable {α β : Type}

/-! ## once there is a cache manager -/

theorem cacheManager_made {w : Disks} {p : Proc} (h : p.made = true) :
    cacheManager w p = (.ok (), p) := by
  unfold cacheManager
  rw [if_pos h]

theorem cacheManager_ok {w : Disks} {p p' : Proc} (h : cacheManager w p = (.ok (), p')) :
    p'.made = true := by
  unfold cacheManager at h
  split at h
  · next hm => injection h with _ h; rw [← h]; exact hm
  · split at h
    · injection h with _ h; rw [← h]
    · cases h

/-- What stays when schemas are read. -/
def Same (p q : Proc) : Prop := q.made = p.made ∧ q.default = p.default ∧ q.sets = p.sets

theorem Same.refl (p : Proc) : Same p p := ⟨rfl, rfl, rfl⟩

theorem Same.trans {p q r : Proc} (h1 : Same p q) (h2 : Same q r) : Same p r :=
  ⟨h2.1.trans h1.1, h2.2.1.trans h1.2.1, h2.2.2.trans h1.2.2⟩

theorem setSchema_same (lib : Lib) (w : Disks) (i : Nat) (p : Proc) : Same p (setSchema lib w i p).2 := by
  unfold setSchema
  split
  · exact Same.refl p
  · split
    · exact Same.refl p
    · dsimp only
      split
      · exact Same.refl p
      · split
        · exact Same.refl p
        · split <;> exact Same.refl p

theorem setSchema_loaded {lib : Lib} {w : Disks} {i : Nat} {p : Proc} {o : SetObj} {s : SchemaObj}
    (ho : p.objs[i]? = some o) (hs : o.schema = some s) :
    setSchema lib w i p = (.ok (some s), p) := by
  unfold setSchema
  rw [ho]
  dsimp only
  rw [hs]

theorem setSchema_ok {lib : Lib} {w : Disks} {i : Nat} {p p' : Proc} {s : SchemaObj}
    (h : setSchema lib w i p = (.ok (some s), p')) :
    ∃ o, p'.objs[i]? = some o ∧ o.schema = some s := by
  unfold setSchema at h
  split at h
  · cases h
  · next o ho =>
    split at h
    · next s' hs =>
      injection h with h1 h2
      injection h1 with h1
      injection h1 with h1
      subst h1; subst h2
      exact ⟨o, ho, hs⟩
    · dsimp only at h
      split at h
      · cases h
      · split at h
        · cases h
        · split at h
          · cases h
          · injection h with h1 h2
            injection h1 with h1
            injection h1 with h1
            subst h1; subst h2
            obtain ⟨hi, _⟩ := List.getElem?_eq_some_iff.1 ho
            exact ⟨_, List.getElem?_set_self hi, rfl⟩

theorem defaultSet_ok {p p' : Proc} {i : Nat} (h : defaultSet p = (.ok i, p')) :
    p' = p ∧ p.default = some i := by
  unfold defaultSet at h
  split at h
  · cases h
  · next j hj =>
    injection h with h1 h2
    injection h1 with h1
    subst h1
    exact ⟨h2.symm, hj⟩

theorem setObj_ok {p p' : Proc} {i : Nat} {o : SetObj} (h : setObj i p = (.ok o, p')) :
    p' = p ∧ p.objs[i]? = some o := by
  unfold setObj at h
  split at h
  · cases h
  · next j hj =>
    injection h with h1 h2
    injection h1 with h1
    subst h1
    exact ⟨h2.symm, hj⟩

/-- The default file set is `j` and its schema `s` has been read. -/
structure Ready (p : Proc) (j : Nat) (s : SchemaObj) : Prop where
  made : p.made = true
  default : p.default = some j
  schema : ∃ o, p.objs[j]? = some o ∧ o.schema = some s

theorem validateXml_ready {lib : Lib} {w : Disks} {x : Xml} {p : Proc} {j : Nat} {s : SchemaObj}
    (h : Ready p j s) :
    validateXml lib w x p =
      (if lib.accepts s.xsd s.types x then (.ok (), p) else (.error .invalidNxdl, p)) := by
  obtain ⟨hm, hd, o, ho, hs⟩ := h
  unfold validateXml
  rw [Mut.bind_run, cacheManager_made hm]
  dsimp only
  rw [Mut.bind_run]
  have : defaultSet p = (.ok j, p) := by unfold defaultSet; rw [hd]
  rw [this]
  dsimp only
  rw [Mut.bind_run, setSchema_loaded ho hs]
  dsimp only
  split <;> rfl

theorem validateXml_ok {lib : Lib} {w : Disks} {x : Xml} {p p' : Proc}
    (h : validateXml lib w x p = (.ok (), p')) :
    ∃ j s, Ready p' j s ∧ lib.accepts s.xsd s.types x = true := by
  unfold validateXml at h
  obtain ⟨_, p1, h1, h⟩ := Mut.bind_ok h
  obtain ⟨j, p2, h2, h⟩ := Mut.bind_ok h
  obtain ⟨s, p3, h3, h⟩ := Mut.bind_ok h
  obtain ⟨rfl, hd⟩ := defaultSet_ok h2
  cases s with
  | none => exact absurd h (fun h => Mut.fail_ok h)
  | some s =>
    dsimp only at h
    split at h
    · next hacc =>
      obtain ⟨_, rfl⟩ := Mut.pure_ok h
      have hsame := setSchema_same lib w j p2
      rw [h3] at hsame
      obtain ⟨o, ho, hs⟩ := setSchema_ok h3
      exact ⟨j, s, ⟨hsame.1.trans (cacheManager_ok h1), hsame.2.1.trans hd, o, ho, hs⟩, hacc⟩
    · exact absurd h (fun h => Mut.fail_ok h)

/-- Once the schema is read, the definitions are read as `Verif.Model.NxdlParse` says. -/
theorem readDefs_ready {lib : Lib} {w : Disks} {p : Proc} {j : Nat} {s : SchemaObj}
    (h : Ready p j s) : ∀ (l : List (Category × NxdlFile)) (acc : Dict Str ClassDef) (d : Defaults),
    readDefs lib w l acc d p = ((readFiles (lib.accepts s.xsd s.types) l acc).run d, p)
  | [], acc, d => rfl
  | (c, f) :: l, acc, d => by
    unfold readDefs readFiles readFile
    cases hf : f.content with
    | none => rfl
    | some x =>
      dsimp only
      rw [Mut.bind_run, validateXml_ready h]
      by_cases ha : lib.accepts s.xsd s.types x = true
      · rw [if_pos ha, if_pos ha]
        dsimp only
        rw [Mut.bind_run]
        have : (Mut.lift ((readDefinition (titleOf f) c x).run d) : Mut Proc _) p =
            ((readDefinition (titleOf f) c x).run d, p) := rfl
        rw [this]
        cases hr : (readDefinition (titleOf f) c x).run d with
        | error e =>
          dsimp only
          refine Prod.ext ?_ rfl
          simp only [StateT.run_bind, hr]
          rfl
        | ok r =>
          dsimp only
          rw [readDefs_ready h l]
          refine Prod.ext ?_ rfl
          simp only [StateT.run_bind, hr]
          rfl
      · rw [if_neg ha, if_neg ha]
        rfl

theorem readDefs_ok {lib : Lib} {w : Disks} {l : List (Category × NxdlFile)}
    {acc : Dict Str ClassDef} {d : Defaults} {p p' : Proc} {r : Dict Str ClassDef × Defaults}
    (h : readDefs lib w l acc d p = (.ok r, p')) :
    (l = [] ∧ r = (acc, d) ∧ p' = p) ∨
      ∃ j s, Ready p' j s ∧ (readFiles (lib.accepts s.xsd s.types) l acc).run d = .ok r := by
  cases l with
  | nil =>
    obtain ⟨h1, h2⟩ := Mut.pure_ok h
    exact .inl ⟨rfl, h1.symm, h2.symm⟩
  | cons cf l =>
    right
    obtain ⟨c, f⟩ := cf
    have h0 := h
    unfold readDefs at h
    cases hf : f.content with
    | none => rw [hf] at h; exact absurd h (fun h => Mut.fail_ok h)
    | some x =>
      rw [hf] at h
      dsimp only at h
      obtain ⟨_, p2, h1, g⟩ := Mut.bind_ok h
      obtain ⟨r1, p3, h2, g'⟩ := Mut.bind_ok g
      obtain ⟨hr1, e3⟩ := Mut.lift_ok h2
      subst e3
      obtain ⟨j, s, hready, ha⟩ := validateXml_ok h1
      rw [readDefs_ready hready] at g'
      injection g' with h3 h4
      subst h4
      refine ⟨j, s, hready, ?_⟩
      have := readDefs_ready (lib := lib) (w := w) hready ((c, f) :: l) acc d
      unfold readDefs at this
      rw [hf] at this
      dsimp only at this
      rw [Mut.bind_run, validateXml_ready hready, if_pos ha] at this
      dsimp only at this
      rw [Mut.bind_run] at this
      have e : (Mut.lift ((readDefinition (titleOf f) c x).run d) : Mut Proc _) p3 =
            ((readDefinition (titleOf f) c x).run d, p3) := rfl
      rw [e, hr1] at this
      dsimp only at this
      rw [readDefs_ready hready, h3] at this
      injection this with h5 _
      exact h5.symm

theorem wantedSet_ok {w : Disks} {arg : SetArg} {p p' : Proc} {i : Nat}
    (h : wantedSet w arg p = (.ok i, p')) :
    (arg = .object i ∧ p' = p) ∨ (ByName arg ∧ p'.made = true ∧ p'.default = some i) := by
  cases arg with
  | object k =>
    obtain ⟨h1, h2⟩ := Mut.pure_ok h
    subst h1
    exact .inl ⟨rfl, h2.symm⟩
  | latest =>
    right
    obtain ⟨_, p1, h1, h⟩ := Mut.bind_ok h
    obtain ⟨rfl, hd⟩ := defaultSet_ok h
    exact ⟨trivial, cacheManager_ok h1, hd⟩
  | named r =>
    right
    obtain ⟨_, p1, h1, h⟩ := Mut.bind_ok h
    obtain ⟨_, p2, h2, h⟩ := Mut.bind_ok h
    obtain ⟨rfl, hd⟩ := defaultSet_ok h
    refine ⟨trivial, ?_, hd⟩
    have hm := cacheManager_ok h1
    have : (selectSet (some r) p1).2.made = p1.made := by
      unfold selectSet
      split
      · rfl
      · split
        · rfl
        · split <;> rfl
    rw [h2] at this
    exact this.trans hm

/-- The parts of a manager that was made. -/
theorem nxdlManager_ok {lib : Lib} {w : Disks} {arg : SetArg} {p p' : Proc} {m : ManagerObj}
    (h : nxdlManager lib w arg p = (.ok m, p')) :
    ∃ p1 o d l, wantedSet w arg p = (.ok m.fileSet, p1) ∧ p1.objs[m.fileSet]? = some o ∧
      (w.dir o.info.path).here = true ∧ readDefaults lib (w.dir o.info.path) = .ok d ∧
      fileListFrom ⟨true, d, (w.dir o.info.path).listing⟩ allCategories = .ok l ∧
      readClasses lib w m.fileSet d l p1 = (.ok m, p') := by
  unfold nxdlManager at h
  obtain ⟨i, p1, h1, g⟩ := Mut.bind_ok h
  obtain ⟨o, p2, h2, h⟩ := Mut.bind_ok g
  obtain ⟨e2, ho⟩ := setObj_ok h2
  subst e2
  clear g
  split at h
  · exact absurd h (fun h => Mut.fail_ok h)
  · next hh =>
    obtain ⟨d, p3, h3, g⟩ := Mut.bind_ok h
    obtain ⟨l, p4, h4, g'⟩ := Mut.bind_ok g
    obtain ⟨hd, e3⟩ := Mut.lift_ok h3
    obtain ⟨hl, e4⟩ := Mut.lift_ok h4
    subst e3 e4
    clear h g
    have h := g'
    have hi : m.fileSet = i := by
      have h' := h
      cases d with
      | none =>
        cases l with
        | nil => obtain ⟨h5, _⟩ := Mut.pure_ok h'; rw [← h5]
        | cons _ _ => exact absurd h' (fun h => Mut.fail_ok h)
      | some ds =>
        obtain ⟨r, p5, h5, h'⟩ := Mut.bind_ok h'
        obtain ⟨h6, _⟩ := Mut.pure_ok h'
        rw [← h6]
    subst hi
    exact ⟨p4, o, d, l, h1, ho, by simpa using hh, hd, hl, h⟩

theorem readFiles_acc_ne {valid : Xml → Bool} : ∀ {l : List (Category × NxdlFile)}
    {acc : Dict Str ClassDef} {d : Defaults} {r : Dict Str ClassDef × Defaults},
    (readFiles valid l acc).run d = .ok r → l = [] → r.1 = acc := by
  intro l acc d r h hl
  subst hl
  injection h with h
  rw [← h]

/-- **C86.** What a manager of definitions holds: the classes of the files of its set, read with the
defaults of the schema of its set (`nxdl.xsd` in its directory), as far as they are accepted by
the schema of the file set that is the default at the end. -/
theorem manager_definitions {lib : Lib} {w : Disks} {arg : SetArg} {p p' : Proc} {m : ManagerObj}
    (h : nxdlManager lib w arg p = (.ok m, p')) :
    ∃ o d valid, p'.objs[m.fileSet]? = some o ∧ readDefaults lib (w.dir o.info.path) = .ok d ∧
      loadClasses valid ⟨(w.dir o.info.path).here, d, (w.dir o.info.path).listing⟩ =
        .ok (m.classes, m.defaults) ∧
      ((∃ c fs f, (w.dir o.info.path).listing c = some fs ∧ f ∈ fs ∧ IsNxdl f) →
        ∃ j s, Ready p' j s ∧ valid = lib.accepts s.xsd s.types) := by
  obtain ⟨p1, o, d, l, h1, ho, hh, hd, hl, hc⟩ := nxdlManager_ok h
  have hg : Grows p1 p' := by
    have := readClasses_rel (grows_rel w) lib m.fileSet d l p1
    rw [hc] at this
    exact this
  obtain ⟨o', ho', hinfo, _⟩ := hg.objs _ _ ho
  have hpath : o'.info.path = o.info.path := by rw [hinfo]
  refine ⟨o', d, ?_⟩
  rw [hpath, hh]
  have hl' : nxdlFileList ⟨true, d, (w.dir o.info.path).listing⟩ = .ok l := by
    unfold nxdlFileList
    exact hl
  have hmem := (nxdlFileList_ok hl').1
  cases d with
  | none =>
    cases l with
    | cons _ _ => exact absurd hc (fun h => Mut.fail_ok h)
    | nil =>
      obtain ⟨h5, _⟩ := Mut.pure_ok hc
      refine ⟨fun _ => true, ho', hd, ?_, ?_⟩
      · unfold loadClasses
        simp only [if_true, hl', bind, Except.bind]
        rw [← h5]
      · rintro ⟨c, fs, f, g1, g2, g3⟩
        have := (hmem c f).2 ⟨fs, g1, g2, g3⟩
        simp at this
  | some ds =>
    obtain ⟨r, p5, h5, h6⟩ := Mut.bind_ok hc
    obtain ⟨hm, rfl⟩ := Mut.pure_ok h6
    rcases readDefs_ok h5 with ⟨rfl, hr, rfl⟩ | ⟨j, s, hready, hr⟩
    · refine ⟨fun _ => true, ho', hd, ?_, ?_⟩
      · unfold loadClasses
        simp only [if_true, hl', bind, Except.bind]
        rw [← hm, hr]
        rfl
      · rintro ⟨c, fs, f, g1, g2, g3⟩
        have := (hmem c f).2 ⟨fs, g1, g2, g3⟩
        simp at this
    · refine ⟨lib.accepts s.xsd s.types, ho', hd, ?_, fun _ => ⟨j, s, hready, rfl⟩⟩
      unfold loadClasses
      simp only [if_true, hl', bind, Except.bind]
      rw [hr]
      dsimp only
      rw [← hm]

/-! ## by name: the own schema -/

/-- When there is a cache manager, reading definitions does not change the default. -/
def KeepsDefault (m : Mut Proc α) : Prop := ∀ p, p.made = true → Same p (m p).2

theorem keepsDefault_bind {m : Mut Proc α} {f : α → Mut Proc β} (hm : KeepsDefault m)
    (hf : ∀ a, KeepsDefault (f a)) : KeepsDefault (m >>= f) := by
  intro p hp
  rw [Mut.bind_run]
  have h1 := hm p hp
  cases h : m p with
  | mk r p1 =>
    rw [h] at h1
    cases r with
    | error e => exact h1
    | ok a => exact h1.trans (hf a p1 (h1.1.trans hp))

theorem keepsDefault_validateXml (lib : Lib) (w : Disks) (x : Xml) :
    KeepsDefault (validateXml lib w x) := by
  refine keepsDefault_bind (fun p hp => by rw [cacheManager_made hp]; exact Same.refl p) fun _ =>
    keepsDefault_bind (fun p _ => ?_) fun i =>
    keepsDefault_bind (fun p _ => setSchema_same lib w i p) fun s => ?_
  · unfold defaultSet
    split <;> exact Same.refl p
  · intro p _
    cases s with
    | none => exact Same.refl p
    | some s =>
      dsimp only
      split <;> exact Same.refl p

theorem keepsDefault_readDefs (lib : Lib) (w : Disks) : ∀ (l : List (Category × NxdlFile))
    (acc : Dict Str ClassDef) (d : Defaults), KeepsDefault (readDefs lib w l acc d)
  | [], _, _ => fun p _ => Same.refl p
  | (c, f) :: l, acc, d => by
    unfold readDefs
    cases f.content with
    | none => exact fun p _ => Same.refl p
    | some x =>
      exact keepsDefault_bind (keepsDefault_validateXml lib w x) fun _ =>
        keepsDefault_bind (fun p _ => Same.refl p) fun r => keepsDefault_readDefs lib w l _ _

theorem keepsDefault_readClasses (lib : Lib) (w : Disks) (i : Nat) (d : Option Defaults)
    (l : List (Category × NxdlFile)) : KeepsDefault (readClasses lib w i d l) := by
  cases d with
  | none => cases l <;> exact fun p _ => Same.refl p
  | some ds =>
    exact keepsDefault_bind (keepsDefault_readDefs lib w l _ _) fun _ p _ => Same.refl p

/-- **C86, C87.** A manager that is made by name, or without a name, is one of the default file
set. -/
theorem manager_is_default {lib : Lib} {w : Disks} {arg : SetArg} (ha : ByName arg) {p p' : Proc}
    {m : ManagerObj} (h : nxdlManager lib w arg p = (.ok m, p')) : p'.default = some m.fileSet := by
  obtain ⟨p1, o, d, l, h1, _, _, _, _, hc⟩ := nxdlManager_ok h
  rcases wantedSet_ok h1 with ⟨rfl, _⟩ | ⟨_, hm, hd⟩
  · exact absurd ha id
  · have := keepsDefault_readClasses lib w m.fileSet d l p1 hm
    rw [hc] at this
    exact this.2.1.trans hd

/-- **C86.** As long as the files do not change: the definitions of a manager that was made by name,
or without a name, are accepted by the schema of their own set.  (Full claim: also for a manager that
is made for a file set object; false, see `foreign_schema`.) -/
theorem own_schema_partial {lib : Lib} {xs : List Doing} {w : Disks}
    (hx : ∀ x ∈ xs, x.disks.dir = w.dir) {arg : SetArg} (ha : ByName arg) {p' : Proc} {m : ManagerObj}
    (h : nxdlManager lib w arg (afterAll lib xs {}) = (.ok m, p')) :
    ∃ o, p'.objs[m.fileSet]? = some o ∧ AcceptsAll lib (w.dir o.info.path) := by
  have h0 : UpToDate w.dir ({} : Proc) := by
    intro i o ho
    simp at ho
  have hu : UpToDate w.dir p' := by
    have := nxdlManager_rel (upToDate_rel (w := w) rfl) lib arg (afterAll lib xs {})
    rw [h] at this
    exact this (upToDate_after hx h0)
  obtain ⟨o, d, valid, ho, hd, hl, hv⟩ := manager_definitions h
  refine ⟨o, ho, ?_⟩
  intro c fs f x h1 h2 h3 h4
  obtain ⟨j, s, hready, hvalid⟩ := hv ⟨c, fs, f, h1, h2, h3⟩
  obtain ⟨_, hdef, o', ho', hs⟩ := hready
  have : j = m.fileSet := by
    have := manager_is_default ha h
    rw [hdef] at this
    exact (Option.some.inj this)
  subst this
  rw [ho] at ho'
  cases ho'
  obtain ⟨hu1, hu2⟩ := hu _ _ ho s hs
  refine ⟨s.xsd, hu1, ?_⟩
  rw [hu2]
  cases d with
  | none =>
    exfalso
    unfold readDefaults at hd
    rw [hu1] at hd
    dsimp only at hd
    cases hsum : summarize lib.fuel lib.int s.xsd with
    | error e => rw [hsum] at hd; cases hd
    | ok y => rw [hsum] at hd; cases hd
  | some ds =>
    obtain ⟨l, d', hl1, hr, _⟩ := loadClasses_ok rfl hl
    obtain ⟨hm, _, _, _⟩ := nxdlFileList_ok hl1
    have hcf : (c, f) ∈ l := (hm c f).2 ⟨fs, h1, h2, h3⟩
    have key : ∀ {l : List (Category × NxdlFile)} {acc : Dict Str ClassDef} {d : Defaults} {r},
        readFiles valid l acc d = .ok r → ∀ q ∈ l, ∀ y, q.2.content = some y → valid y = true := by
      intro l
      induction l with
      | nil => intro _ _ _ _ q hq; simp at hq
      | cons q l ih =>
        intro acc d r hr q' hq' y hy
        obtain ⟨c, f⟩ := q
        unfold readFiles at hr
        obtain ⟨cd, d1, hf, hr⟩ := Reader.bind_ok.1 hr
        obtain ⟨x', hx', hvx, _⟩ := readFile_ok.1 hf
        rcases List.mem_cons.1 hq' with rfl | hq'
        · dsimp only at hy
          rw [hx'] at hy
          cases hy
          exact hvx
        · exact ih hr q' hq' y hy
    have := key hr (c, f) hcf x h4
    rw [hvalid] at this
    exact this

end Punx

import Verif.Spec.Process
import Verif.Props.SchemaManager
import Verif.Props.NxdlParse4
import Verif.Props.Cache

/-!
# The objects of a process: what stays as it is
-/

namespace Punx
open Spec

variable {α β : Type}

/-! ## relations between states before and after -/

/-- A relation that looks at the objects only, kept by new objects and by the reading of schemas on
the disk `w`. -/
structure ObjRel (w : Disks) (R : Proc → Proc → Prop) : Prop where
  trans : ∀ {p q r}, R p q → R q r → R p r
  same : ∀ {p q : Proc}, q.objs = p.objs → (p.made = true → q.made = true) → R p q
  add : ∀ (p : Proc) f sets, R p { p with objs := p.objs ++ [⟨f, none⟩], sets := sets }
  load : ∀ (p : Proc) (i : Nat) (o : SetObj) x own sh, p.objs[i]? = some o → o.schema = none →
    (w.dir o.info.path).xsd = some x →
    R p { p with shared := sh, objs := p.objs.set i ⟨o.info, some ⟨x, (w.dir o.info.path).types, own⟩⟩ }

/-- Whatever happens, the relation holds afterwards. -/
def KeepsRel (R : Proc → Proc → Prop) (m : Mut Proc α) : Prop := ∀ p, R p (m p).2

section
variable {w : Disks} {R : Proc → Proc → Prop} (hR : ObjRel w R)
include hR

theorem ObjRel.refl (p : Proc) : R p p := hR.same rfl id

theorem keepsRel_pure (a : α) : KeepsRel R (pure a : Mut Proc α) := fun p => hR.refl p

theorem keepsRel_fail (e : PyErr) : KeepsRel R (Mut.fail e : Mut Proc α) := fun p => hR.refl p

theorem keepsRel_lift (x : Except PyErr α) : KeepsRel R (Mut.lift x : Mut Proc α) :=
  fun p => hR.refl p

theorem keepsRel_bind {m : Mut Proc α} {f : α → Mut Proc β} (hm : KeepsRel R m)
    (hf : ∀ a, KeepsRel R (f a)) : KeepsRel R (m >>= f) := by
  intro p
  rw [Mut.bind_run]
  have h1 := hm p
  cases h : m p with
  | mk r p1 =>
    rw [h] at h1
    cases r with
    | error e => exact h1
    | ok a => exact hR.trans h1 (hf a p1)

theorem addSets_rel : ∀ (l : List (Str × FileSet)) (p : Proc), R p (addSets l p)
  | [], p => hR.refl p
  | (_, f) :: l, p => hR.trans (hR.add p f _) (addSets_rel l _)

theorem readSets_rel (w' : Disks) : KeepsRel R (readSets w') := by
  intro p
  have h0 : R p { p with sets := [] } := hR.same rfl id
  unfold readSets
  split
  · exact h0
  · split
    · exact hR.trans h0 (addSets_rel hR _ _)
    · exact hR.trans h0 (hR.trans (addSets_rel hR _ _) (addSets_rel hR _ _))

theorem selectSet_rel (ref : Option Str) : KeepsRel R (selectSet ref) := by
  intro p
  unfold selectSet
  split
  · exact hR.refl p
  · split
    · exact hR.refl p
    · split
      · exact hR.refl p
      · exact hR.same rfl id

theorem initCaches_rel (w' : Disks) : KeepsRel R (initCaches w') := by
  unfold initCaches
  refine keepsRel_bind hR (readSets_rel hR w') fun _ => ?_
  intro p
  have h := selectSet_rel hR none p
  dsimp only
  split
  · next h' => rw [h'] at h; exact h
  · exact h

theorem cacheManager_rel (w' : Disks) : KeepsRel R (cacheManager w') := by
  intro p
  unfold cacheManager
  split
  · exact hR.refl p
  · have h0 : R p { p with sets := [], default := none } := hR.same rfl id
    have h1 := initCaches_rel hR w' { p with sets := [], default := none }
    split
    · next h' => rw [h'] at h1; exact hR.trans h0 (hR.trans h1 (hR.same rfl fun _ => rfl))
    · next h' => rw [h'] at h1; exact hR.trans h0 (hR.trans h1 (hR.same rfl id))

theorem setSchema_rel (lib : Lib) (i : Nat) : KeepsRel R (setSchema lib w i) := by
  intro p
  unfold setSchema
  split
  · exact hR.refl p
  · next o ho =>
    split
    · exact hR.refl p
    · next hs =>
      dsimp only
      split
      · exact hR.refl p
      · split
        · exact hR.same rfl id
        · split
          · exact hR.same rfl id
          · next x hx => exact hR.load p i o x _ _ ho hs hx

theorem defaultSet_rel : KeepsRel R defaultSet := by
  intro p
  unfold defaultSet
  split <;> exact hR.refl p

theorem setObj_rel (i : Nat) : KeepsRel R (setObj i) := by
  intro p
  unfold setObj
  split <;> exact hR.refl p

theorem wantedSet_rel (w' : Disks) (arg : SetArg) : KeepsRel R (wantedSet w' arg) := by
  cases arg with
  | object i => exact keepsRel_pure hR i
  | latest => exact keepsRel_bind hR (cacheManager_rel hR w') fun _ => defaultSet_rel hR
  | named r =>
    exact keepsRel_bind hR (cacheManager_rel hR w') fun _ =>
      keepsRel_bind hR (selectSet_rel hR _) fun _ => defaultSet_rel hR

theorem validateXml_rel (lib : Lib) (x : Xml) : KeepsRel R (validateXml lib w x) := by
  refine keepsRel_bind hR (cacheManager_rel hR w) fun _ =>
    keepsRel_bind hR (defaultSet_rel hR) fun i => keepsRel_bind hR (setSchema_rel hR lib i) fun s => ?_
  cases s with
  | none => exact keepsRel_fail hR _
  | some s =>
    dsimp only
    split
    · exact keepsRel_pure hR _
    · exact keepsRel_fail hR _

theorem readDefs_rel (lib : Lib) : ∀ (l : List (Category × NxdlFile)) (acc : Dict Str ClassDef)
    (d : Defaults), KeepsRel R (readDefs lib w l acc d)
  | [], acc, d => keepsRel_pure hR _
  | (c, f) :: l, acc, d => by
    unfold readDefs
    cases f.content with
    | none => exact keepsRel_fail hR _
    | some x =>
      exact keepsRel_bind hR (validateXml_rel hR lib x) fun _ =>
        keepsRel_bind hR (keepsRel_lift hR _) fun r => readDefs_rel lib l _ _

theorem readClasses_rel (lib : Lib) (i : Nat) (s : Option Defaults) (l : List (Category × NxdlFile)) :
    KeepsRel R (readClasses lib w i s l) := by
  cases s with
  | none =>
    cases l with
    | nil => exact keepsRel_pure hR _
    | cons _ _ => exact keepsRel_fail hR _
  | some ds =>
    exact keepsRel_bind hR (readDefs_rel hR lib l _ _) fun _ => keepsRel_pure hR _

theorem nxdlManager_rel (lib : Lib) (arg : SetArg) : KeepsRel R (nxdlManager lib w arg) := by
  refine keepsRel_bind hR (wantedSet_rel hR w arg) fun i => keepsRel_bind hR (setObj_rel hR i) fun o => ?_
  split
  · exact keepsRel_fail hR _
  · exact keepsRel_bind hR (keepsRel_lift hR _) fun s => keepsRel_bind hR (keepsRel_lift hR _) fun l =>
      readClasses_rel hR lib i s l
end

theorem perform_rel {R : Proc → Proc → Prop} {lib : Lib} (x : Doing) (hR : ObjRel x.disks R) :
    KeepsRel R (perform lib x) := by
  cases x with
  | list w => exact keepsRel_bind hR (cacheManager_rel hR w) fun _ => readSets_rel hR w
  | select w r => exact keepsRel_bind hR (cacheManager_rel hR w) fun _ => selectSet_rel hR r
  | manager w a => exact keepsRel_bind hR (nxdlManager_rel hR lib a) fun _ => keepsRel_pure hR _
  | schema w i => exact keepsRel_bind hR (setSchema_rel hR lib i) fun _ => keepsRel_pure hR _

theorem afterAll_rel {R : Proc → Proc → Prop} {lib : Lib} (hr : ∀ p, R p p)
    (ht : ∀ {p q r}, R p q → R q r → R p r) : ∀ (xs : List Doing) (p : Proc),
    (∀ x ∈ xs, ObjRel x.disks R) → R p (afterAll lib xs p)
  | [], p, _ => hr p
  | x :: xs, p, h => by
    exact ht (perform_rel (lib := lib) x (h x (by simp)) p)
      (afterAll_rel hr ht xs _ fun y hy => h y (by simp [hy]))

/-! ## objects and their schemas stay -/

theorem grows_rel (w : Disks) : ObjRel w Grows where
  trans := by
    intro p q r h1 h2
    refine ⟨fun h => h2.made (h1.made h), fun i o ho => ?_⟩
    obtain ⟨o1, g1, g2, g3⟩ := h1.objs i o ho
    obtain ⟨o2, k1, k2, k3⟩ := h2.objs i o1 g1
    exact ⟨o2, k1, k2.trans g2, fun s hs => k3 s (g3 s hs)⟩
  same := by
    intro p q h hm
    exact ⟨hm, fun i o ho => ⟨o, by rw [h]; exact ho, rfl, fun _ h => h⟩⟩
  add := by
    intro p f sets
    refine ⟨id, fun i o ho => ⟨o, ?_, rfl, fun _ h => h⟩⟩
    obtain ⟨hi, rfl⟩ := List.getElem?_eq_some_iff.1 ho
    exact (List.getElem?_append_left hi).trans ho
  load := by
    intro p i o x own sh ho hs hx
    refine ⟨id, fun j o' ho' => ?_⟩
    by_cases hij : i = j
    · subst hij
      rw [ho] at ho'
      cases ho'
      obtain ⟨hi, _⟩ := List.getElem?_eq_some_iff.1 ho
      exact ⟨_, List.getElem?_set_self hi, rfl, fun s h => by rw [hs] at h; cases h⟩
    · exact ⟨o', (List.getElem?_set_ne hij).trans ho', rfl, fun _ h => h⟩

theorem grows_refl (p : Proc) : Grows p p := (grows_rel ⟨⟨[], [], fun _ => none⟩, ⟨[], [], fun _ => none⟩,
  fun _ => ⟨false, none, none, fun _ => none⟩⟩).refl p

theorem grows_trans {p q r : Proc} (h1 : Grows p q) (h2 : Grows q r) : Grows p r :=
  (grows_rel ⟨⟨[], [], fun _ => none⟩, ⟨[], [], fun _ => none⟩,
    fun _ => ⟨false, none, none, fun _ => none⟩⟩).trans h1 h2

/-- **C88.** Whatever a process does, a file set keeps the schema that was read for it. -/
theorem schema_stays (lib : Lib) (xs : List Doing) (p : Proc) : Grows p (afterAll lib xs p) :=
  afterAll_rel grows_refl grows_trans xs p fun x _ => grows_rel x.disks

theorem upToDate_rel {w : Disks} {dir : Str → SetDir} (hw : w.dir = dir) :
    ObjRel w (fun p q => UpToDate dir p → UpToDate dir q) where
  trans := fun h1 h2 h => h2 (h1 h)
  same := by
    intro p q h _ hp i o ho
    rw [h] at ho
    exact hp i o ho
  add := by
    intro p f sets hp i o ho s hs
    dsimp only at ho
    rcases Nat.lt_or_ge i p.objs.length with hi | hi
    · rw [List.getElem?_append_left hi] at ho
      exact hp i o ho s hs
    · rw [List.getElem?_append_right hi] at ho
      have : o = ⟨f, none⟩ := by
        have hm := List.mem_of_getElem? ho
        simpa using hm
      rw [this] at hs
      cases hs
  load := by
    intro p i o x own sh ho hs hx hp j o' ho' s hs'
    dsimp only at ho'
    by_cases hij : i = j
    · subst hij
      obtain ⟨hi, _⟩ := List.getElem?_eq_some_iff.1 ho
      rw [List.getElem?_set_self hi] at ho'
      cases ho'
      cases hs'
      exact ⟨by rw [← hw]; exact hx, by rw [← hw]⟩
    · rw [List.getElem?_set_ne hij] at ho'
      exact hp j o' ho' s hs'

theorem upToDate_after {lib : Lib} {dir : Str → SetDir} {xs : List Doing}
    (hx : ∀ x ∈ xs, x.disks.dir = dir) {p : Proc} (hp : UpToDate dir p) :
    UpToDate dir (afterAll lib xs p) :=
  afterAll_rel (R := fun p q => UpToDate dir p → UpToDate dir q) (fun _ => id)
    (fun h1 h2 h => h2 (h1 h)) xs p (fun x hm => upToDate_rel (hx x hm)) hp

end Punx

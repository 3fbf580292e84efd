import Verif.Lemmas.Emits
import Verif.Props.Catalog2
import Mathlib.Data.List.Induction

/-! The run of the validator over the catalogue, step by step. -/

namespace Punx

/-! ## the class path table -/

theorem classpathTable_append (l : List Item) (it : Item) :
    classpathTable (l ++ [it]) = addClasspath (classpathTable l) it := by
  simp [classpathTable]

theorem classpathTable_get (l : List Item) (k : Str) :
    (Dict.get? (classpathTable l) k).getD [] = l.filter (fun it => it.classpath = k) := by
  induction l using List.reverseRecOn with
  | nil => rfl
  | append_singleton l it ih =>
    rw [classpathTable_append, addClasspath, Dict.get?_set, List.filter_append]
    by_cases h : it.classpath = k
    · subst h
      simp [ih]
    · simp [h, ih]

theorem classpathTable_nodup (l : List Item) : (Dict.keys (classpathTable l)).Nodup := by
  induction l using List.reverseRecOn with
  | nil => simp [classpathTable, Dict.keys]
  | append_singleton l it ih =>
    rw [classpathTable_append, addClasspath]
    exact Dict.nodup_keys_set ih _ _

/-- Each entry of the table holds exactly the items with that class path, in order. -/
theorem mem_classpathTable {l : List Item} {k : Str} {its : List Item}
    (h : (k, its) ∈ classpathTable l) : its = l.filter (fun it => it.classpath = k) := by
  have h1 := Dict.get?_of_mem (classpathTable_nodup l) h
  rw [← classpathTable_get, h1]
  rfl

theorem values_set_perm (d : Dict Str (List Item)) (k : Str) (it : Item) :
    (Dict.values (Dict.set d k ((Dict.get? d k).getD [] ++ [it]))).flatten.Perm
      ((Dict.values d).flatten ++ [it]) := by
  induction d with
  | nil => simp [Dict.set, Dict.get?, Dict.values]
  | cons q d ih =>
    obtain ⟨a, b⟩ := q
    simp only [Dict.set, Dict.get?]
    by_cases h : a = k
    · simp only [h, if_true, Option.getD_some, Dict.values, List.map_cons, List.flatten_cons,
        List.append_assoc]
      exact List.Perm.append_left _ List.perm_append_comm
    · simp only [h, if_false]
      simp only [Dict.values, List.map_cons, List.flatten_cons, List.append_assoc] at ih ⊢
      exact ih.append_left _

/-- Step 1 goes over every catalogued item once. -/
theorem classpathTable_perm (l : List Item) :
    (Dict.values (classpathTable l)).flatten.Perm l := by
  induction l using List.reverseRecOn with
  | nil => simp [classpathTable, Dict.values]
  | append_singleton l it ih =>
    rw [classpathTable_append, addClasspath]
    exact (values_set_perm _ _ _).trans (ih.append_right _)

/-! ## step 1 -/

theorem seenKeys_append (o : List Nat) (a b : List Eff) :
    seenKeys o (a ++ b) = seenKeys o a ++ seenKeys o b := by
  simp [seenKeys]

theorem emits_nameAndAttribute (ctx : Ctx) (seen : List Str) (it : Item) :
    Emits (fun i k _ => i = it ∧ (k = tValidItemName ∨ AttrTest k))
      (nameAndAttribute ctx seen it) := by
  unfold nameAndAttribute
  refine Emits.bind ?_ (fun _ _ => ?_)
  · exact Emits.mono (fun i k _ h => ⟨h.1, .inl h.2⟩) (emits_itemName ctx seen it)
  · exact Emits.mono (fun i k _ h => ⟨h.1, .inr h.2⟩) (emits_attribute ctx it)

theorem seenKeys_other {α : Type} {it : Item} {T : Str → Prop} {w : W Eff α}
    (h : Emits (fun i k _ => i = it ∧ T k) w) {o : List Nat} (ho : it.oid ≠ o) :
    seenKeys o w.log = [] := by
  rw [seenKeys, List.filterMap_eq_nil_iff]
  intro e he
  rcases h e he with ⟨i, k, st, c, rfl, rfl, _⟩ | ⟨c, g, n, rfl⟩
  · simp [ho]
  · rfl

/-- No item is met twice in step 1, so nothing is skipped as already seen. -/
theorem step1_eq (ctx : Ctx) (done : List Eff) (items : List Item)
    (hn : (items.map (·.oid)).Nodup) (hd : ∀ it ∈ items, seenKeys it.oid done = []) :
    step1 ctx done items = W.forEach items (nameAndAttribute ctx []) := by
  induction items generalizing done with
  | nil => rfl
  | cons it items ih =>
    rw [List.map_cons, List.nodup_cons] at hn
    rw [step1, hd it (by simp), W.forEach]
    congr 1
    funext _
    refine ih _ hn.2 ?_
    intro i hi
    rw [seenKeys_append, hd i (by simp [hi]), List.nil_append]
    refine seenKeys_other (emits_nameAndAttribute ctx [] it) ?_
    intro e
    exact hn.1 (List.mem_map.2 ⟨i, hi, e.symm⟩)

/-! ## the whole run -/

/-- The order in which step 1 goes over the items. -/
def step1Items (items : List Item) : List Item := (Dict.values (classpathTable items)).flatten

theorem mem_step1Items {items : List Item} {it : Item} : it ∈ step1Items items ↔ it ∈ items :=
  (classpathTable_perm items).mem_iff

/-- What a completed validation consists of. -/
structure Completed (env : Env) (mgr : Manager) (mins : Dict (Str × Str) Int) (f : H5File) : Prop where
  catalog : (catalog env f).res = .ok ()
  names : ∀ it ∈ (Punx.catalog env f).log,
    (nameAndAttribute (mkCtx env mgr mins f) [] it).res = .ok ()
  step2 : (step2 (mkCtx env mgr mins f)).res = .ok ()
  step3 : (step3 (mkCtx env mgr mins f)).res = .ok ()
  plot : ∃ mins', (defaultPlotVerify (mkCtx env mgr mins f) mins').res = .ok ()
  log : ∃ mins', (validateOpen env mgr mins f).log =
    (step1Items (Punx.catalog env f).log).flatMap
      (fun it => (nameAndAttribute (mkCtx env mgr mins f) [] it).log) ++
    (Punx.step2 (mkCtx env mgr mins f)).log ++
    (Punx.step3 (mkCtx env mgr mins f)).log ++
    (defaultPlotVerify (mkCtx env mgr mins f) mins').log ∧
    (defaultPlotVerify (mkCtx env mgr mins f) mins').res = .ok () ∧
    mins' = applyMins mins ((step1Items (Punx.catalog env f).log).flatMap
        (fun it => (nameAndAttribute (mkCtx env mgr mins f) [] it).log) ++
      (Punx.step2 (mkCtx env mgr mins f)).log ++ (Punx.step3 (mkCtx env mgr mins f)).log)

theorem step1_run {env : Env} {f : H5File} (hc : (catalog env f).res = .ok ()) (ctx : Ctx) :
    step1 ctx [] (step1Items (catalog env f).log) =
      W.forEach (step1Items (catalog env f).log) (nameAndAttribute ctx []) := by
  refine step1_eq ctx [] _ ?_ (fun it _ => rfl)
  have := (catalog_once_containers_first hc).1
  exact (((classpathTable_perm (catalog env f).log).map (·.oid)).nodup_iff).2 this

theorem completed {env : Env} {mgr : Manager} {mins : Dict (Str × Str) Int} {f : H5File}
    (h : (validateOpen env mgr mins f).res = .ok ()) : Completed env mgr mins f := by
  rw [validateOpen] at h
  cases hc : (catalog env f).res with
  | error e => rw [hc] at h; simp at h
  | ok u =>
    rw [hc] at h
    simp only [runChecks] at h
    rw [← W.bind_def, W.bind_ok_iff] at h
    obtain ⟨⟨⟩, h1, hp⟩ := h
    have h1' := h1
    rw [W.bind_ok_iff] at h1
    obtain ⟨⟨⟩, hs1, h2⟩ := h1
    have h2' := h2
    rw [W.bind_ok_iff] at h2
    obtain ⟨⟨⟩, hs2, hs3⟩ := h2
    have hs1' := hs1
    rw [show (Dict.values (mkCtx env mgr mins f).classpaths).flatten =
      step1Items (catalog env f).log from rfl, step1_run hc, W.forEach_ok_iff] at hs1'
    have e1 : (step1 (mkCtx env mgr mins f) []
        (Dict.values (mkCtx env mgr mins f).classpaths).flatten).log =
        (step1Items (catalog env f).log).flatMap
          (fun it => (nameAndAttribute (mkCtx env mgr mins f) [] it).log) := by
      rw [show (Dict.values (mkCtx env mgr mins f).classpaths).flatten =
        step1Items (catalog env f).log from rfl, step1_run hc, W.forEach_log hs1']
    have elog : ((step1 (mkCtx env mgr mins f) []
        (Dict.values (mkCtx env mgr mins f).classpaths).flatten >>= fun _ =>
          step2 (mkCtx env mgr mins f) >>= fun _ => step3 (mkCtx env mgr mins f)) : W Eff Unit).log =
        (step1Items (catalog env f).log).flatMap
          (fun it => (nameAndAttribute (mkCtx env mgr mins f) [] it).log) ++
        (step2 (mkCtx env mgr mins f)).log ++ (step3 (mkCtx env mgr mins f)).log := by
      rw [W.bind_log_of_ok hs1, W.bind_log_of_ok hs2, e1, List.append_assoc]
    refine ⟨rfl.trans hc, ?_, hs2, hs3, ⟨_, hp⟩, ⟨_, ?_, hp, ?_⟩⟩
    · intro it hit
      exact hs1' it (mem_step1Items.2 hit)
    · rw [validateOpen, hc]
      simp only [runChecks]
      rw [← W.bind_def, W.bind_log_of_ok h1', elog]
    · rw [elog]
      rfl

/-- Conversely the parts make up the run. -/
theorem validateOpen_ok_iff {env : Env} {mgr : Manager} {mins : Dict (Str × Str) Int} {f : H5File} :
    (validateOpen env mgr mins f).res = .ok () ↔
      (catalog env f).res = .ok () ∧
      (∀ it ∈ (catalog env f).log,
        (nameAndAttribute (mkCtx env mgr mins f) [] it).res = .ok ()) ∧
      (step2 (mkCtx env mgr mins f)).res = .ok () ∧
      (step3 (mkCtx env mgr mins f)).res = .ok () ∧
      (defaultPlotVerify (mkCtx env mgr mins f) (applyMins mins
        ((step1Items (catalog env f).log).flatMap
          (fun it => (nameAndAttribute (mkCtx env mgr mins f) [] it).log) ++
        (step2 (mkCtx env mgr mins f)).log ++ (step3 (mkCtx env mgr mins f)).log))).res = .ok () := by
  constructor
  · intro h
    have c := completed h
    obtain ⟨m, _, h2, rfl⟩ := c.log
    exact ⟨c.catalog, c.names, c.step2, c.step3, h2⟩
  · rintro ⟨hc, hn, h2, h3, hp⟩
    rw [validateOpen, hc]
    simp only [runChecks]
    have hs1' : ∀ it ∈ step1Items (catalog env f).log,
        (nameAndAttribute (mkCtx env mgr mins f) [] it).res = .ok () :=
      fun it hit => hn it (mem_step1Items.1 hit)
    have hs1 : (step1 (mkCtx env mgr mins f) []
        (Dict.values (mkCtx env mgr mins f).classpaths).flatten).res = .ok () := by
      rw [show (Dict.values (mkCtx env mgr mins f).classpaths).flatten =
        step1Items (catalog env f).log from rfl, step1_run hc, W.forEach_ok_iff]
      exact hs1'
    have e1 : (step1 (mkCtx env mgr mins f) []
        (Dict.values (mkCtx env mgr mins f).classpaths).flatten).log =
        (step1Items (catalog env f).log).flatMap
          (fun it => (nameAndAttribute (mkCtx env mgr mins f) [] it).log) := by
      rw [show (Dict.values (mkCtx env mgr mins f).classpaths).flatten =
        step1Items (catalog env f).log from rfl, step1_run hc, W.forEach_log hs1']
    have elog : ((step1 (mkCtx env mgr mins f) []
        (Dict.values (mkCtx env mgr mins f).classpaths).flatten >>= fun _ =>
          step2 (mkCtx env mgr mins f) >>= fun _ => step3 (mkCtx env mgr mins f)) : W Eff Unit).log =
        (step1Items (catalog env f).log).flatMap
          (fun it => (nameAndAttribute (mkCtx env mgr mins f) [] it).log) ++
        (step2 (mkCtx env mgr mins f)).log ++ (step3 (mkCtx env mgr mins f)).log := by
      rw [W.bind_log_of_ok hs1, W.bind_log_of_ok h2, e1, List.append_assoc]
    rw [← W.bind_def, W.bind_ok_iff]
    refine ⟨(), ?_, ?_⟩
    · rw [W.bind_ok_iff]
      refine ⟨(), hs1, ?_⟩
      rw [W.bind_ok_iff]
      exact ⟨(), h2, h3⟩
    · rw [elog]
      exact hp

end Punx

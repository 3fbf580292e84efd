import Verif.Lemmas.Run
import Verif.Props.Group2

/-! What depends on the `minOccurs` values left behind by earlier validations. -/

namespace Punx
open Spec

variable (env : Env) (mgr : Manager) (f : H5File) (m m' : Dict (Str × Str) Int)

theorem targetLoop_mins (it : Item) (addr : Str) (l : List Str) :
    targetLoop (mkCtx env mgr m f) it addr l = targetLoop (mkCtx env mgr m' f) it addr l := by
  induction l generalizing addr with
  | nil => rfl
  | cons p ps ih =>
    unfold targetLoop
    simp only [ih]
    rfl

theorem attributeVerify_mins (it : Item) :
    attributeVerify (mkCtx env mgr m f) it = attributeVerify (mkCtx env mgr m' f) it := by
  unfold attributeVerify targetHandler
  simp only [targetLoop_mins env mgr f m m']
  rfl

theorem nameAndAttribute_mins (s : List Str) (it : Item) :
    nameAndAttribute (mkCtx env mgr m f) s it = nameAndAttribute (mkCtx env mgr m' f) s it := by
  unfold nameAndAttribute
  rw [attributeVerify_mins env mgr f m m']
  rfl

theorem step1_mins (s : List Eff) (l : List Item) :
    step1 (mkCtx env mgr m f) s l = step1 (mkCtx env mgr m' f) s l := by
  induction l generalizing s with
  | nil => rfl
  | cons it l ih =>
    unfold step1
    simp only [nameAndAttribute_mins env mgr f m m', ih]

theorem step2_mins : step2 (mkCtx env mgr m f) = step2 (mkCtx env mgr m' f) := rfl

theorem appFields_mins (it : Item) (g : Node) (ad : Str) (i : Nat) (l : List (Str × FieldSpec)) :
    appFields (mkCtx env mgr m f) it g ad i l = appFields (mkCtx env mgr m' f) it g ad i l := by
  induction l generalizing i with
  | nil => rfl
  | cons x l ih =>
    unfold appFields
    rw [ih]
    rfl

theorem step3_mins : step3 (mkCtx env mgr m f) = step3 (mkCtx env mgr m' f) := by
  unfold step3 appDefVerify
  simp only [appFields_mins env mgr f m m']
  rfl

theorem v3Loop_mins (h : Option Str) (n l : List Item) :
    v3Loop (mkCtx env mgr m f) h n l = v3Loop (mkCtx env mgr m' f) h n l := by
  induction l generalizing h n with
  | nil => rfl
  | cons x l ih =>
    unfold v3Loop
    simp only [ih]
    rfl

theorem v2Items_mins (rev : Review) (l : List Item) :
    v2Items (mkCtx env mgr m f) rev l = v2Items (mkCtx env mgr m' f) rev l := by
  induction l generalizing rev with
  | nil => rfl
  | cons x l ih =>
    unfold v2Items
    simp only [ih]
    rfl

theorem v2Scan_mins (rev : Review) (l : Dict Str (List Item)) :
    v2Scan (mkCtx env mgr m f) rev l = v2Scan (mkCtx env mgr m' f) rev l := by
  induction l generalizing rev with
  | nil => rfl
  | cons x l ih =>
    unfold v2Scan
    simp only [ih, v2Items_mins env mgr f m m']

theorem findDefaultPlot_mins :
    findDefaultPlot (mkCtx env mgr m f) = findDefaultPlot (mkCtx env mgr m' f) := by
  unfold findDefaultPlot defaultPlotV3 defaultPlotV2
  simp only [v3Loop_mins env mgr f m m', v2Scan_mins env mgr f m m']
  rfl

/-- The first three steps of the checks. -/
def checks (ctx : Ctx) : W Eff Unit := do
  step1 ctx [] (Dict.values ctx.classpaths).flatten
  step2 ctx
  step3 ctx

theorem checks_mins : checks (mkCtx env mgr m f) = checks (mkCtx env mgr m' f) := by
  unfold checks
  rw [step2_mins env mgr f m m', step3_mins env mgr f m m']
  have : (mkCtx env mgr m f).classpaths = (mkCtx env mgr m' f).classpaths := rfl
  rw [this, step1_mins env mgr f m m']

end Punx

namespace Punx
open Spec

/-- Every `minOccurs` value stored by `w` satisfies `P`. -/
def Sets {α : Type} (P : Str → Str → Int → Prop) (w : W Eff α) : Prop :=
  ∀ c g n, Eff.setMin c g n ∈ w.log → P c g n

namespace Sets
variable {α β : Type} {P P' : Str → Str → Int → Prop}

theorem mono (h : ∀ c g n, P c g n → P' c g n) {w : W Eff α} (hw : Sets P w) : Sets P' w :=
  fun c g n hm => h c g n (hw c g n hm)

theorem pure (a : α) : Sets P (pure a : W Eff α) := by intro c g n he; simp at he
theorem pure' (a : α) : Sets P (W.pure a : W Eff α) := by intro c g n he; simp [W.pure] at he
theorem fail (e : PyErr) : Sets P (W.fail e : W Eff α) := by intro c g n he; simp at he
theorem lift (x : Except PyErr α) : Sets P (W.lift x : W Eff α) := by intro c g n he; simp at he

theorem record (it : Item) (k : Str) (st : Status) (c : Str) : Sets P (record it k st c) := by
  intro c g n he
  simp [Punx.record] at he

theorem setMin {c g : Str} {n : Int} (h : P c g n) : Sets P (W.tell (.setMin c g n)) := by
  intro c g n he
  simp at he
  obtain ⟨rfl, rfl, rfl⟩ := he
  exact h

theorem bind {w : W Eff α} {k : α → W Eff β} (h1 : Sets P w)
    (h2 : ∀ a, w.res = .ok a → Sets P (k a)) : Sets P (w >>= k) := by
  intro c g n he
  rw [W.mem_bind_log] at he
  rcases he with he | ⟨a, ha, he⟩
  · exact h1 c g n he
  · exact h2 a ha c g n he

theorem bind' {w : W Eff α} {k : α → W Eff β} (h1 : Sets P w)
    (h2 : ∀ a, w.res = .ok a → Sets P (k a)) : Sets P (W.bind w k) := bind h1 h2

theorem forEach {xs : List α} {k : α → W Eff Unit} (h : ∀ x ∈ xs, Sets P (k x)) :
    Sets P (W.forEach xs k) := by
  intro c g n he
  obtain ⟨x, hx, he⟩ := W.mem_forEach_log he
  exact h x hx c g n he

theorem ite {c : Prop} [Decidable c] {x y : W Eff α} (h1 : c → Sets P x) (h2 : ¬ c → Sets P y) :
    Sets P (if c then x else y) := by
  by_cases h : c
  · rw [if_pos h]; exact h1 h
  · rw [if_neg h]; exact h2 h

end Sets

/-- Breaks a goal `Sets P w` down to the stored values. -/
macro "sets" : tactic => `(tactic| repeat' (first
  | exact Sets.pure _
  | exact Sets.pure' _
  | exact Sets.fail _
  | exact Sets.lift _
  | exact Sets.record _ _ _ _
  | assumption
  | (refine Sets.setMin ?_)
  | (refine Sets.forEach (fun _ _ => ?_))
  | (refine Sets.bind ?_ (fun _ _ => ?_))
  | (refine Sets.bind' ?_ (fun _ _ => ?_))
  | (refine Sets.ite (fun _ => ?_) (fun _ => ?_))
  | split))

/-- No `minOccurs` value is stored. -/
abbrev Quiet {α : Type} (w : W Eff α) : Prop := Sets (fun _ _ _ => False) w

theorem quiet_itemName (ctx : Ctx) (seen : List Str) (it : Item) :
    Quiet (itemNameVerify ctx seen it) := by
  unfold itemNameVerify handleNXClass handleAnyAttribute handleGroupsAndFields
  sets

theorem quiet_targetLoop (ctx : Ctx) (it : Item) (addr : Str) (ps : List Str) :
    Quiet (targetLoop ctx it addr ps) := by
  induction ps generalizing addr with
  | nil => exact Sets.pure _
  | cons p ps ih =>
    have := fun a => ih a
    rw [targetLoop]
    sets
    exact this _

theorem quiet_attribute (ctx : Ctx) (it : Item) : Quiet (attributeVerify ctx it) := by
  have h2 := fun a p => quiet_targetLoop ctx it a p
  unfold attributeVerify nxclassHandler targetHandler signalHandler axesHandler genericHandler
    axisCheck
  sets
  exact h2 _ _

theorem quiet_step1 (ctx : Ctx) (done : List Eff) (l : List Item) : Quiet (step1 ctx done l) := by
  induction l generalizing done with
  | nil => exact Sets.pure _
  | cons it l ih =>
    rw [step1]
    refine Sets.bind' ?_ (fun _ _ => ih _)
    unfold nameAndAttribute
    exact Sets.bind (quiet_itemName _ _ _) (fun _ _ => quiet_attribute _ _)

theorem quiet_appFields (ctx : Ctx) (it : Item) (g : Node) (ad : Str) (n : Nat)
    (l : List (Str × FieldSpec)) : Quiet (appFields ctx it g ad n l) := by
  induction l generalizing n with
  | nil => exact Sets.pure _
  | cons x l ih =>
    have := ih (n + 1)
    unfold appFields appField
    sets

theorem quiet_step3 (ctx : Ctx) : Quiet (step3 ctx) := by
  have := fun it g ad n l => quiet_appFields ctx it g ad n l
  unfold step3 appDefVerify
  sets
  all_goals exact this _ _ _ _ _

theorem quiet_v3Loop (ctx : Ctx) (h : Option Str) (n l : List Item) : Quiet (v3Loop ctx h n l) := by
  induction l generalizing h n with
  | nil => exact Sets.pure _
  | cons x l ih =>
    have := fun a b => ih a b
    unfold v3Loop
    sets
    all_goals exact this _ _

theorem quiet_v2Items (ctx : Ctx) (rev : Review) (l : List Item) : Quiet (v2Items ctx rev l) := by
  induction l generalizing rev with
  | nil => exact Sets.pure _
  | cons x l ih =>
    have := fun a => ih a
    unfold v2Items v2Item
    sets
    all_goals exact this _

theorem quiet_v2Scan (ctx : Ctx) (rev : Review) (l : Dict Str (List Item)) :
    Quiet (v2Scan ctx rev l) := by
  induction l generalizing rev with
  | nil => exact Sets.pure _
  | cons x l ih =>
    have := fun a => ih a
    have h2 := fun r i => quiet_v2Items ctx r i
    unfold v2Scan
    sets
    all_goals first | exact this _ | exact h2 _ _

theorem quiet_v2Pick (a : Option Str) (rev : Review) : Quiet (v2Pick a rev) := by
  induction rev generalizing a with
  | nil => exact Sets.pure _
  | cons x l ih =>
    have := fun a => ih a
    unfold v2Pick
    sets
    all_goals exact this _

theorem quiet_defaultPlot (ctx : Ctx) (mins : Dict (Str × Str) Int) :
    Quiet (defaultPlotVerify ctx mins) := by
  have h1 := fun a b c => quiet_v3Loop ctx a b c
  have h2 := fun a b => quiet_v2Scan ctx a b
  have h3 := fun a b => quiet_v2Pick a b
  unfold defaultPlotVerify findDefaultPlot defaultPlotV3 defaultPlotV2
  sets
  all_goals first | exact h1 _ _ _ | exact h2 _ _ | exact h3 _ _

/-! ## what the group check stores -/

theorem quiet_groupAttributes (ctx : Ctx) (it : Item) (d : ClassDef) :
    Quiet (groupAttributes ctx it d) := by
  unfold groupAttributes groupAttrCheck enumCheck childExists
  sets

theorem quiet_groupChildren (ctx : Ctx) (it : Item) (d : ClassDef) :
    Quiet (groupChildren ctx it d) := by
  unfold groupChildren childCheck
  sets

theorem sets_baseItems (ctx : Ctx) (it : Item) (c : Str) (d : ClassDef) :
    Sets (fun c' g n => c' = c ∧ ∃ spec, (g, spec) ∈ d.groups ∧
      groupMinOccurs ctx.env spec = .ok n) (baseItems ctx it c d) := by
  unfold baseItems
  refine Sets.bind ?_ (fun _ _ => Sets.forEach (fun grp hg => ?_))
  · unfold baseFieldCheck
    sets
  · unfold baseGroupCheck
    sets
    all_goals
      rename_i h
      exact ⟨rfl, grp.2, (sortBy_perm d.groups).mem_iff.1 hg, h⟩

theorem sets_validateGroup (ctx : Ctx) (it : Item) :
    Sets (fun c g n => it.classpath ≠ nonNeXus ∧ CheckedClass it c ∧ ∃ d spec,
      Dict.get? ctx.mgr.classes c = some d ∧ (g, spec) ∈ d.groups ∧
      groupMinOccurs ctx.env spec = .ok n) (validateGroup ctx it) := by
  rw [validateGroup]
  refine Sets.ite (fun _ => Sets.record _ _ _ _) (fun hn => ?_)
  refine Sets.bind (Sets.lift _) (fun c hc => ?_)
  rw [W.lift_res] at hc
  refine Sets.bind ?_ (fun _ _ => ?_)
  · unfold nxClassAttribute
    sets
  · cases hd : Dict.get? ctx.mgr.classes c with
    | none => exact Sets.record _ _ _ _
    | some d =>
      simp only []
      refine Sets.bind ?_ (fun _ _ => Sets.bind ?_ (fun _ _ => Sets.bind ?_
        (fun _ _ => Sets.record _ _ _ _)))
      · exact Sets.mono (fun _ _ _ h => h.elim) (quiet_groupAttributes ctx it d)
      · exact Sets.mono (fun _ _ _ h => h.elim) (quiet_groupChildren ctx it d)
      · refine Sets.mono ?_ (sets_baseItems ctx it c d)
        rintro c' g n ⟨rfl, spec, h1, h2⟩
        refine ⟨hn, ?_, d, spec, hd, h1, h2⟩
        by_cases h1 : startsWith it.classpath s%"/NX" = true
        · rw [if_pos h1] at hc
          cases hx : it.nxClass with
          | none => rw [hx] at hc; cases hc
          | some c' =>
            rw [hx] at hc
            injection hc with hc
            subst hc
            refine .inr ⟨?_, hx⟩
            intro e
            rw [e] at h1
            simp [startsWith] at h1
        · rw [if_neg h1] at hc
          by_cases h2 : it.classpath = []
          · rw [if_pos h2] at hc
            injection hc with hc
            exact .inl ⟨h2, hc.symm⟩
          · rw [if_neg h2] at hc; cases hc

theorem validateGroup_sets {ctx : Ctx} {it : Item} (h : (validateGroup ctx it).res = .ok ())
    (hn : it.classpath ≠ nonNeXus) {c : Str} (hc : CheckedClass it c) {d : ClassDef}
    (hd : Dict.get? ctx.mgr.classes c = some d) {g : Str} {spec : GroupSpec}
    (hg : (g, spec) ∈ d.groups) :
    ∃ n, Eff.setMin c g n ∈ (validateGroup ctx it).log ∧
      groupMinOccurs ctx.env spec = .ok n := by
  rw [validateGroup, if_neg hn] at h ⊢
  rw [W.bind_ok_iff] at h
  obtain ⟨c', hc', h⟩ := h
  rw [W.lift_res] at hc'
  rw [hc', W.lift_ok_bind]
  have hcc : c' = c := by
    by_cases h1 : startsWith it.classpath s%"/NX" = true
    · rw [if_pos h1] at hc'
      rcases hc with ⟨e, _⟩ | ⟨_, e⟩
      · rw [e] at h1; simp [startsWith] at h1
      · rw [e] at hc'; injection hc' with hc'; exact hc'.symm
    · rw [if_neg h1] at hc'
      by_cases h2 : it.classpath = []
      · rw [if_pos h2] at hc'
        injection hc' with hc'
        rcases hc with ⟨_, e⟩ | ⟨e, _⟩
        · rw [e, hc']
        · exact absurd h2 e
      · rw [if_neg h2] at hc'; cases hc'
  subst hcc
  clear hc'
  rw [W.bind_ok_iff] at h
  obtain ⟨⟨⟩, h1, h⟩ := h
  rw [hd] at h
  simp only [] at h
  rw [W.bind_ok_iff] at h
  obtain ⟨⟨⟩, h2, h⟩ := h
  rw [W.bind_ok_iff] at h
  obtain ⟨⟨⟩, h3, h⟩ := h
  rw [W.bind_ok_iff] at h
  obtain ⟨⟨⟩, h4, h⟩ := h
  have key : ∃ n, Eff.setMin c' g n ∈ (baseItems ctx it c' d).log ∧
      groupMinOccurs ctx.env spec = .ok n := by
    rw [baseItems, W.bind_ok_iff] at h4
    obtain ⟨⟨⟩, h5, h6⟩ := h4
    rw [baseItems, W.bind_log_of_ok h5]
    have h7 := W.forEach_ok_iff.1 h6
    rw [W.forEach_log h7]
    have hm : (g, spec) ∈ sortKeys d.groups := (sortBy_perm d.groups).mem_iff.2 hg
    have h8 := h7 _ hm
    rw [baseGroupCheck] at h8
    rw [W.bind_ok_iff] at h8
    obtain ⟨fd, h9, h8⟩ := h8
    rw [W.bind_ok_iff] at h8
    obtain ⟨a, h10, h8⟩ := h8
    have hn : ∃ n, groupMinOccurs ctx.env spec = .ok n := by
      by_cases hf : fd = true
      · rw [if_pos hf, W.bind_ok_iff] at h8
        obtain ⟨_, _, h8⟩ := h8
        rw [W.bind_ok_iff] at h8
        obtain ⟨n, h8, _⟩ := h8
        exact ⟨n, h8⟩
      · rw [if_neg hf, W.bind_ok_iff] at h8
        obtain ⟨_, _, h8⟩ := h8
        rw [W.bind_ok_iff] at h8
        obtain ⟨n, h8, _⟩ := h8
        exact ⟨n, h8⟩
    obtain ⟨n, hn⟩ := hn
    refine ⟨n, ?_, hn⟩
    rw [List.mem_append]
    right
    rw [List.mem_flatMap]
    refine ⟨(g, spec), hm, ?_⟩
    rw [baseGroupCheck]
    rw [W.lift_res] at h9 h10
    simp only [h9, h10, hn, W.lift_ok_bind]
    split <;> simp [W.bind_log_of_ok (record_res _ _ _ _)]
  obtain ⟨n, k1, k2⟩ := key
  refine ⟨n, ?_, k2⟩
  rw [W.bind_log_of_ok h1, hd]
  simp only []
  rw [W.bind_log_of_ok h2, W.bind_log_of_ok h3, W.bind_log_of_ok h4]
  simp [k1]

/-! ## stored values after a run -/

theorem applyMins_append (mins : Dict (Str × Str) Int) (a b : List Eff) :
    applyMins mins (a ++ b) = applyMins (applyMins mins a) b := by
  simp [applyMins]

theorem applyMins_quiet (mins : Dict (Str × Str) Int) (l : List Eff)
    (h : ∀ c g n, Eff.setMin c g n ∉ l) : applyMins mins l = mins := by
  induction l generalizing mins with
  | nil => rfl
  | cons e l ih =>
    cases e with
    | found o k x =>
      exact ih mins (fun c g n hm => h c g n (by simp [hm]))
    | setMin c g n => exact absurd (by simp) (h c g n)

/-- All stores under a key agree: the value is that, or the old one if there is no store. -/
theorem applyMins_get {mins : Dict (Str × Str) Int} {l : List Eff} {c g : Str} {n : Int}
    (h : ∀ n', Eff.setMin c g n' ∈ l → n' = n) :
    Dict.get? (applyMins mins l) (c, g) =
      if Eff.setMin c g n ∈ l then some n else Dict.get? mins (c, g) := by
  induction l using List.reverseRecOn with
  | nil => simp [applyMins]
  | append_singleton l e ih =>
    have ih := ih (fun n' hm => h n' (by simp [hm]))
    rw [applyMins_append]
    cases e with
    | found o k x => simpa [applyMins] using ih
    | setMin c' g' n' =>
      have e : applyMins (applyMins mins l) [.setMin c' g' n'] =
        Dict.set (applyMins mins l) (c', g') n' := rfl
      rw [e, Dict.get?_set]
      by_cases hk : (c', g') = (c, g)
      · rw [Prod.mk.injEq] at hk
        obtain ⟨rfl, rfl⟩ := hk
        have := h n' (by simp)
        subst this
        simp
      · rw [if_neg hk, ih]
        have : ¬ (c = c' ∧ g = g' ∧ n = n') := by
          rintro ⟨rfl, rfl, _⟩; exact hk rfl
        simp [this]

end Punx

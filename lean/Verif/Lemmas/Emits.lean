import Verif.Model.Validate
import Verif.Lemmas.Basic

/-! Which findings the parts of the code can record at all: for which item, under which
test name and with which status. -/

namespace Punx

/-- Every finding of `w` was recorded for an item, under a test name and with a status
allowed by `R`. -/
def Emits {α : Type} (R : Item → Str → Status → Prop) (w : W Eff α) : Prop :=
  ∀ e ∈ w.log, (∃ it k st c, e = .found it.oid k ⟨it.addr, k, st, c⟩ ∧ R it k st) ∨
    ∃ c g n, e = .setMin c g n

namespace Emits
variable {α β : Type} {R R' : Item → Str → Status → Prop}

theorem mono (h : ∀ it k st, R it k st → R' it k st) {w : W Eff α} (hw : Emits R w) :
    Emits R' w := by
  intro e he
  rcases hw e he with ⟨it, k, st, c, h1, h2⟩ | h1
  · exact .inl ⟨it, k, st, c, h1, h _ _ _ h2⟩
  · exact .inr h1

theorem pure (a : α) : Emits R (pure a : W Eff α) := by intro e he; simp at he
theorem pure' (a : α) : Emits R (W.pure a : W Eff α) := by intro e he; simp [W.pure] at he
theorem fail (e : PyErr) : Emits R (W.fail e : W Eff α) := by intro e he; simp at he
theorem lift (x : Except PyErr α) : Emits R (W.lift x : W Eff α) := by intro e he; simp at he

theorem record {it : Item} {k : Str} {st : Status} {c : Str} (h : R it k st) :
    Emits R (record it k st c) := by
  intro e he
  simp [Punx.record] at he
  exact .inl ⟨it, k, st, c, he, h⟩

theorem setMin (c g : Str) (n : Int) : Emits R (W.tell (.setMin c g n)) := by
  intro e he
  simp at he
  exact .inr ⟨c, g, n, he⟩

theorem bind {w : W Eff α} {f : α → W Eff β} (h1 : Emits R w)
    (h2 : ∀ a, w.res = .ok a → Emits R (f a)) : Emits R (w >>= f) := by
  intro e he
  rw [W.mem_bind_log] at he
  rcases he with he | ⟨a, ha, he⟩
  · exact h1 e he
  · exact h2 a ha e he

theorem bind' {w : W Eff α} {f : α → W Eff β} (h1 : Emits R w)
    (h2 : ∀ a, w.res = .ok a → Emits R (f a)) : Emits R (W.bind w f) := bind h1 h2

theorem forEach {xs : List α} {f : α → W Eff Unit} (h : ∀ x ∈ xs, Emits R (f x)) :
    Emits R (W.forEach xs f) := by
  intro e he
  obtain ⟨x, hx, he⟩ := W.mem_forEach_log he
  exact h x hx e he

theorem ite {c : Prop} [Decidable c] {x y : W Eff α} (h1 : c → Emits R x) (h2 : ¬ c → Emits R y) :
    Emits R (if c then x else y) := by
  by_cases h : c
  · rw [if_pos h]; exact h1 h
  · rw [if_neg h]; exact h2 h

end Emits

/-- Breaks a goal `Emits R w` down to the recorded findings. -/
macro "emits" : tactic => `(tactic| repeat' (first
  | exact Emits.pure _
  | exact Emits.pure' _
  | exact Emits.fail _
  | exact Emits.lift _
  | exact Emits.setMin _ _ _
  | assumption
  | (refine Emits.record ?_)
  | (refine Emits.forEach (fun _ _ => ?_))
  | (refine Emits.bind ?_ (fun _ _ => ?_))
  | (refine Emits.bind' ?_ (fun _ _ => ?_))
  | (refine Emits.ite (fun _ => ?_) (fun _ => ?_))
  | split))

theorem record_ne (a b : Str) (h : a.take 6 ≠ b.take 6) : a ≠ b := by
  rintro rfl; exact h rfl

/-- `item_name.verify` records only `validItemName`, for the item itself. -/
theorem emits_itemName (ctx : Ctx) (seen : List Str) (it : Item) :
    Emits (fun i k _ => i = it ∧ k = tValidItemName) (itemNameVerify ctx seen it) := by
  unfold itemNameVerify handleNXClass handleAnyAttribute handleGroupsAndFields
  emits <;> exact ⟨rfl, rfl⟩

/-- Test names of `attribute.py`. -/
inductive AttrTest : Str → Prop
  | value : AttrTest tAttributeValue
  | axisName (a : Str) : AttrTest (s%"valid name @axes['" ++ a ++ s%"']")
  | axisExists (a : Str) : AttrTest (s%"axes['" ++ a ++ s%"'] exists")
  | signalName (a : Str) : AttrTest (s%"valid name @signal=" ++ a)

theorem AttrTest.ne {k : Str} (h : AttrTest k) : k ≠ tValidItemName := by
  cases h <;> intro h <;> simp [tAttributeValue, tValidItemName] at h

theorem emits_axisCheck (ctx : Ctx) (it : Item) (par : H5Obj) (v : Val) :
    Emits (fun i k _ => i = it ∧ AttrTest k) (axisCheck ctx it par v) := by
  unfold axisCheck
  emits
  · exact ⟨rfl, .axisName _⟩
  · exact ⟨rfl, .axisExists _⟩
  · exact ⟨rfl, .axisExists _⟩

theorem emits_targetLoop (ctx : Ctx) (it : Item) (addr : Str) (ps : List Str) :
    Emits (fun i k _ => i = it ∧ AttrTest k) (targetLoop ctx it addr ps) := by
  induction ps generalizing addr with
  | nil => exact Emits.pure _
  | cons p ps ih =>
    rw [targetLoop]
    split
    · emits
      exact ⟨rfl, .value⟩
    · refine Emits.ite (fun _ => ih _) (fun _ => ?_)
      emits
      exact ⟨rfl, .value⟩

theorem emits_attribute (ctx : Ctx) (it : Item) :
    Emits (fun i k _ => i = it ∧ AttrTest k) (attributeVerify ctx it) := by
  have h1 := fun p v => emits_axisCheck ctx it p v
  have h2 := fun a p => emits_targetLoop ctx it a p
  unfold attributeVerify nxclassHandler targetHandler signalHandler axesHandler genericHandler
  emits
  all_goals first
    | exact ⟨rfl, .value⟩
    | exact h2 _ _
    | exact h1 _ _
    | exact ⟨rfl, .signalName _⟩
    | exact ⟨rfl, .axisName _⟩
    | exact ⟨rfl, .axisExists _⟩

/-- Test names of the group checks. -/
inductive GroupTest : Str → Prop
  | nexusGroup : GroupTest s%"NeXus_group"
  | known : GroupTest s%"known NXDL"
  | base : GroupTest s%"NeXus base class"
  | attr : GroupTest s%"known attribute"
  | enum : GroupTest s%"attribute value enumeration"
  | value (k : Str) : GroupTest (s%"value of @" ++ k)
  | fieldIn : GroupTest s%"field in base class"
  | groupIn : GroupTest s%"group in base class"
  | unhandled : GroupTest s%"unhandled: group_items_in_base_class"
  | field : GroupTest s%"NXDL field in data file"
  | group : GroupTest s%"NXDL group in data file"

theorem GroupTest.ne {k : Str} (h : GroupTest k) : k ≠ tValidItemName := by
  cases h <;> intro h <;> simp [tValidItemName] at h

/-- Items that the checks of the group `it` can record findings for. -/
def GroupItem (ctx : Ctx) (it i : Item) : Prop :=
  i = it ∨ ∃ a, Dict.get? ctx.addresses (some a) = some i

theorem emits_group (ctx : Ctx) (it : Item) :
    Emits (fun i k _ => GroupItem ctx it i ∧ GroupTest k) (validateGroup ctx it) := by
  unfold validateGroup nxClassAttribute groupAttributes groupChildren baseItems groupAttrCheck
    childCheck baseFieldCheck baseGroupCheck enumCheck childExists
  emits
  all_goals first
    | exact ⟨.inl rfl, by constructor⟩
    | exact ⟨.inr ⟨_, by assumption⟩, by constructor⟩

/-- Test names of the application definition check. -/
inductive AppTest : Str → Prop
  | known : AppTest s%"known NXDL"
  | app : AppTest s%"NeXus application definition"
  | field : AppTest s%"NXDL field"
  | enum : AppTest s%"NXDL field enumerations"

theorem AppTest.ne {k : Str} (h : AppTest k) : k ≠ tValidItemName := by
  cases h <;> intro h <;> simp [tValidItemName] at h

/-- Items that the application definition check of `it` can record findings for: the
entry, and new items made for the fields of the definition. -/
def AppItem (ctx : Ctx) (it i : Item) : Prop :=
  i = it ∨ ∃ obj n, mkItem ctx.env (some it) obj none (0 :: n :: it.oid) = .ok i

theorem emits_appFields (ctx : Ctx) (it : Item) (g : Node) (ad : Str) (n : Nat)
    (fs : List (Str × FieldSpec)) :
    Emits (fun i k _ => AppItem ctx it i ∧ AppTest k) (appFields ctx it g ad n fs) := by
  induction fs generalizing n with
  | nil => exact Emits.pure _
  | cons f fs ih =>
    rw [appFields]
    refine Emits.bind ?_ (fun _ _ => ih _)
    unfold appField
    emits
    all_goals exact ⟨.inr ⟨_, _, by assumption⟩, by constructor⟩

theorem emits_appDef (ctx : Ctx) (it : Item) :
    Emits (fun i k _ => AppItem ctx it i ∧ AppTest k) (appDefVerify ctx it) := by
  have h := fun g ad n fs => emits_appFields ctx it g ad n fs
  unfold appDefVerify
  emits
  all_goals first
    | exact h _ _ _ _
    | exact ⟨.inl rfl, by constructor⟩

/-- Test names of the default plot check. -/
inductive PlotTest : Str → Prop
  | v3 : PlotTest s%"NeXus default plot v3, NXdata@signal"
  | niac : PlotTest s%"NeXus default plot v3 NIAC2014"
  | v2one : PlotTest s%"NeXus default plot v2, @signal=1"
  | v2other : PlotTest s%"NeXus default plot v2, @signal!=1"
  | v2 : PlotTest s%"NeXus default plot v2"
  | multiple : PlotTest s%"NeXus default plot v2, multiple @signal=1"
  | plot : PlotTest s%"NeXus default plot"

theorem PlotTest.ne {k : Str} (h : PlotTest k) : k ≠ tValidItemName := by
  cases h <;> intro h <;> simp [tValidItemName] at h

/-- Items that the default plot check can record findings for: the root, items whose class
path ends with "@signal", and the group of the dataset that such an item belongs to. -/
def PlotItem (ctx : Ctx) (i : Item) : Prop :=
  Dict.get? ctx.addresses (some s%"/") = some i ∨
  (∃ k items it, (k, items) ∈ ctx.classpaths ∧ endsWith k s%"@signal" = true ∧ it ∈ items ∧
    (i = it ∨ ∃ par, it.parent = some par ∧ isHdf5Dataset par.obj = true ∧ par.parent = some i ∧
      i.addr ≠ none))

theorem v3Loop_items {ctx : Ctx} {h h' : Option Str} {niac niac' l : List Item}
    (hr : (v3Loop ctx h niac l).res = .ok (some (h', niac'))) :
    ∀ i ∈ niac', i ∈ niac ∨ i ∈ l := by
  induction l generalizing h niac with
  | nil =>
    rw [v3Loop] at hr
    simp only [W.pure_res, Except.ok.injEq, Option.some.injEq, Prod.mk.injEq] at hr
    rw [← hr.2]
    intro i hi; exact .inl hi
  | cons it l ih =>
    rw [v3Loop, W.bind_ok_iff] at hr
    obtain ⟨s, _, hr⟩ := hr
    split at hr
    · rw [W.bind_ok_iff] at hr
      obtain ⟨_, _, hr⟩ := hr
      simp at hr
    · split at hr
      · rw [W.bind_ok_iff] at hr
        obtain ⟨_, _, hr⟩ := hr
        intro i hi
        rcases ih hr i hi with h1 | h1
        · split at h1
          · rcases List.mem_append.1 h1 with h1 | h1
            · exact .inl h1
            · simp at h1; subst h1; exact .inr (by simp)
          · exact .inl h1
        · exact .inr (by simp [h1])
      · intro i hi
        rcases ih hr i hi with h1 | h1
        · exact .inl h1
        · exact .inr (by simp [h1])

theorem emits_v3Loop (ctx : Ctx) (h : Option Str) (niac l : List Item) :
    Emits (fun i k _ => i ∈ l ∧ k = s%"NeXus default plot v3, NXdata@signal")
      (v3Loop ctx h niac l) := by
  induction l generalizing h niac with
  | nil => exact Emits.pure _
  | cons it l ih =>
    have ih' := fun h n => Emits.mono (R' := fun i k _ => i ∈ it :: l ∧
      k = s%"NeXus default plot v3, NXdata@signal") (fun i k _ hi => ⟨by simp [hi.1], hi.2⟩) (ih h n)
    rw [v3Loop]
    emits
    all_goals first
      | exact ih' _ _
      | exact ⟨by simp, rfl⟩

/-- All items of a review satisfy `P`, with their key. -/
def ReviewAll (P : Option Str → Item → Prop) (rev : Review) : Prop :=
  ∀ g its, (g, its) ∈ rev → ∀ i ∈ its, P g i

theorem mem_set {κ β : Type} [DecidableEq κ] {d : Dict κ β} {k : κ} {v : β} {p : κ × β}
    (h : p ∈ Dict.set d k v) : p = (k, v) ∨ p ∈ d := by
  induction d with
  | nil => simp [Dict.set] at h; exact .inl h
  | cons q d ih =>
    obtain ⟨a, b⟩ := q
    rw [Dict.set] at h
    split at h
    · rcases List.mem_cons.1 h with h | h
      · exact .inl h
      · exact .inr (by simp [h])
    · rcases List.mem_cons.1 h with h | h
      · exact .inr (by simp [h])
      · rcases ih h with h | h
        · exact .inl h
        · exact .inr (by simp [h])

theorem v2Item_review {ctx : Ctx} {P : Option Str → Item → Prop} {rev rev' : Review} {it : Item}
    (hr : (v2Item ctx rev it).res = .ok rev') (h : ReviewAll P rev)
    (hp : ∀ par g, it.parent = some par → isHdf5Dataset par.obj = true → par.parent = some g →
      P g.addr it) :
    ReviewAll P rev' := by
  rw [v2Item] at hr
  split at hr
  · simp at hr
  · rename_i par hpar
    split at hr
    · rename_i hds
      have hp := fun g => hp par g hpar hds
      split at hr
      · simp only [] at hr
        split at hr
        · rw [W.bind_ok_iff] at hr
          obtain ⟨_, _, hr⟩ := hr
          split at hr
          · simp at hr
          · rename_i gr hgr
            have hp := hp gr hgr
            simp only [W.pure_res, Except.ok.injEq] at hr
            subst hr
            intro g its hm i hi
            rcases mem_set hm with hm | hm
            · cases hm
              rcases List.mem_append.1 hi with hi | hi
              · cases hg : Dict.get? rev _ with
                | none => rw [hg] at hi; simp at hi
                | some l =>
                  rw [hg] at hi
                  exact h _ _ (Dict.mem_of_get? hg) i hi
              · simp at hi; subst hi; exact hp
            · exact h _ _ hm i hi
        · rw [W.bind_ok_iff] at hr
          obtain ⟨_, _, hr⟩ := hr
          simp only [W.pure_res, Except.ok.injEq] at hr
          subst hr; exact h
      · simp at hr
    · simp only [W.pure_res, Except.ok.injEq] at hr
      subst hr; exact h

theorem v2Items_review {ctx : Ctx} {P : Option Str → Item → Prop} {rev rev' : Review} {l : List Item}
    (hr : (v2Items ctx rev l).res = .ok rev') (h : ReviewAll P rev)
    (hp : ∀ i ∈ l, ∀ par g, i.parent = some par → isHdf5Dataset par.obj = true →
      par.parent = some g → P g.addr i) :
    ReviewAll P rev' := by
  induction l generalizing rev with
  | nil => simp only [v2Items, W.pure_res, Except.ok.injEq] at hr; subst hr; exact h
  | cons it l ih =>
    rw [v2Items, W.bind_ok_iff] at hr
    obtain ⟨r1, h1, hr⟩ := hr
    exact ih hr (v2Item_review h1 h (hp it (by simp))) (fun i hi => hp i (by simp [hi]))

theorem v2Scan_review {ctx : Ctx} {P : Option Str → Item → Prop} {rev rev' : Review}
    {d : Dict Str (List Item)}
    (hr : (v2Scan ctx rev d).res = .ok rev') (h : ReviewAll P rev)
    (hp : ∀ k its, (k, its) ∈ d → endsWith k s%"@signal" = true → ∀ i ∈ its,
      ∀ par g, i.parent = some par → isHdf5Dataset par.obj = true → par.parent = some g →
      P g.addr i) :
    ReviewAll P rev' := by
  induction d generalizing rev with
  | nil => simp only [v2Scan, W.pure_res, Except.ok.injEq] at hr; subst hr; exact h
  | cons q d ih =>
    obtain ⟨k, its⟩ := q
    rw [v2Scan] at hr
    have hp' : ∀ k its, (k, its) ∈ d → endsWith k s%"@signal" = true → ∀ i ∈ its,
        ∀ par g, i.parent = some par → isHdf5Dataset par.obj = true → par.parent = some g →
        P g.addr i :=
      fun k its hm i hi => hp k its (by simp [hm]) i hi
    split at hr
    · rename_i hk
      rw [W.bind_ok_iff] at hr
      obtain ⟨r1, h1, hr⟩ := hr
      exact ih hr (v2Items_review h1 h (hp k its (by simp) hk)) hp'
    · exact ih hr h hp'

theorem emits_v2Items (ctx : Ctx) (rev : Review) (l : List Item) :
    Emits (fun i k _ => i ∈ l ∧ PlotTest k) (v2Items ctx rev l) := by
  induction l generalizing rev with
  | nil => exact Emits.pure _
  | cons it l ih =>
    rw [v2Items]
    refine Emits.bind ?_ (fun _ _ => Emits.mono (fun i k _ hi => ⟨by simp [hi.1], hi.2⟩) (ih _))
    unfold v2Item
    emits
    all_goals exact ⟨by simp, by constructor⟩

theorem emits_v2Scan (ctx : Ctx) (rev : Review) (d : Dict Str (List Item)) :
    Emits (fun i k _ => (∃ c its, (c, its) ∈ d ∧ endsWith c s%"@signal" = true ∧ i ∈ its) ∧
      PlotTest k) (v2Scan ctx rev d) := by
  induction d generalizing rev with
  | nil => exact Emits.pure _
  | cons q d ih =>
    obtain ⟨c, its⟩ := q
    have ih' := fun r => Emits.mono (R' := fun i k _ => (∃ c' its', (c', its') ∈ (c, its) :: d ∧
      endsWith c' s%"@signal" = true ∧ i ∈ its') ∧ PlotTest k)
      (fun i k _ hi => ⟨by obtain ⟨c', its', h1, h2⟩ := hi.1; exact ⟨c', its', by simp [h1], h2⟩,
        hi.2⟩) (ih r)
    rw [v2Scan]
    refine Emits.ite (fun hk => ?_) (fun _ => ih' _)
    refine Emits.bind ?_ (fun _ _ => ih' _)
    exact Emits.mono (fun i k _ hi => ⟨⟨c, its, by simp, hk, hi.1⟩, hi.2⟩)
      (emits_v2Items ctx rev its)

theorem emits_v2Pick {P : Option Str → Item → Prop} (addr : Option Str) (rev : Review)
    (h : ReviewAll P rev) :
    Emits (fun i k _ => (∃ g it, P g it ∧ (i = it ∨ it.parent.bind Item.parent = some i ∧
      g ≠ none)) ∧ PlotTest k)
      (v2Pick addr rev) := by
  induction rev generalizing addr with
  | nil => exact Emits.pure _
  | cons q rev ih =>
    obtain ⟨g, its⟩ := q
    have ih := fun a => ih a (fun g' its' hm i hi => h g' its' (by simp [hm]) i hi)
    have hits := h g its (by simp)
    unfold v2Pick
    split
    · exact ih _
    · emits
      all_goals first
        | exact ih _
        | exact ⟨⟨_, _, hits _ (by simp), .inl rfl⟩, by constructor⟩
    · emits
      all_goals first
        | exact ih _
        | exact ⟨⟨_, _, hits _ List.mem_cons_self, .inr ⟨by assumption, by simp⟩⟩, by constructor⟩

theorem emits_defaultPlotV3 (ctx : Ctx) :
    Emits (fun i k _ => PlotItem ctx i ∧ PlotTest k) (defaultPlotV3 ctx) := by
  have hm : ∀ i ∈ (Dict.get? ctx.classpaths s%"/NXentry/NXdata@signal").getD [],
      PlotItem ctx i := by
    intro i hi
    cases hg : Dict.get? ctx.classpaths s%"/NXentry/NXdata@signal" with
    | none => rw [hg] at hi; simp at hi
    | some l =>
      rw [hg] at hi
      exact .inr ⟨_, l, i, Dict.mem_of_get? hg, by decide, hi, .inl rfl⟩
  unfold defaultPlotV3
  simp only []
  refine Emits.bind ?_ (fun r hr => ?_)
  · exact Emits.mono (fun i k _ hi => ⟨hm i hi.1, by rw [hi.2]; constructor⟩)
      (emits_v3Loop ctx none [] _)
  · split
    · exact Emits.pure _
    · rename_i h5 niac
      have := v3Loop_items hr
      split
      · rename_i it
        emits
        rcases this it (by simp) with h | h
        · simp at h
        · exact ⟨hm _ h, by constructor⟩
      · exact Emits.pure _

theorem emits_defaultPlotV2 (ctx : Ctx) :
    Emits (fun i k _ => PlotItem ctx i ∧ PlotTest k) (defaultPlotV2 ctx) := by
  unfold defaultPlotV2
  refine Emits.bind ?_ (fun rev hr => ?_)
  · refine Emits.mono (fun i k _ hi => ⟨?_, hi.2⟩) (emits_v2Scan ctx [] ctx.classpaths)
    obtain ⟨c, its, h1, h2, h3⟩ := hi.1
    exact .inr ⟨c, its, i, h1, h2, h3, .inl rfl⟩
  · have hall := v2Scan_review (P := fun g i => ∃ c its par gr, (c, its) ∈ ctx.classpaths ∧
        endsWith c s%"@signal" = true ∧ i ∈ its ∧ i.parent = some par ∧
        isHdf5Dataset par.obj = true ∧ par.parent = some gr ∧ g = gr.addr) hr
      (by intro g its hm; simp at hm) (fun k its hm hk i hi par gr hp hd hg =>
        ⟨k, its, par, gr, hm, hk, hi, hp, hd, hg, rfl⟩)
    refine Emits.mono (fun i k _ hi => ⟨?_, hi.2⟩) (emits_v2Pick none rev hall)
    obtain ⟨g, it, ⟨c, its, par, gr, h1, h2, h3, h4, h5, hgr, hga⟩, h6⟩ := hi.1
    refine .inr ⟨c, its, it, h1, h2, h3, ?_⟩
    rcases h6 with h6 | ⟨h6, h7⟩
    · exact .inl h6
    · rw [h4] at h6
      have h6' : par.parent = some i := h6
      rw [hgr] at h6'
      cases h6'
      exact .inr ⟨par, h4, h5, hgr, by rw [← hga]; exact h7⟩

theorem addressAt_ok {ctx : Ctx} {k : Str} {it : Item} (h : addressAt ctx k = .ok it) :
    Dict.get? ctx.addresses (some k) = some it := by
  rw [addressAt] at h
  split at h
  · rename_i h1; rw [h1]; cases h; rfl
  · cases h

theorem emits_defaultPlot (ctx : Ctx) (mins : Dict (Str × Str) Int) :
    Emits (fun i k _ => PlotItem ctx i ∧ PlotTest k) (defaultPlotVerify ctx mins) := by
  have h3 := emits_defaultPlotV3 ctx
  have h2 := emits_defaultPlotV2 ctx
  unfold defaultPlotVerify findDefaultPlot
  refine Emits.bind (Emits.lift _) (fun obj ho => ?_)
  have hobj : PlotItem ctx obj := .inl (addressAt_ok ho)
  emits
  all_goals exact ⟨hobj, by constructor⟩

end Punx

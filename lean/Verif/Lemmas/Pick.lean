import Verif.Props.ItemName

/-! Findings of one item under test names of one kind. -/

namespace Punx

/-- The findings recorded for the item with identity `o` under test names with `T`. -/
def pick (T : Str → Bool) (effs : List Eff) (o : List Nat) : List Finding :=
  effs.filterMap (fun
    | .found o' k f => if o' = o ∧ T k = true then some f else none
    | _ => none)

theorem pick_append (T : Str → Bool) (a b : List Eff) (o : List Nat) :
    pick T (a ++ b) o = pick T a o ++ pick T b o := by
  simp [pick]

theorem pick_of_emits {α : Type} {T : Str → Bool} {w : W Eff α} {R : Item → Str → Status → Prop}
    (h : Emits R w) (hR : ∀ i k st, R i k st → T k = false) (o : List Nat) :
    pick T w.log o = [] := by
  rw [pick, List.filterMap_eq_nil_iff]
  intro e he
  rcases h e he with ⟨i, k, st, c, rfl, hr⟩ | ⟨c, g, n, rfl⟩
  · have := hR i k st hr
    simp [this]
  · rfl

theorem pick_other {α : Type} {T : Str → Bool} {it : Item} {U : Str → Prop} {w : W Eff α}
    (h : Emits (fun i k _ => i = it ∧ U k) w) {o : List Nat} (ho : it.oid ≠ o) :
    pick T w.log o = [] := by
  rw [pick, List.filterMap_eq_nil_iff]
  intro e he
  rcases h e he with ⟨i, k, st, c, rfl, rfl, _⟩ | ⟨c, g, n, rfl⟩
  · simp [ho]
  · rfl

/-- All findings, whatever item and test. -/
theorem pick_self {α : Type} {T : Str → Bool} {it : Item} {U : Str → Prop} {w : W Eff α}
    (h : Emits (fun i k _ => i = it ∧ U k) w) (hT : ∀ k, U k → T k = true) :
    pick T w.log it.oid = findings w.log := by
  rw [pick, findings]
  refine List.filterMap_congr ?_
  intro e he
  rcases h e he with ⟨i, k, st, c, rfl, rfl, hk⟩ | ⟨c, g, n, rfl⟩
  · simp [hT k hk]
  · rfl

/-- Is it a test name of `attribute.py`? -/
def isAttrTest (k : Str) : Bool :=
  k == s%"attribute value" || startsWith k s%"valid name @" || startsWith k s%"axes['"

theorem AttrTest.is {k : Str} (h : AttrTest k) : isAttrTest k = true := by
  cases h
  · rfl
  · simp [isAttrTest, startsWith]
  · simp [isAttrTest, startsWith]
  · simp [isAttrTest, startsWith]

theorem GroupTest.isNot {k : Str} (h : GroupTest k) : isAttrTest k = false := by
  cases h <;> simp [isAttrTest, startsWith, List.isPrefixOf]

theorem AppTest.isNot {k : Str} (h : AppTest k) : isAttrTest k = false := by
  cases h <;> simp [isAttrTest, startsWith, List.isPrefixOf]

theorem PlotTest.isNot {k : Str} (h : PlotTest k) : isAttrTest k = false := by
  cases h <;> simp [isAttrTest, startsWith, List.isPrefixOf]

/-- The attribute findings of an item are those of its own attribute check. -/
theorem attrFindings_run {env : Env} {mgr : Manager} {mins : Dict (Str × Str) Int} {f : H5File}
    (h : (validateOpen env mgr mins f).res = .ok ()) {it : Item}
    (hit : it ∈ (catalog env f).log) :
    (attributeVerify (mkCtx env mgr mins f) it).res = .ok () ∧
    pick isAttrTest (validateOpen env mgr mins f).log it.oid =
      findings (attributeVerify (mkCtx env mgr mins f) it).log := by
  have c := completed h
  obtain ⟨m, hlog, _, _⟩ := c.log
  have hna' := c.names it hit
  rw [nameAndAttribute, W.bind_ok_iff] at hna'
  obtain ⟨⟨⟩, h1, h2⟩ := hna'
  refine ⟨h2, ?_⟩
  rw [hlog, pick_append, pick_append, pick_append]
  rw [pick_of_emits (emits_step2 _) (fun _ _ _ h => h.isNot),
    pick_of_emits (emits_step3 _) (fun _ _ _ h => h.isNot),
    pick_of_emits (emits_defaultPlot _ _) (fun _ _ _ h => h.2.isNot),
    List.append_nil, List.append_nil, List.append_nil]
  rw [flatMap_single (F := fun l => pick isAttrTest l it.oid) (fun a b => pick_append _ a b _) rfl
    ((((classpathTable_perm (catalog env f).log).map (·.oid)).nodup_iff).2
      (catalog_once_containers_first c.catalog).1) (mem_step1Items.2 hit)
    (fun i _ hi => pick_other (emits_nameAndAttribute _ [] i) hi)]
  rw [nameAndAttribute, W.bind_log_of_ok h1, pick_append,
    pick_of_emits (emits_itemName _ [] it) (fun _ _ _ h => by rw [h.2]; rfl), List.nil_append]
  exact pick_self (emits_attribute _ it) (fun k hk => hk.is)

theorem findings_append (a b : List Eff) : findings (a ++ b) = findings a ++ findings b := by
  simp [findings]

theorem findings_record (it : Item) (k : Str) (st : Status) (c : Str) :
    findings (record it k st c).log = [⟨it.addr, k, st, c⟩] := by
  simp [findings, record]

theorem record_res (it : Item) (k : Str) (st : Status) (c : Str) :
    (record it k st c).res = .ok () := rfl

theorem findings_record_bind {β : Type} (it : Item) (k : Str) (st : Status) (c : Str)
    (f : Unit → W Eff β) :
    findings (record it k st c >>= f).log = ⟨it.addr, k, st, c⟩ :: findings (f ()).log := by
  simp [findings, record]

theorem record_bind_res {β : Type} (it : Item) (k : Str) (st : Status) (c : Str)
    (f : Unit → W Eff β) : (record it k st c >>= f).res = (f ()).res := rfl

end Punx

import Verif.Spec.Attributes
import Verif.Lemmas.Items
import Verif.Lemmas.Regex

/-!
# C12–C16: names of groups, fields and attributes
-/

namespace Punx
open Spec

/-- The `validItemName` findings recorded for the item with identity `o`. -/
def nameFindings (effs : List Eff) (o : List Nat) : List Finding :=
  effs.filterMap (fun
    | .found o' _ f => if o' = o ∧ f.test = s%"validItemName" then some f else none
    | _ => none)

theorem nameFindings_append (a b : List Eff) (o : List Nat) :
    nameFindings (a ++ b) o = nameFindings a o ++ nameFindings b o := by
  simp [nameFindings]

theorem nameFindings_of_emits {α : Type} {w : W Eff α} {R : Item → Str → Status → Prop}
    (h : Emits R w) (hR : ∀ i k st, R i k st → k ≠ tValidItemName) (o : List Nat) :
    nameFindings w.log o = [] := by
  rw [nameFindings, List.filterMap_eq_nil_iff]
  intro e he
  rcases h e he with ⟨i, k, st, c, rfl, hr⟩ | ⟨c, g, n, rfl⟩
  · have := hR i k st hr
    simp only [ite_eq_right_iff, reduceCtorEq]
    exact fun h => absurd h.2 this
  · rfl

theorem nameFindings_other {α : Type} {it : Item} {T : Str → Prop} {w : W Eff α}
    (h : Emits (fun i k _ => i = it ∧ T k) w) {o : List Nat} (ho : it.oid ≠ o) :
    nameFindings w.log o = [] := by
  rw [nameFindings, List.filterMap_eq_nil_iff]
  intro e he
  rcases h e he with ⟨i, k, st, c, rfl, rfl, _⟩ | ⟨c, g, n, rfl⟩
  · simp [ho]
  · rfl

theorem flatMap_single {α β : Type} {l : List Item} {g : Item → List α} {F : List α → List β}
    (hF : ∀ a b, F (a ++ b) = F a ++ F b) (hF0 : F [] = []) (hn : (l.map (·.oid)).Nodup)
    {it : Item} (hit : it ∈ l) (hg : ∀ i ∈ l, i.oid ≠ it.oid → F (g i) = []) :
    F (l.flatMap g) = F (g it) := by
  induction l with
  | nil => simp at hit
  | cons a l ih =>
    rw [List.map_cons, List.nodup_cons] at hn
    rw [List.flatMap_cons, hF]
    by_cases ha : a.oid = it.oid
    · have hz : F (l.flatMap g) = [] := by
        have : ∀ i ∈ l, F (g i) = [] := by
          intro i hi
          refine hg i (by simp [hi]) ?_
          intro e
          exact hn.1 (List.mem_map.2 ⟨i, hi, by rw [e, ha]⟩)
        clear hn hg ih hit
        induction l with
        | nil => exact hF0
        | cons b l ih =>
          rw [List.flatMap_cons, hF, this b (by simp), ih (fun i hi => this i (by simp [hi]))]
          rfl
      rw [hz, List.append_nil]
      rcases List.mem_cons.1 hit with rfl | hit
      · rfl
      · exact absurd (List.mem_map.2 ⟨it, hit, ha.symm⟩) hn.1
    · rw [hg a (by simp) ha, List.nil_append]
      rcases List.mem_cons.1 hit with rfl | hit
      · exact absurd rfl ha
      · exact ih hn.2 hit (fun i hi => hg i (by simp [hi]))

theorem emits_step2 (ctx : Ctx) :
    Emits (fun _ k _ => GroupTest k) (step2 ctx) := by
  unfold step2
  refine Emits.forEach (fun it _ => Emits.ite (fun _ => ?_) (fun _ => Emits.pure _))
  exact Emits.mono (fun i k _ h => h.2) (emits_group ctx it)

theorem emits_step3 (ctx : Ctx) :
    Emits (fun _ k _ => AppTest k) (step3 ctx) := by
  unfold step3
  refine Emits.forEach (fun k _ => Emits.forEach (fun it _ => ?_))
  split
  · exact Emits.mono (fun i k _ h => h.2) (emits_appDef ctx _)
  · exact Emits.fail _

/-- The name findings of an item are those of its own name check. -/
theorem nameFindings_run {env : Env} {mgr : Manager} {mins : Dict (Str × Str) Int} {f : H5File}
    (h : (validateOpen env mgr mins f).res = .ok ()) {it : Item}
    (hit : it ∈ (catalog env f).log) :
    (itemNameVerify (mkCtx env mgr mins f) [] it).res = .ok () ∧
    nameFindings (validateOpen env mgr mins f).log it.oid =
      nameFindings (itemNameVerify (mkCtx env mgr mins f) [] it).log it.oid := by
  have c := completed h
  obtain ⟨m, hlog, _, _⟩ := c.log
  have hna := c.names it hit
  have hna' := hna
  rw [nameAndAttribute, W.bind_ok_iff] at hna'
  obtain ⟨⟨⟩, h1, _⟩ := hna'
  refine ⟨h1, ?_⟩
  rw [hlog, nameFindings_append, nameFindings_append, nameFindings_append]
  rw [nameFindings_of_emits (emits_step2 _) (fun _ _ _ h => h.ne),
    nameFindings_of_emits (emits_step3 _) (fun _ _ _ h => h.ne),
    nameFindings_of_emits (emits_defaultPlot _ _) (fun _ _ _ h => h.2.ne),
    List.append_nil, List.append_nil, List.append_nil]
  rw [flatMap_single (F := fun l => nameFindings l it.oid) (fun a b => nameFindings_append a b _) rfl
    ((((classpathTable_perm (catalog env f).log).map (·.oid)).nodup_iff).2
      (catalog_once_containers_first c.catalog).1) (mem_step1Items.2 hit)
    (fun i _ hi => nameFindings_other (emits_nameAndAttribute _ [] i) hi)]
  rw [nameAndAttribute, W.bind_log_of_ok h1, nameFindings_append,
    nameFindings_of_emits (emits_attribute _ it) (fun _ _ _ h => h.2.ne), List.append_nil]

/-! ## the decision on a name -/

theorem matchKeyLoop_eq_none {word : Char → Bool} {s : Str} {l : List (Str × Pat)} :
    matchKeyLoop word s l = none ↔ ∀ kp ∈ l, ¬ PatAccepts word kp.2 s := by
  induction l with
  | nil => simp [matchKeyLoop]
  | cons kp l ih =>
    obtain ⟨k, p⟩ := kp
    rw [matchKeyLoop]
    split
    · rename_i h
      rw [patMatch_iff] at h
      simp only [reduceCtorEq, List.mem_cons, forall_eq_or_imp, false_iff, not_and]
      exact fun h' => absurd h h'
    · rename_i h
      rw [patMatch_iff] at h
      simp [ih, h]

theorem matchKeyLoop_relaxed {word : Char → Bool} {s k : Str} {l : List Pat}
    (h : matchKeyLoop word s (l.map (fun p => (s%"relaxed pattern: " ++ p.text, p))) = some k) :
    startsWith k s%"strict" = false := by
  induction l with
  | nil => simp [matchKeyLoop] at h
  | cons p l ih =>
    rw [List.map_cons, matchKeyLoop] at h
    split at h
    · injection h with h; subst h; rfl
    · exact ih h

theorem strict_iff {word : Char → Bool} (s : Str) :
    PatAccepts word strictPat s ↔ OrNewline StrictName s := by
  rw [← patMatch_iff, patMatch_strict]

/-- The three outcomes of `validItemName_match_key`. -/
theorem matchKey_cases (ctx : Ctx) (s : Str) :
    (OrNewline StrictName s ∧ matchKey ctx s = some (s%"strict pattern: " ++ strictPat.text)) ∨
    (¬ OrNewline StrictName s ∧ RelaxedBy ctx.env.word ctx.mgr s ∧
      ∃ k, matchKey ctx s = some k ∧ startsWith k s%"strict" = false) ∨
    (¬ OrNewline StrictName s ∧ ¬ RelaxedBy ctx.env.word ctx.mgr s ∧ matchKey ctx s = none) := by
  rw [matchKey, itemNamePatterns, matchKeyLoop]
  by_cases hs : patMatch ctx.env.word strictPat s = true
  · left
    exact ⟨(patMatch_strict s).1 hs, if_pos hs⟩
  · right
    rw [if_neg hs]
    have hns : ¬ OrNewline StrictName s := fun h => hs ((patMatch_strict s).2 h)
    cases hk : matchKeyLoop ctx.env.word s
        ((ctx.mgr.itemPats.getD []).map (fun p => (s%"relaxed pattern: " ++ p.text, p))) with
    | none =>
      right
      refine ⟨hns, ?_, rfl⟩
      rintro ⟨p, hp, hpa⟩
      exact matchKeyLoop_eq_none.1 hk (_, p) (List.mem_map.2 ⟨p, hp, rfl⟩) hpa
    | some k =>
      left
      refine ⟨hns, ?_, k, rfl, matchKeyLoop_relaxed hk⟩
      by_contra hno
      have : matchKeyLoop ctx.env.word s
        ((ctx.mgr.itemPats.getD []).map (fun p => (s%"relaxed pattern: " ++ p.text, p))) = none := by
        rw [matchKeyLoop_eq_none]
        intro kp hkp hpa
        obtain ⟨p, hp, rfl⟩ := List.mem_map.1 hkp
        exact hno ⟨p, hp, hpa⟩
      rw [this] at hk
      cases hk

/-- One finding, with this status, at the address of the item. -/
def OneFinding (fs : List Finding) (addr : Option Str) (P : Status → Prop) : Prop :=
  ∃ st c, fs = [⟨addr, s%"validItemName", st, c⟩] ∧ P st

theorem record_nameFindings (it : Item) (st : Status) (c : Str) :
    nameFindings (record it tValidItemName st c).log it.oid =
      [⟨it.addr, s%"validItemName", st, c⟩] := by
  simp [record, nameFindings, tValidItemName]

theorem handleGroupsAndFields_spec (ctx : Ctx) (it : Item) :
    OneFinding (nameFindings (handleGroupsAndFields ctx it).log it.oid) it.addr
      (NameRule it.classpath it.name (RelaxedBy ctx.env.word ctx.mgr it.name)) := by
  rw [handleGroupsAndFields]
  by_cases hc : hasSub s%"NXcollection" it.classpath = true
  · rw [if_pos hc, record_nameFindings]
    exact ⟨.warn, _, rfl, fun _ => rfl, fun h => absurd (hasSub_iff.1 hc) h⟩
  · rw [if_neg hc]
    have hc' : ¬ s%"NXcollection" <:+: it.classpath := fun h => hc (hasSub_iff.2 h)
    rcases matchKey_cases ctx it.name with ⟨h1, h2⟩ | ⟨h1, h2, k, h3, h4⟩ | ⟨h1, h2, h3⟩
    · rw [h2]
      simp only []
      rw [if_pos (by rfl), record_nameFindings]
      exact ⟨.ok, _, rfl, fun h => absurd h hc', fun _ =>
        ⟨fun _ => rfl, fun h => absurd h1 h, fun h => absurd h1 h⟩⟩
    · rw [h3]
      simp only []
      rw [if_neg (by rw [h4]; simp), record_nameFindings]
      exact ⟨.note, _, rfl, fun h => absurd h hc', fun _ =>
        ⟨fun h => absurd h h1, fun _ _ => rfl, fun _ h => absurd h2 h⟩⟩
    · rw [h3]
      simp only []
      rw [record_nameFindings]
      exact ⟨.error, _, rfl, fun h => absurd h hc', fun _ =>
        ⟨fun h => absurd h h1, fun _ h => absurd h h2, fun _ _ => rfl⟩⟩

theorem hasAt_iff (s : Str) : hasAt s = true ↔ '@' ∈ s := by
  simp [hasAt]

theorem isHdf5Link_node (n : Node) : isHdf5Link (.node n) = true := rfl

/-- An object whose address ends with `@NX_class` stops the validation. -/
theorem object_addr_not_class {env : Env} {mgr : Manager} {mins : Dict (Str × Str) Int}
    {f : H5File} (h : (validateOpen env mgr mins f).res = .ok ()) {it : Item}
    (hit : it ∈ (catalog env f).log) {n : Node} (hobj : it.obj = .node n) :
    ∀ a, it.addr = some a → ¬ s%"@NX_class" <:+ a := by
  obtain ⟨hok, _⟩ := nameFindings_run h hit
  have hcat := catalogued (completed h).catalog hit
  obtain ⟨p, hp⟩ : ∃ p, it.parent = some p := by
    cases hcat with
    | root => cases hobj
    | attr j => rw [attrItem_obj] at hobj; cases hobj
    | node hp => exact ⟨_, objItem_parent ..⟩
  intro a ha hs
  have hends : endsWith a s%"@NX_class" = true := endsWith_iff.2 hs
  rw [itemNameVerify, hp] at hok
  simp only [List.not_mem_nil, if_false, ha, Option.map_some, Option.getD_some, hends, if_true,
    handleNXClass, hobj] at hok
  split at hok <;> cases hok

/-- C12: in a completed validation every group, field or named type whose class path contains
no `@` gets exactly one name verdict: WARN if the class path contains NXcollection, else OK,
NOTE or ERROR by the strict rule and the relaxed patterns of the definitions. -/
theorem object_name_verdict {env : Env} {mgr : Manager} {mins : Dict (Str × Str) Int} {f : H5File}
    (h : (validateOpen env mgr mins f).res = .ok ()) {it : Item}
    (hit : it ∈ (catalog env f).log) {n : Node} (hobj : it.obj = .node n)
    (hat : '@' ∉ it.classpath) :
    OneFinding (nameFindings (validateOpen env mgr mins f).log it.oid) it.addr
      (NameRule it.classpath it.name (RelaxedBy env.word mgr it.name)) := by
  obtain ⟨_, e⟩ := nameFindings_run h hit
  have haddr := object_addr_not_class h hit hobj
  rw [e]
  have hcat := catalogued (completed h).catalog hit
  have hpar : ∃ p, it.parent = some p := by
    cases hcat with
    | root => cases hobj
    | attr j => rw [attrItem_obj] at hobj; cases hobj
    | node _ => exact ⟨_, objItem_parent ..⟩
  obtain ⟨p, hp⟩ := hpar
  have ha : (it.addr.map (fun a => endsWith a s%"@NX_class")).getD false = false := by
    cases hadr : it.addr with
    | none => rfl
    | some a =>
      have := haddr a hadr
      rw [← endsWith_iff] at this
      simpa using this
  have hcl : hasAt it.classpath = false := by
    rw [Bool.eq_false_iff, ne_eq, hasAt_iff]; exact hat
  have : itemNameVerify (mkCtx env mgr mins f) [] it =
      handleGroupsAndFields (mkCtx env mgr mins f) it := by
    rw [itemNameVerify, hp]
    simp only [List.not_mem_nil, if_false, ha, hcl, hobj, isHdf5Link_node, Bool.or_true, if_true]
    rfl
  rw [this]
  exact handleGroupsAndFields_spec (mkCtx env mgr mins f) it

/-! ## attributes -/

/-- An attribute item with an address. -/
theorem attr_shape {env : Env} {f : H5File} {L : List Item} {it : Item}
    (hc : Catalogued env f L it) {v : Val} (hobj : it.obj = .val v) {a : Str}
    (ha : it.addr = some a) :
    ∃ owner attrs oa, owner ∈ L ∧ it.parent = some owner ∧ owner.obj.attrs? = some attrs ∧
      (it.name, v) ∈ attrs ∧ owner.addr = some oa ∧ owner.obj.name? = some oa ∧
      a = oa ++ '@' :: it.name ∧ owner.classpath ≠ nonNeXus ∧
      it.classpath = owner.classpath ++ '@' :: it.name ∧ IsObject f owner := by
  cases hc with
  | root => cases hobj
  | node _ => cases hobj
  | @attr owner attrs ka j h1 h2 h3 h4 =>
    obtain ⟨oa, ho1, ho2⟩ := h2.addr
    have hcl : owner.classpath ≠ nonNeXus := by
      intro hn
      rw [attrItem, if_pos hn] at ha
      cases ha
    have e : attrItem owner j ka = ⟨⟨(2 * j + 1) :: owner.oid, .val ka.2, ka.1,
        some ((owner.addr.getD s%"None") ++ '@' :: ka.1), owner.classpath ++ '@' :: ka.1, none⟩,
        owner.chain⟩ := by
      rw [attrItem, if_neg hcl]
    rw [attrItem_obj] at hobj
    injection hobj with hobj
    subst hobj
    refine ⟨owner, attrs, oa, h1, attrItem_parent owner j ka, h3, ?_, ho1, ho2, ?_, hcl, ?_, h2⟩
    · rw [e]; exact h4
    · rw [e] at ha
      rw [e]
      simp only [ho1, Option.getD_some, Option.some.injEq] at ha
      exact ha.symm
    · rw [e]

theorem isNeXusLinkTarget_spec {env : Env} {owner : Item} {attrs : List (Str × Val)} {oa : Str}
    (h1 : owner.obj.attrs? = some attrs) (h2 : owner.addr = some oa) {b : Bool}
    (h : isNeXusLinkTarget env owner = .ok b) : b = true ↔ TargetElsewhere env attrs oa := by
  rw [isNeXusLinkTarget, h1] at h
  simp only [attrGet] at h
  rw [TargetElsewhere]
  cases hl : attrs.lookup s%"target" with
  | none =>
    rw [hl] at h
    injection h with h
    subst h
    simp
  | some v =>
    rw [hl] at h
    simp only [h2] at h
    cases v with
    | str t =>
      simp only [decodeByteString, bind, Except.bind, valNe] at h
      injection h with h
      subst h
      simp
    | bytes bs =>
      simp only [decodeByteString] at h
      cases hb : env.dec bs with
      | none => rw [hb] at h; cases h
      | some t =>
        rw [hb] at h
        simp only [bind, Except.bind, valNe] at h
        injection h with h
        subst h
        simp [hb]
    | arrO xs =>
      simp only [decodeByteString] at h
      split at h <;> (simp only [bind, Except.bind, valNe] at h; injection h with h; subst h; simp)
    | arrS xs =>
      simp only [decodeByteString] at h
      split at h
      · split at h
        · simp only [bind, Except.bind, valNe] at h; injection h with h; subst h; simp
        · cases h
      · simp only [bind, Except.bind, valNe] at h; injection h with h; subst h; simp
    | arrNum xs =>
      simp only [decodeByteString, bind, Except.bind, valNe] at h
      split at h
      · injection h with h; subst h; simp
      · cases h
    | _ =>
      simp only [decodeByteString, bind, Except.bind, valNe] at h
      injection h with h
      subst h
      simp

theorem handleAnyAttribute_spec (ctx : Ctx) (it : Item) :
    OneFinding (nameFindings (handleAnyAttribute ctx it).log it.oid) it.addr
      (AttrNameRule ctx.env.word ctx.mgr it.name) := by
  rw [handleAnyAttribute]
  rcases matchKey_cases ctx it.name with ⟨h1, h2⟩ | ⟨h1, h2, k, h3, h4⟩ | ⟨h1, h2, h3⟩
  · rw [h2]
    simp only []
    rw [record_nameFindings]
    exact ⟨.ok, _, rfl, fun _ => rfl, fun h => absurd h1 h⟩
  · rw [h3]
    simp only []
    rw [record_nameFindings]
    exact ⟨.ok, _, rfl, fun _ => rfl, fun _ h => absurd h2 h⟩
  · rw [h3]
    simp only []
    rw [record_nameFindings]
    exact ⟨.error, _, rfl, fun h => absurd h (by simp [h1, h2]), fun _ _ => rfl⟩

/-- C16: in a completed validation an attribute of NeXus content (other than NX_class) is not
judged at all if its owner carries a `target` other than its own address; otherwise its name
gets exactly one verdict: OK if it satisfies the strict or relaxed rule, else ERROR. -/
theorem attribute_name_verdict {env : Env} {mgr : Manager} {mins : Dict (Str × Str) Int}
    {f : H5File} (h : (validateOpen env mgr mins f).res = .ok ()) {it : Item}
    (hit : it ∈ (catalog env f).log) {v : Val} (hobj : it.obj = .val v) {a : Str}
    (ha : it.addr = some a) (hcl : ¬ s%"@NX_class" <:+ a) :
    ∃ owner attrs oa, owner ∈ (catalog env f).log ∧ it.parent = some owner ∧
      owner.obj.attrs? = some attrs ∧ owner.addr = some oa ∧
      (TargetElsewhere env attrs oa →
        nameFindings (validateOpen env mgr mins f).log it.oid = []) ∧
      (¬ TargetElsewhere env attrs oa →
        OneFinding (nameFindings (validateOpen env mgr mins f).log it.oid) it.addr
          (AttrNameRule env.word mgr it.name)) := by
  obtain ⟨hok, e⟩ := nameFindings_run h hit
  obtain ⟨owner, attrs, oa, h1, h2, h3, _, h5, _, h7, h8, h9, _⟩ :=
    attr_shape (catalogued (completed h).catalog hit) hobj ha
  refine ⟨owner, attrs, oa, h1, h2, h3, h5, ?_⟩
  rw [e]
  have hends : endsWith a s%"@NX_class" = false := by
    rw [Bool.eq_false_iff, ne_eq, endsWith_iff]; exact hcl
  have hat : hasAt it.classpath = true := by
    rw [hasAt_iff, h9]; simp
  have hv : itemNameVerify (mkCtx env mgr mins f) [] it =
      (W.lift (isNeXusLinkTarget env owner) >>= fun linked =>
        if linked then pure () else handleAnyAttribute (mkCtx env mgr mins f) it) := by
    rw [itemNameVerify, h2]
    simp only [List.not_mem_nil, if_false, ha, Option.map_some, Option.getD_some, hends, hat,
      if_true]
    rfl
  rw [hv] at hok ⊢
  rw [W.bind_ok_iff] at hok
  obtain ⟨b, hb, _⟩ := hok
  have hs := isNeXusLinkTarget_spec h3 h5 hb
  rw [W.lift_res] at hb
  rw [hb, W.lift_ok_bind]
  cases b with
  | true =>
    have : TargetElsewhere env attrs oa := hs.1 rfl
    exact ⟨fun _ => rfl, fun hn => absurd this hn⟩
  | false =>
    have : ¬ TargetElsewhere env attrs oa := fun h => by simpa using hs.2 h
    exact ⟨fun h => absurd h this, fun _ => handleAnyAttribute_spec (mkCtx env mgr mins f) it⟩

/-! ## values of NX_class -/

theorem nxClassLoop_spec (word : Char → Bool) (s : Str) (last : Option Str) (l : List Pat) :
    ((∃ p ∈ l, PatAccepts word p s) → (nxClassLoop word s last l).1 = .ok) ∧
    ((¬ ∃ p ∈ l, PatAccepts word p s) → (nxClassLoop word s last l).1 = .error) := by
  induction l generalizing last with
  | nil => simp [nxClassLoop]
  | cons p l ih =>
    rw [nxClassLoop]
    split
    · rename_i h
      rw [patMatch_iff] at h
      exact ⟨fun _ => rfl, fun hn => absurd ⟨p, by simp, h⟩ hn⟩
    · rename_i h
      rw [patMatch_iff] at h
      constructor
      · rintro ⟨q, hq, hqa⟩
        rcases List.mem_cons.1 hq with rfl | hq
        · exact absurd hqa h
        · exact (ih _).1 ⟨q, hq, hqa⟩
      · intro hn
        exact (ih _).2 (fun ⟨q, hq, hqa⟩ => hn ⟨q, by simp [hq], hqa⟩)

theorem decode_text {env : Env} {v : Val} {s : Str}
    (h : decodeByteString env v = .ok (.str s)) : TextOf env v s := by
  cases v with
  | str t => simp only [decodeByteString] at h; injection h with h; exact .inl h
  | bytes b =>
    simp only [decodeByteString] at h
    cases hb : env.dec b with
    | none => rw [hb] at h; cases h
    | some t => rw [hb] at h; injection h with h; injection h with h; subst h; exact .inr ⟨b, rfl, hb⟩
  | arrO xs => simp only [decodeByteString] at h; split at h <;> (injection h with h; cases h)
  | arrS xs =>
    simp only [decodeByteString] at h
    split at h
    · split at h
      · injection h with h; cases h
      · cases h
    · injection h with h; cases h
  | _ => simp only [decodeByteString] at h; injection h with h; cases h

/-- C14, the exact rule: in a completed validation the value of an NX_class attribute of NeXus
content is text and gets exactly one verdict: OK if it satisfies ANY of the patterns of
`validNXClassName`, else ERROR. -/
theorem class_value_verdict {env : Env} {mgr : Manager} {mins : Dict (Str × Str) Int}
    {f : H5File} (h : (validateOpen env mgr mins f).res = .ok ()) {it : Item}
    (hit : it ∈ (catalog env f).log) {v : Val} (hobj : it.obj = .val v) {a : Str}
    (ha : it.addr = some a) (hcl : s%"@NX_class" <:+ a) :
    ∃ s pats, TextOf env v s ∧ mgr.classPats = some pats ∧
      OneFinding (nameFindings (validateOpen env mgr mins f).log it.oid) it.addr (fun st =>
        ((∃ p ∈ pats, PatAccepts env.word p s) → st = .ok) ∧
        ((¬ ∃ p ∈ pats, PatAccepts env.word p s) → st = .error)) := by
  obtain ⟨hok, e⟩ := nameFindings_run h hit
  obtain ⟨owner, attrs, oa, _, h2, _, _, _, _, _, _, _, _⟩ :=
    attr_shape (catalogued (completed h).catalog hit) hobj ha
  rw [e]
  have hends : endsWith a s%"@NX_class" = true := endsWith_iff.2 hcl
  have hv : itemNameVerify (mkCtx env mgr mins f) [] it = handleNXClass (mkCtx env mgr mins f) it := by
    rw [itemNameVerify, h2]
    simp only [List.not_mem_nil, if_false, ha, Option.map_some, Option.getD_some, hends, if_true]
  rw [hv] at hok ⊢
  rw [handleNXClass] at hok ⊢
  have hm : (mkCtx env mgr mins f).mgr = mgr := rfl
  have he : (mkCtx env mgr mins f).env = env := rfl
  rw [hm] at hok ⊢
  cases hp : mgr.classPats with
  | none => rw [hp] at hok; cases hok
  | some pats =>
    rw [hp] at hok
    cases pats with
    | nil => cases hok
    | cons p ps =>
      simp only [hobj, he] at hok ⊢
      rw [W.bind_ok_iff] at hok
      obtain ⟨d, hd, hok⟩ := hok
      rw [W.lift_res] at hd
      rw [hd, W.lift_ok_bind]
      cases d with
      | str s =>
        refine ⟨s, p :: ps, decode_text hd, rfl, ?_⟩
        simp only []
        rw [record_nameFindings]
        exact ⟨_, _, rfl, nxClassLoop_spec env.word s none (p :: ps)⟩
      | _ => cases hok

/-! ## what is not judged -/

/-- C15: attributes of non-NeXus content get no name verdict. -/
theorem nonNexus_attribute_unjudged {env : Env} {mgr : Manager} {mins : Dict (Str × Str) Int}
    {f : H5File} (h : (validateOpen env mgr mins f).res = .ok ()) {it : Item}
    (hit : it ∈ (catalog env f).log) {v : Val} (hobj : it.obj = .val v) (ha : it.addr = none) :
    nameFindings (validateOpen env mgr mins f).log it.oid = [] := by
  obtain ⟨_, e⟩ := nameFindings_run h hit
  rw [e]
  have hcat := catalogued (completed h).catalog hit
  cases hcat with
  | root => cases hobj
  | node _ => cases hobj
  | @attr owner attrs ka j h1 h2 h3 h4 =>
    have hcl : owner.classpath = nonNeXus := by
      by_contra hn
      rw [attrItem, if_neg hn] at ha
      cases ha
    have e : attrItem owner j ka = ⟨⟨(2 * j + 1) :: owner.oid, .val ka.2, ka.1, none, nonNeXus,
      none⟩, owner.chain⟩ := by rw [attrItem, if_pos hcl]
    rw [itemNameVerify, attrItem_parent]
    rw [e]
    rfl

/-- C15: the root gets no name verdict. -/
theorem root_unjudged {env : Env} {mgr : Manager} {mins : Dict (Str × Str) Int}
    {f : H5File} (h : (validateOpen env mgr mins f).res = .ok ()) {it : Item}
    (hit : it ∈ (catalog env f).log) {g : H5File} (hobj : it.obj = .file g) :
    nameFindings (validateOpen env mgr mins f).log it.oid = [] := by
  obtain ⟨_, e⟩ := nameFindings_run h hit
  rw [e]
  cases catalogued (completed h).catalog hit with
  | root => rfl
  | node _ => cases hobj
  | attr j => rw [attrItem_obj] at hobj; cases hobj

/-- Objects whose class path contains `@` are treated like attributes: not judged if the
containing group has a `target` other than its own address, else OK or ERROR. -/
theorem object_with_at_verdict {env : Env} {mgr : Manager} {mins : Dict (Str × Str) Int}
    {f : H5File} (h : (validateOpen env mgr mins f).res = .ok ()) {it : Item}
    (hit : it ∈ (catalog env f).log) {n : Node} (hobj : it.obj = .node n)
    (hat : '@' ∈ it.classpath) :
    ∃ group attrs oa, group ∈ (catalog env f).log ∧ it.parent = some group ∧
      group.obj.attrs? = some attrs ∧ group.addr = some oa ∧
      (TargetElsewhere env attrs oa →
        nameFindings (validateOpen env mgr mins f).log it.oid = []) ∧
      (¬ TargetElsewhere env attrs oa →
        OneFinding (nameFindings (validateOpen env mgr mins f).log it.oid) it.addr
          (AttrNameRule env.word mgr it.name)) := by
  obtain ⟨hok, e⟩ := nameFindings_run h hit
  rw [e]
  have hcat := catalogued (completed h).catalog hit
  obtain ⟨p, hp, hpL⟩ : ∃ p, it.parent = some p ∧ p ∈ (catalog env f).log := by
    cases hcat with
    | root => cases hobj
    | attr j => rw [attrItem_obj] at hobj; cases hobj
    | node hp => exact ⟨_, objItem_parent .., hp⟩
  have haddr := object_addr_not_class h hit hobj
  have ha : (it.addr.map (fun a => endsWith a s%"@NX_class")).getD false = false := by
    cases hadr : it.addr with
    | none => rfl
    | some a =>
      have := haddr a hadr
      rw [← endsWith_iff] at this
      simpa using this
  have hv : itemNameVerify (mkCtx env mgr mins f) [] it =
      (W.lift (isNeXusLinkTarget env p) >>= fun linked =>
        if linked then pure () else handleAnyAttribute (mkCtx env mgr mins f) it) := by
    rw [itemNameVerify, hp]
    simp only [List.not_mem_nil, if_false, ha, (hasAt_iff it.classpath).2 hat, if_true]
    rfl
  rw [hv] at hok ⊢
  rw [W.bind_ok_iff] at hok
  obtain ⟨b, hb, _⟩ := hok
  have hattrs : ∃ attrs oa, p.obj.attrs? = some attrs ∧ p.addr = some oa := by
    cases catalogued (completed h).catalog hpL with
    | root => exact ⟨_, _, rfl, rfl⟩
    | node _ => exact ⟨_, _, rfl, rfl⟩
    | attr j =>
      rw [W.lift_res, isNeXusLinkTarget, attrItem_obj] at hb
      cases hb
  obtain ⟨attrs, oa, h3, h5⟩ := hattrs
  refine ⟨p, attrs, oa, hpL, hp, h3, h5, ?_⟩
  have hs := isNeXusLinkTarget_spec h3 h5 hb
  rw [W.lift_res] at hb
  rw [hb, W.lift_ok_bind]
  cases b with
  | true =>
    have : TargetElsewhere env attrs oa := hs.1 rfl
    exact ⟨fun _ => rfl, fun hn => absurd this hn⟩
  | false =>
    have : ¬ TargetElsewhere env attrs oa := fun h => by simpa using hs.2 h
    exact ⟨fun h => absurd h this, fun _ => handleAnyAttribute_spec (mkCtx env mgr mins f) it⟩

/-- The object that contains `it` (or carries it as attribute) has a `target` other than its own
address. -/
def OwnerLinked (env : Env) (it : Item) : Prop :=
  ∃ owner attrs oa, it.parent = some owner ∧ owner.obj.attrs? = some attrs ∧
    owner.addr = some oa ∧ TargetElsewhere env attrs oa

/-- Items that are not name-checked: the root, attributes of non-NeXus content, and of linked
objects the attributes (other than NX_class) and the members with `@` in their class path. -/
inductive Exempt (env : Env) (it : Item) : Prop
  | root {g : H5File} : it.obj = .file g → Exempt env it
  | nonNexus {v : Val} : it.obj = .val v → it.addr = none → Exempt env it
  | linked {v : Val} {a : Str} : it.obj = .val v → it.addr = some a → ¬ s%"@NX_class" <:+ a →
      OwnerLinked env it → Exempt env it
  | linkedMember {n : Node} : it.obj = .node n → '@' ∈ it.classpath → OwnerLinked env it →
      Exempt env it

theorem ownerLinked_iff {env : Env} {it owner : Item} {attrs : List (Str × Val)} {oa : Str}
    (h1 : it.parent = some owner) (h2 : owner.obj.attrs? = some attrs) (h3 : owner.addr = some oa) :
    OwnerLinked env it ↔ TargetElsewhere env attrs oa := by
  constructor
  · rintro ⟨o, a, x, e1, e2, e3, ht⟩
    rw [h1] at e1
    injection e1 with e1
    subst e1
    rw [h2] at e2
    injection e2 with e2
    subst e2
    rw [h3] at e3
    injection e3 with e3
    subst e3
    exact ht
  · intro ht; exact ⟨_, _, _, h1, h2, h3, ht⟩

/-- C15: in a completed validation every catalogued item gets exactly one name verdict, at its
own address, except the exempt ones, which get none. -/
theorem name_checked_once {env : Env} {mgr : Manager} {mins : Dict (Str × Str) Int}
    {f : H5File} (h : (validateOpen env mgr mins f).res = .ok ()) {it : Item}
    (hit : it ∈ (catalog env f).log) :
    (Exempt env it → nameFindings (validateOpen env mgr mins f).log it.oid = []) ∧
    (¬ Exempt env it → OneFinding (nameFindings (validateOpen env mgr mins f).log it.oid) it.addr
      (fun _ => True)) := by
  have one : ∀ {fs : List Finding} {a : Option Str} {P : Status → Prop},
      OneFinding fs a P → OneFinding fs a (fun _ => True) := by
    rintro fs a P ⟨st, c, rfl, _⟩; exact ⟨st, c, rfl, trivial⟩
  cases hobj : it.obj with
  | file g =>
    exact ⟨fun _ => root_unjudged h hit hobj, fun hn => absurd (.root hobj) hn⟩
  | none =>
    cases catalogued (completed h).catalog hit with
    | root => cases hobj
    | node _ => cases hobj
    | attr j => rw [attrItem_obj] at hobj; cases hobj
  | node n =>
    by_cases hat : '@' ∈ it.classpath
    · obtain ⟨g, attrs, oa, _, h2, h3, h4, h5, h6⟩ := object_with_at_verdict h hit hobj hat
      have hiff : Exempt env it ↔ TargetElsewhere env attrs oa := by
        rw [← ownerLinked_iff h2 h3 h4]
        constructor
        · intro hex
          cases hex with
          | root h => rw [hobj] at h; cases h
          | nonNexus h => rw [hobj] at h; cases h
          | linked h => rw [hobj] at h; cases h
          | linkedMember _ _ h => exact h
        · exact .linkedMember hobj hat
      rw [hiff]
      exact ⟨h5, fun hn => one (h6 hn)⟩
    · refine ⟨fun hex => ?_, fun _ => one (object_name_verdict h hit hobj hat)⟩
      cases hex with
      | root h => rw [hobj] at h; cases h
      | nonNexus h => rw [hobj] at h; cases h
      | linked h => rw [hobj] at h; cases h
      | linkedMember _ h _ => exact absurd h hat
  | val v =>
    cases ha : it.addr with
    | none =>
      refine ⟨fun _ => nonNexus_attribute_unjudged h hit hobj ha,
        fun hn => absurd (.nonNexus hobj ha) hn⟩
    | some a =>
      rw [← ha]
      by_cases hcl : s%"@NX_class" <:+ a
      · obtain ⟨_, _, _, _, h1⟩ := class_value_verdict h hit hobj ha hcl
        refine ⟨fun hex => ?_, fun _ => one h1⟩
        cases hex with
        | root h => rw [hobj] at h; cases h
        | nonNexus _ h => rw [ha] at h; cases h
        | linked _ h hn => rw [ha] at h; injection h with h; subst h; exact absurd hcl hn
        | linkedMember h => rw [hobj] at h; cases h
      · obtain ⟨owner, attrs, oa, _, h2, h3, h4, h5, h6⟩ :=
          attribute_name_verdict h hit hobj ha hcl
        have hiff : Exempt env it ↔ TargetElsewhere env attrs oa := by
          rw [← ownerLinked_iff h2 h3 h4]
          constructor
          · intro hex
            cases hex with
            | root h => rw [hobj] at h; cases h
            | nonNexus _ h => rw [ha] at h; cases h
            | linked _ _ _ h => exact h
            | linkedMember h => rw [hobj] at h; cases h
          · exact .linked hobj ha hcl
        rw [hiff]
        exact ⟨h5, fun hn => one (h6 hn)⟩

end Punx

import Verif.Props.AppDef
import Verif.Props.Report

/-!
# C33: every finding has the address of something in the file

For every run, also one that ends with an exception.
-/

namespace Punx
open Spec

/-! ## objects reached by path names are catalogued -/

mutual
theorem nodeItems_covers (env : Env) (L : List Item) (parent : Item) (oid : List Nat) : (n : Node) →
    Intact n → (∀ x ∈ nodeItems env parent oid n, x ∈ L) →
    AllNodes (fun m => ∃ it ∈ L, it.obj = .node m ∧ it.addr = some m.name) n
  | .group n a kids, hi, hL => by
    rw [Intact] at hi
    rw [nodeItems] at hL
    rw [AllNodes]
    refine ⟨⟨_, hL _ (by simp; left; rfl), rfl, rfl⟩, ?_⟩
    exact kidsItems_covers env L _ oid 0 kids hi (fun x hx => hL x (List.mem_append_right _ hx))
  | .dataset n a d, _, hL => by
    rw [nodeItems] at hL
    rw [AllNodes]
    exact ⟨_, hL _ (by simp; left; rfl), rfl, rfl⟩
  | .datatype n a, _, hL => by
    rw [nodeItems] at hL
    rw [AllNodes]
    exact ⟨_, hL _ (by simp; left; rfl), rfl, rfl⟩
theorem kidsItems_covers (env : Env) (L : List Item) (parent : Item) (oid : List Nat) (i : Nat) :
    (ks : Kids) → IntactKids ks → (∀ x ∈ kidsItems env parent oid i ks, x ∈ L) →
    AllKids (fun m => ∃ it ∈ L, it.obj = .node m ∧ it.addr = some m.name) ks
  | .nil, _, _ => by rw [AllKids]; trivial
  | .cons l k n rest, hi, hL => by
    rw [IntactKids] at hi
    rw [kidsItems] at hL
    rw [AllKids]
    exact ⟨nodeItems_covers env L parent _ n hi.1 (fun x hx => hL x (List.mem_append_left _ hx)),
      kidsItems_covers env L parent oid (i + 1) rest hi.2
        (fun x hx => hL x (List.mem_append_right _ hx))⟩
  | .broken l k rest, hi, _ => by rw [IntactKids] at hi; exact hi.elim
end

/-- Every object of the file is catalogued, under its name. -/
theorem catalog_covers {env : Env} {f : H5File} (h : (catalog env f).res = .ok ()) :
    AllKids (fun m => ∃ it ∈ (catalog env f).log, it.obj = .node m ∧ it.addr = some m.name)
      f.kids := by
  refine kidsItems_covers env _ (rootItem f) [] 0 f.kids (catalog_intact h) ?_
  intro x hx
  rw [catalog_log h, fileItems]
  refine List.mem_append_right _ ?_
  exact hx

mutual
theorem allNodes_nested {P : Node → Prop} : (n : Node) → AllNodes P n → AllNodes (AllNodes P) n
  | .group n a kids, h => by
    have h' := h
    rw [AllNodes] at h'
    rw [AllNodes]
    exact ⟨h, allKids_nested kids h'.2⟩
  | .dataset n a d, h => by rw [AllNodes]; exact h
  | .datatype n a, h => by rw [AllNodes]; exact h
theorem allKids_nested {P : Node → Prop} : (ks : Kids) → AllKids P ks → AllKids (AllNodes P) ks
  | .nil, _ => by rw [AllKids]; trivial
  | .cons l k n rest, h => by
    rw [AllKids] at h
    rw [AllKids]
    exact ⟨allNodes_nested n h.1, allKids_nested rest h.2⟩
  | .broken l k rest, h => by
    rw [AllKids] at h
    rw [AllKids]
    exact allKids_nested rest h
end

mutual
theorem allNodes_mono {P Q : Node → Prop} (h : ∀ m, P m → Q m) : (n : Node) → AllNodes P n →
    AllNodes Q n
  | .group n a kids, hp => by
    rw [AllNodes] at hp ⊢
    exact ⟨h _ hp.1, allKids_mono h kids hp.2⟩
  | .dataset n a d, hp => by rw [AllNodes] at hp ⊢; exact h _ hp
  | .datatype n a, hp => by rw [AllNodes] at hp ⊢; exact h _ hp
theorem allKids_mono {P Q : Node → Prop} (h : ∀ m, P m → Q m) : (ks : Kids) → AllKids P ks →
    AllKids Q ks
  | .nil, _ => by rw [AllKids]; trivial
  | .cons l k n rest, hp => by
    rw [AllKids] at hp ⊢
    exact ⟨allNodes_mono h n hp.1, allKids_mono h rest hp.2⟩
  | .broken l k rest, hp => by
    rw [AllKids] at hp ⊢
    exact allKids_mono h rest hp
end

theorem allKids_lookup {P : Node → Prop} {c : Str} {m : Node} : (ks : Kids) → AllKids P ks →
    ks.toList.lookup c = some (some m) → AllNodes P m
  | .nil, _, h => by simp [Kids.toList] at h
  | .cons l k n rest, hP, h => by
    rw [AllKids] at hP
    rw [Kids.toList, List.lookup_cons] at h
    split at h
    · injection h with h; injection h with h; subst h; exact hP.1
    · exact allKids_lookup rest hP.2 h
  | .broken l k rest, hP, h => by
    rw [AllKids] at hP
    rw [Kids.toList, List.lookup_cons] at h
    split at h
    · cases h
    · exact allKids_lookup rest hP h

theorem resolve_all {P : Node → Prop} {parts : List Str} {g n : Node} (hg : AllNodes P g)
    (h : resolve g parts = some n) : AllNodes P n := by
  induction parts generalizing g with
  | nil => rw [resolve] at h; cases h; exact hg
  | cons c cs ih =>
    cases g with
    | group gn ga gk =>
      rw [AllNodes] at hg
      rw [resolve] at h
      split at h
      · rename_i m hm
        exact ih (allKids_lookup _ hg.2 hm) h
      · cases h
    | dataset gn ga gd => simp [resolve] at h
    | datatype gn ga => simp [resolve] at h

theorem allNodes_self {P : Node → Prop} {n : Node} (h : AllNodes P n) : P n := by
  cases n <;> rw [AllNodes] at h
  · exact h
  · exact h
  · exact h.1

/-- What a path name leads to from a catalogued group is the root or catalogued. -/
theorem reached_object {env : Env} {f : H5File} (h : (catalog env f).res = .ok ()) {p : Item}
    (hp : p ∈ (catalog env f).log) {g n : Node} (hg : p.obj.asGroup = some g) {name : Str}
    (hn : h5get f g name = .ok (some n)) :
    ∃ it ∈ (catalog env f).log, it.addr = some n.name ∧
      (it.obj = .node n ∨ it.obj.asGroup = some n) := by
  let Q : Node → Prop := fun m => ∃ it ∈ (catalog env f).log, it.addr = some m.name ∧
      (it.obj = .node m ∨ it.obj.asGroup = some m)
  have hk : AllKids Q f.kids := by
    have := catalog_covers h
    refine allKids_mono ?_ f.kids this
    rintro m ⟨it, h1, h3, h2⟩
    exact ⟨it, h1, h2, .inl h3⟩
  have hroot : AllNodes Q f.root := by
    rw [H5File.root, AllNodes]
    refine ⟨⟨rootItem f, ?_, rfl, .inr rfl⟩, hk⟩
    rw [catalog_log h, fileItems]; simp
  have hgQ : AllNodes Q g := by
    cases ho : p.obj with
    | file f' =>
      have : f' = f := by
        cases catalogued h hp with
        | root => cases ho; rfl
        | attr j h1 h2 h3 h4 => rw [attrItem_obj] at ho; cases ho
        | node h1 h2 => cases ho
      subst this
      rw [ho] at hg
      injection hg with hg
      rw [← hg]; exact hroot
    | node m =>
      have := catalog_all h (allKids_nested f.kids hk) hp ho
      rw [ho] at hg
      cases m with
      | group mn ma mk => injection hg with hg; rw [← hg]; exact this
      | dataset mn ma md => simp [H5Obj.asGroup] at hg
      | datatype mn ma => simp [H5Obj.asGroup] at hg
    | val v => rw [ho] at hg; simp [H5Obj.asGroup] at hg
    | none => rw [ho] at hg; simp [H5Obj.asGroup] at hg
  rw [h5get] at hn
  split at hn
  · cases hn
  · injection hn with hn
    have hs : AllNodes Q (startNode f g name) := by
      rw [startNode]
      split
      · exact hroot
      · exact hgQ
    exact allNodes_self (resolve_all hs hn)

/-! ## step 1 -/

/-- Items without address (attributes of non-NeXus content) are not mentioned. -/
theorem emits_step1 {env : Env} {f : H5File} (ctx : Ctx) (done : List Eff)
    (h : (catalog env f).res = .ok ()) (items : List Item)
    (hi : ∀ it ∈ items, it ∈ (catalog env f).log) :
    Emits (fun i _ _ => i ∈ (catalog env f).log ∧ i.addr ≠ none) (step1 ctx done items) := by
  induction items generalizing done with
  | nil => exact Emits.pure _
  | cons it items ih =>
    rw [step1]
    refine Emits.bind' ?_ (fun _ _ => ih _ (fun x hx => hi x (by simp [hx])))
    by_cases ha : it.addr = none
    · have : (nameAndAttribute ctx (seenKeys it.oid done) it) = pure () := by
        cases catalogued h (hi it (by simp)) with
        | root => cases ha
        | node h1 h2 => cases ha
        | @attr v attrs ka j h1 h2 h3 h4 =>
          have hc : (attrItem v j ka).classpath = nonNeXus := by
            rw [attrItem] at ha ⊢
            split
            · rfl
            · rename_i hne; rw [if_neg hne] at ha; cases ha
          have hob := attrItem_obj v j ka
          have hpar := attrItem_parent v j ka
          rw [nameAndAttribute, itemNameVerify, hpar, attributeVerify]
          simp only [ha, hc, hob]
          simp [isHdf5Dataset, isHdf5Group, isHdf5Link, hasAt, nonNeXus]
      rw [this]
      exact Emits.pure _
    · refine Emits.mono ?_ (emits_nameAndAttribute ctx (seenKeys it.oid done) it)
      rintro i k st ⟨rfl, _⟩
      exact ⟨hi _ (by simp), ha⟩

/-! ## step 3 -/

/-- Where the application definition check reports, and what it says about an absent field. -/
def AppFieldItem (ctx : Ctx) (it : Item) (g : Node) (i : Item) (k : Str) (st : Status) : Prop :=
  ∃ fld o n, h5get ctx.file g fld = .ok o ∧
    mkItem ctx.env (some it) (match o with | some n => .node n | none => .none) none
      (0 :: n :: it.oid) = .ok i ∧
    (o = none → k = s%"NXDL field" ∧ st = .error) ∧
    (o ≠ none → (k = s%"NXDL field" ∧ st = .ok) ∨
      (k = s%"NXDL field enumerations" ∧ ∃ dn da dd, o = some (.dataset dn da dd)))

theorem enumLoop_dataset {env : Env} {o : Option Node} {enums : List (Option Str)}
    {r : Option (Option Str)} (he : enums.length > 0) (h : enumLoop env o enums = .ok r) :
    ∃ dn da dd, o = some (.dataset dn da dd) := by
  cases enums with
  | nil => simp at he
  | cons e es =>
    rw [enumLoop] at h
    cases o with
    | none => simp [readValue, bind, Except.bind] at h
    | some n =>
      cases n with
      | dataset dn da dd => exact ⟨dn, da, dd, rfl⟩
      | datatype dn da => simp [readValue, bind, Except.bind] at h
      | group dn da dk => simp [readValue, bind, Except.bind] at h

theorem emits_appFields' (ctx : Ctx) (it : Item) (g : Node) (ad : Str) (n : Nat)
    (fs : List (Str × FieldSpec)) :
    Emits (fun i k st => AppFieldItem ctx it g i k st) (appFields ctx it g ad n fs) := by
  induction fs generalizing n with
  | nil => exact Emits.pure _
  | cons f fs ih =>
    rw [appFields]
    refine Emits.bind ?_ (fun _ _ => ih _)
    unfold appField
    refine Emits.bind (Emits.lift _) (fun o ho => ?_)
    extract_lets obj
    refine Emits.bind (Emits.lift _) (fun v hv => ?_)
    refine Emits.bind (Emits.record ?_) (fun _ _ => ?_)
    · refine ⟨f.1, o, n, ho, hv, ?_⟩
      refine ⟨by rintro rfl; exact ⟨rfl, rfl⟩, ?_⟩
      intro hne
      cases o with
      | none => exact absurd rfl hne
      | some m => exact .inl ⟨rfl, rfl⟩
    · refine Emits.ite (fun he => ?_) (fun _ => Emits.pure _)
      refine Emits.bind (Emits.lift _) (fun r hr => ?_)
      obtain ⟨dn, da, dd, rfl⟩ := enumLoop_dataset he hr
      emits
      all_goals exact ⟨f.1, _, n, ho, hv, (fun e => by cases e), fun _ => .inr ⟨rfl, dn, da, dd, rfl⟩⟩

theorem emits_appDef' (ctx : Ctx) (it : Item) :
    Emits (fun i k st => i = it ∨ ∃ g, it.obj.asGroup = some g ∧ AppFieldItem ctx it g i k st)
      (appDefVerify ctx it) := by
  unfold appDefVerify
  emits
  all_goals first
    | exact .inl rfl
    | exact Emits.mono (fun i k st h => .inr ⟨_, by assumption, h⟩) (emits_appFields' ctx it _ _ 0 _)

/-! ## the whole run -/

/-- The address of a catalogued item, or "entry@None" for the ERROR about an absent field
of an application definition. -/
def GoodAddress (env : Env) (f : H5File) (i : Item) (k : Str) (st : Status) : Prop :=
  (∃ it ∈ (catalog env f).log, it.addr.isSome ∧ i.addr = it.addr) ∨
  (k = s%"NXDL field" ∧ st = .error ∧ ∃ p ∈ (catalog env f).log, ∃ b g,
    p.classpath ≠ nonNeXus ∧ p.addr = some b ∧ p.obj.asGroup = some g ∧ i.addr = some (b ++ s%"@None"))

theorem group_addr {env : Env} {f : H5File} (h : (catalog env f).res = .ok ()) {it : Item}
    (hit : it ∈ (catalog env f).log) (hv : ∀ v, it.obj ≠ .val v) : ∃ a, it.addr = some a := by
  cases catalogued h hit with
  | root => exact ⟨_, rfl⟩
  | node h1 h2 => exact ⟨_, rfl⟩
  | attr j h1 h2 h3 h4 => exact absurd (attrItem_obj _ _ _) (hv _)

theorem addresses_good {env : Env} {mgr : Manager} {mins : Dict (Str × Str) Int} {f : H5File}
    {a : Str} {i : Item} (h : Dict.get? (mkCtx env mgr mins f).addresses (some a) = some i) :
    i ∈ (catalog env f).log ∧ i.addr = some a := by
  have := Dict.mem_of_get? h
  exact ⟨(mem_addressTable this).1, mkCtx_addrOk env mgr mins f _ _ h⟩

theorem emits_step2_good {env : Env} {mgr : Manager} {mins : Dict (Str × Str) Int} {f : H5File}
    (h : (catalog env f).res = .ok ()) :
    Emits (GoodAddress env f) (step2 (mkCtx env mgr mins f)) := by
  unfold step2
  refine Emits.forEach (fun it hit => ?_)
  refine Emits.ite (fun hg => ?_) (fun _ => Emits.pure _)
  refine Emits.mono ?_ (emits_group (mkCtx env mgr mins f) it)
  have hmem : it ∈ (catalog env f).log := by
    obtain ⟨⟨k, v⟩, hk, rfl⟩ := List.mem_map.1 hit
    exact (mem_addressTable hk).1
  rintro i k st ⟨hi, _⟩
  left
  rcases hi with rfl | ⟨a, ha⟩
  · obtain ⟨a, ha⟩ := group_addr h hmem (by intro v e; rw [e] at hg; simp [isHdf5Group, isHdf5File] at hg)
    exact ⟨i, hmem, by rw [ha]; rfl, rfl⟩
  · obtain ⟨h1, h2⟩ := addresses_good ha
    exact ⟨i, h1, by rw [h2]; rfl, rfl⟩

/-- Where the application definition checks report: the parents of the definitions, and
their fields. -/
theorem emits_step3_items {env : Env} {mgr : Manager} {mins : Dict (Str × Str) Int} {f : H5File}
    (h : (catalog env f).res = .ok ()) :
    Emits (fun i k st => ∃ p ∈ (catalog env f).log, p.classpath ≠ nonNeXus ∧
      (i = p ∨ ∃ g, p.obj.asGroup = some g ∧ AppFieldItem (mkCtx env mgr mins f) p g i k st))
      (step3 (mkCtx env mgr mins f)) := by
  unfold step3
  refine Emits.forEach (fun k hk => Emits.forEach (fun it hit => ?_))
  have hit' : it ∈ definers env f := by
    rw [show (mkCtx env mgr mins f).classpaths = classpathTable (catalog env f).log from rfl,
      classpathTable_get] at hit
    have h1 := List.mem_filter.1 hit
    rw [mem_definers]
    refine ⟨h1.1, ?_⟩
    have h2 : it.classpath = k := by simpa using h1.2
    simpa [h2, definitionPaths] using hk
  obtain ⟨p, hp, hpar, hne⟩ := definer_parent h hit'
  rw [hpar]
  exact Emits.mono (fun i k st hi => ⟨p, hp, hne, hi⟩) (emits_appDef' (mkCtx env mgr mins f) p)

theorem emits_step3_good {env : Env} {mgr : Manager} {mins : Dict (Str × Str) Int} {f : H5File}
    (h : (catalog env f).res = .ok ()) :
    Emits (GoodAddress env f) (step3 (mkCtx env mgr mins f)) := by
  refine Emits.mono ?_ (emits_step3_items h)
  rintro i k st ⟨p, hp, hne, hi⟩
  have hpv : ∀ g, p.obj.asGroup = some g → ∀ v, p.obj ≠ .val v := by
    intro g hg v e; rw [e] at hg; cases hg
  rcases hi with rfl | ⟨g, hg, fld, o, n, ho, hmk, hno, _⟩
  · left
    have : ∃ a, i.addr = some a := by
      cases catalogued h hp with
      | root => exact ⟨_, rfl⟩
      | node h1 h2 => exact ⟨_, rfl⟩
      | @attr v attrs ka j h1 h2 h3 h4 =>
        rw [attrItem] at hne ⊢
        split
        · rename_i hc; rw [if_pos hc] at hne; exact absurd rfl hne
        · exact ⟨_, rfl⟩
    obtain ⟨a, ha⟩ := this
    exact ⟨i, hp, by rw [ha]; rfl, rfl⟩
  · cases o with
    | some m =>
      left
      obtain ⟨it', h1, h2, _⟩ := reached_object h hp hg ho
      refine ⟨it', h1, by rw [h2]; rfl, ?_⟩
      rw [(mkItem_ok rfl hmk).1, h2]; rfl
    | none =>
      right
      obtain ⟨hk, hst⟩ := hno rfl
      obtain ⟨b, hb⟩ := group_addr h hp (hpv g hg)
      refine ⟨hk, hst, p, hp, b, g, hne, hb, hg, ?_⟩
      simp only [mkItem, H5Obj.name?, if_neg hne] at hmk
      cases hmk
      simp [hb]

theorem node_in_nonNexus {env : Env} {p : Item} (hp : p.classpath = nonNeXus) (n : Node)
    (oid : List Nat) :
    (objItem env (some p) (.node n) n.name oid).classpath = [] ∨
    (objItem env (some p) (.node n) n.name oid).classpath = nonNeXus := by
  have : (objItem env (some p) (.node n) n.name oid).classpath =
    (cpOf env (some p) (.node n) n.name).1 := rfl
  rw [this, cpOf, determineClasspath]
  by_cases h1 : objName n.name = s%"/"
  · rw [if_pos h1]; exact .inl rfl
  · rw [if_neg h1]
    simp only [if_pos hp]
    exact .inr rfl

theorem emits_plot_good {env : Env} {mgr : Manager} {mins mins' : Dict (Str × Str) Int} {f : H5File}
    (h : (catalog env f).res = .ok ()) :
    Emits (GoodAddress env f) (defaultPlotVerify (mkCtx env mgr mins f) mins') := by
  refine Emits.mono ?_ (emits_defaultPlot (mkCtx env mgr mins f) mins')
  rintro i k st ⟨hi, _⟩
  left
  rcases hi with hi | ⟨k, items, it, hk, hend, hit, hi⟩
  · obtain ⟨h1, h2⟩ := addresses_good hi
    exact ⟨i, h1, by rw [h2]; rfl, rfl⟩
  · have hk' : (k, items) ∈ classpathTable (catalog env f).log := hk
    rw [mem_classpathTable hk', List.mem_filter] at hit
    obtain ⟨hit, hck⟩ := hit
    have hck : it.classpath = k := by simpa using hck
    have hne : it.classpath ≠ nonNeXus := by
      rw [hck]; rintro rfl; exact absurd hend (by decide)
    rcases hi with rfl | ⟨par, hpar, hds, hgr, hadr⟩
    · have : ∃ a, i.addr = some a := by
        cases catalogued h hit with
        | root => exact ⟨_, rfl⟩
        | node h1 h2 => exact ⟨_, rfl⟩
        | @attr v attrs ka j h1 h2 h3 h4 =>
          rw [attrItem] at hne ⊢
          split
          · rename_i hc; rw [if_pos hc] at hne; exact absurd rfl hne
          · exact ⟨_, rfl⟩
      obtain ⟨a, ha⟩ := this
      exact ⟨i, hit, by rw [ha]; rfl, rfl⟩
    · have h1 := catalog_parent_mem h (catalog_parent_mem h hit hpar) hgr
      exact ⟨i, h1, Option.isSome_iff_ne_none.2 hadr, rfl⟩

/-- C33: whatever the file and the definitions, and whether or not the validation completes,
every recorded finding has an address; it is the address of something in the file, except
that an absent field of an application definition is reported at "<entry>@None". -/
theorem findings_addressed (env : Env) (mgr : Manager) (mins : Dict (Str × Str) Int) (f : H5File)
    {x : Finding} (hx : x ∈ findings (validateOpen env mgr mins f).log) :
    ∃ a, x.addr = some a ∧
      ((∃ it ∈ (catalog env f).log, it.addr = some a) ∨
       (x.test = s%"NXDL field" ∧ x.status = .error ∧ ∃ p ∈ (catalog env f).log, ∃ b g,
          p.classpath ≠ s%"non-NeXus content" ∧ p.addr = some b ∧ p.obj.asGroup = some g ∧ a = b ++ s%"@None")) := by
  have hgood : Emits (GoodAddress env f) (validateOpen env mgr mins f) := by
    rw [validateOpen]
    cases hc : (catalog env f).res with
    | error e => exact Emits.fail _
    | ok u =>
      simp only [runChecks]
      refine Emits.bind' (Emits.bind ?_ (fun _ _ => Emits.bind ?_ (fun _ _ => ?_))) (fun _ _ => ?_)
      · refine Emits.mono ?_ (emits_step1 _ [] hc _ (fun it hit => mem_step1Items.1 hit))
        rintro i k st ⟨h1, h2⟩
        exact .inl ⟨i, h1, Option.isSome_iff_ne_none.2 h2, rfl⟩
      · exact emits_step2_good hc
      · exact emits_step3_good hc
      · exact emits_plot_good hc
  obtain ⟨o, k, hm⟩ := mem_findings hx
  rcases hgood _ hm with ⟨i, k', st, c, e, hi⟩ | ⟨_, _, _, e⟩
  · cases e
    rcases hi with ⟨it, h1, h2, h3⟩ | ⟨h1, h2, p, hp, b, g, hn, hb, hg, ha⟩
    · obtain ⟨a, ha⟩ := Option.isSome_iff_exists.1 h2
      exact ⟨a, by rw [← ha]; exact h3, .inl ⟨it, h1, ha⟩⟩
    · exact ⟨_, ha, .inr ⟨h1, h2, p, hp, b, g, hn, hb, hg, rfl⟩⟩
  · cases e

theorem printReport_of_addressed {fs : List Finding} (h : ∀ x ∈ fs, x.addr ≠ none)
    (sel : List Str) : ∃ r, printReport sel fs = .ok r := by
  obtain ⟨sm, hs, _⟩ := findingSummary_total fs
  cases hr : reportRows sel fs with
  | error e =>
    obtain ⟨_, x, hx, hn⟩ := (reportRows_error_iff sel fs e).1 hr
    exact absurd hn (h x hx)
  | ok rows => exact ⟨(rows, sm, findingScore fs), by simp [printReport, hr, hs, bind, Except.bind]⟩

/-- C33: the report can be printed, for every file and every selection of statuses, also
when the validation ended with an exception. -/
theorem report_never_fails (env : Env) (mgr : Manager) (mins : Dict (Str × Str) Int) (f : H5File)
    (sel : List Str) :
    ∃ r, printReport sel (findings (validateOpen env mgr mins f).log) = .ok r := by
  refine printReport_of_addressed (fun x hx hn => ?_) sel
  obtain ⟨a, ha, _⟩ := findings_addressed env mgr mins f hx
  rw [ha] at hn; cases hn

/-- What a user does with a validator object. -/
inductive Call
  | validate (fname : Str)
  | close

/-- The state of the validator after a call, whether or not it raised an exception.  The
files may differ from call to call. -/
def Call.run (env : Env) (mgr : Manager) (s : VState) : (Str → FileState) × Call → VState
  | (fs, .validate n) => (Punx.validate env mgr fs n s).1
  | (_, .close) => s.close

/-- The state of a new validator after a sequence of calls. -/
def history (env : Env) (mgr : Manager) (calls : List ((Str → FileState) × Call)) : VState :=
  calls.foldl (Call.run env mgr) VState.init

theorem history_append (env : Env) (mgr : Manager) (calls : List ((Str → FileState) × Call))
    (c : (Str → FileState) × Call) :
    history env mgr (calls ++ [c]) = Call.run env mgr (history env mgr calls) c := by
  simp [history]

/-- C33 over histories: whatever was validated before, the report can be printed. -/
theorem report_never_fails_history (env : Env) (mgr : Manager)
    (calls : List ((Str → FileState) × Call)) (sel : List Str) :
    ∃ r, printReport sel (history env mgr calls).validations = .ok r := by
  have key : ∀ x ∈ (history env mgr calls).validations, x.addr ≠ none := by
    induction calls using List.reverseRecOn with
    | nil => intro x hx; simp [history, VState.init, VState.validations, findings] at hx
    | append_singleton calls c ih =>
      rw [history_append]
      obtain ⟨fs, c⟩ := c
      cases c with
      | close => exact ih
      | validate n =>
        simp only [Call.run, validate]
        cases fs n with
        | missing => exact ih
        | notHdf5 => exact ih
        | hdf5 f =>
          intro x hx hn
          obtain ⟨a, ha, _⟩ := findings_addressed env mgr _ f hx
          rw [ha] at hn; cases hn
  exact printReport_of_addressed key sel

/-! Cases: the address "/e@None", and a run with attributes of non-NeXus content, which
have no address and get no finding. -/

example : (some s%"/e@None", s%"NXDL field", Status.error) ∈
    (findings (validateOpen sampleEnv sampleMgr [] sasFile).log).map
      (fun x => (x.addr, x.test, x.status)) := by decide +kernel

example : (∃ it ∈ (catalog sampleEnv sampleFile).log, it.addr = none) ∧
    (findings (validateOpen sampleEnv sampleMgr [] sampleFile).log) ≠ [] := by
  constructor
  · exact ⟨_, List.getElem_mem (l := (catalog sampleEnv sampleFile).log) (n := 7) (by decide +kernel), by rfl⟩
  · intro h
    have : (findings (validateOpen sampleEnv sampleMgr [] sampleFile).log).length = 0 := by rw [h]; rfl
    exact absurd this (by decide +kernel)

end Punx

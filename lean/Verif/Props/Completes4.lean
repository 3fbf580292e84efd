import Verif.Props.Completes3

/-!
# C77: when the search for the default plot raises no exception
-/

namespace Punx
open Spec

/-! ## the first method -/

theorem addressAt_ok_iff {env : Env} {mgr : Manager} {mins : Dict (Str × Str) Int} {f : H5File}
    {a : Str} {i : Item} :
    addressAt (mkCtx env mgr mins f) a = .ok i ↔ itemAt (catalog env f).log a = some i := by
  rw [addressAt, itemAt_eq]
  cases itemAt (catalog env f).log a <;> simp

theorem buildH5Address_ok_iff {env : Env} {i : Item} {attrs : List (Str × Val)}
    (ha : i.obj.attrs? = some attrs) (v : Val) :
    (∃ t, buildH5Address env i v = .ok t) ↔ ∃ s, TextOf env v s := by
  have hn : ∃ n, buildH5Address env i v = (decodeByteString env v >>= fun r => match r with
    | .str p => Except.ok (withSlash n ++ p)
    | _ => .error PyErr.typeError) := by
    rw [buildH5Address]
    cases ho : i.obj with
    | file f => exact ⟨_, rfl⟩
    | node n => exact ⟨_, rfl⟩
    | val v => rw [ho] at ha; cases ha
    | none => rw [ho] at ha; cases ha
  obtain ⟨n, hn⟩ := hn
  rw [hn]
  constructor
  · rintro ⟨t, h⟩
    cases hd : decodeByteString env v with
    | error e => rw [hd] at h; cases h
    | ok w =>
      rw [hd] at h
      cases w with
      | str s => exact ⟨s, decode_text hd⟩
      | _ => cases h
  · rintro ⟨s, h⟩
    rw [decode_of_text h]
    exact ⟨_, rfl⟩

theorem attrPointsAt_ok_iff {ctx : Ctx} {i : Item} {k : Str} {target : Option Str} :
    (∃ b, attrPointsAt ctx i k target = .ok b) ↔ Pointer ctx.env i k := by
  rw [attrPointsAt]
  unfold Pointer
  cases ha : i.obj.attrs? with
  | none => simp
  | some attrs =>
    simp only [Option.some.injEq, exists_eq_left', attrGet]
    cases hk : attrs.lookup k with
    | none => simp
    | some v =>
      simp only [Option.some.injEq, forall_eq']
      rw [← buildH5Address_ok_iff (env := ctx.env) ha v]
      cases hb : buildH5Address ctx.env i v with
      | error e => simp [bind, Except.bind]
      | ok addr =>
        simp only [bind, Except.bind, objContains]
        cases hg : i.obj.asGroup with
        | none => simp
        | some g =>
          simp only []
          split <;> simp

theorem v3Step_ok_iff {env : Env} {mgr : Manager} {mins : Dict (Str × Str) Int} {f : H5File}
    {it : Item} : (∃ s, v3Step (mkCtx env mgr mins f) it = .ok s) ↔
      SignalCheckable env f (catalog env f).log it := by
  constructor
  · rintro ⟨s, h⟩
    simp only [v3Step, bind, Except.bind] at h
    split at h
    · cases h
    rename_i ed hed
    obtain ⟨e, d⟩ := ed
    simp only [] at h
    split at h
    · cases h
    rename_i D hD
    split at h
    · cases h
    rename_i E hE
    split at h
    · cases h
    rename_i R hR
    cases hattrs : D.obj.attrs? with
    | none => rw [hattrs] at h; cases h
    | some attrs =>
    rw [hattrs] at h
    simp only [attrGet] at h
    cases hsig : attrs.lookup s%"signal" with
    | none => rw [hsig] at h; cases h
    | some sig =>
    rw [hsig] at h
    simp only [] at h
    split at h
    · cases h
    rename_i addr haddr
    split at h
    · cases h
    rename_i t1 ht1
    split at h
    · cases h
    rename_i t2 ht2
    split at h
    · cases h
    rename_i t3 ht3
    have hD := addressAt_ok_iff.1 hD
    have hE := addressAt_ok_iff.1 hE
    have hR := addressAt_ok_iff.1 hR
    obtain ⟨r, rest, g1, g2, g3, g4⟩ := entryAndData_ok hed
    have hin : InGroups (catalog env f).log it D E R :=
      ⟨r, e, d, rest, g1, g2, g3, g4, by simpa using hD, hE, hR⟩
    refine ⟨D, E, R, addr, hin, attrPointsAt_ok_iff.1 ⟨_, ht1⟩, attrPointsAt_ok_iff.1 ⟨_, ht2⟩,
      attrPointsAt_ok_iff.1 ⟨_, ht3⟩, buildH5Address_spec hattrs hsig haddr, fun hp => ?_⟩
    have : t3 = true := (attrPointsAt_spec ht3).2 hp
    rw [if_pos this] at h
    split at h
    · cases h
    rename_i T hT
    exact ⟨T, addressAt_ok_iff.1 hT⟩
  · rintro ⟨D, E, R, t, ⟨r, e, d, rest, g1, g2, g3, g4, hD, hE, hR⟩, p1, p2, p3, hn, hT⟩
    have hed := entryAndData_eq g1 g2 g3 g4
    have hD' : addressAt (mkCtx env mgr mins f) (s%"/" ++ e ++ s%"/" ++ d) = .ok D :=
      addressAt_ok_iff.2 (by simpa using hD)
    have hE' : addressAt (mkCtx env mgr mins f) (s%"/" ++ e) = .ok E := addressAt_ok_iff.2 hE
    have hR' : addressAt (mkCtx env mgr mins f) s%"/" = .ok R := addressAt_ok_iff.2 hR
    obtain ⟨n, attrs, v, s, n1, n2, n3, n4, n5⟩ := hn
    obtain ⟨t', ht'⟩ := (buildH5Address_ok_iff (env := env) n2 v).2 ⟨s, n4⟩
    have := names_unique (buildH5Address_spec n2 n3 ht') ⟨n, attrs, v, s, n1, n2, n3, n4, n5⟩
    subst this
    obtain ⟨t1, ht1⟩ := (attrPointsAt_ok_iff (ctx := mkCtx env mgr mins f) (target := E.addr)).2 p1
    obtain ⟨t2, ht2⟩ := (attrPointsAt_ok_iff (ctx := mkCtx env mgr mins f) (target := D.addr)).2 p2
    obtain ⟨t3, ht3⟩ := (attrPointsAt_ok_iff (ctx := mkCtx env mgr mins f) (target := some t')).2 p3
    have ht'' : buildH5Address (mkCtx env mgr mins f).env D v = .ok t' := ht'
    simp only [v3Step, bind, Except.bind, hed, hD', hE', hR', n2, attrGet, n3, ht'', ht1, ht2, ht3]
    cases t3 with
    | false => exact ⟨_, rfl⟩
    | true =>
      obtain ⟨T, hT⟩ := hT ((attrPointsAt_spec ht3).1 rfl)
      have hT := addressAt_ok_iff (mgr := mgr) (mins := mins).2 hT
      simp only [if_true, hT]
      exact ⟨_, rfl⟩

theorem v3Loop_ok_iff {env : Env} {mgr : Manager} {mins : Dict (Str × Str) Int} {f : H5File}
    (h5 : Option Str) (niac l : List Item) :
    (∃ r, (v3Loop (mkCtx env mgr mins f) h5 niac l).res = .ok r) ↔
      ∀ before it after, l = before ++ it :: after →
        (∀ i ∈ before, ¬ SignalMissing env f (catalog env f).log i) →
        SignalCheckable env f (catalog env f).log it := by
  induction l generalizing h5 niac with
  | nil => simp [v3Loop]
  | cons it l ih =>
    have head : (∀ before i after, it :: l = before ++ i :: after →
        (∀ i ∈ before, ¬ SignalMissing env f (catalog env f).log i) →
        SignalCheckable env f (catalog env f).log i) ↔
        SignalCheckable env f (catalog env f).log it ∧
        (¬ SignalMissing env f (catalog env f).log it →
          ∀ before i after, l = before ++ i :: after →
            (∀ i ∈ before, ¬ SignalMissing env f (catalog env f).log i) →
            SignalCheckable env f (catalog env f).log i) := by
      constructor
      · intro h
        refine ⟨h [] it l rfl (by simp), fun hm before i after e hb => ?_⟩
        refine h (it :: before) i after (by rw [e]; rfl) ?_
        intro j hj
        rcases List.mem_cons.1 hj with rfl | hj
        · exact hm
        · exact hb j hj
      · rintro ⟨h1, h2⟩ before i after e hb
        cases before with
        | nil => injection e with e; rw [← e]; exact h1
        | cons j before =>
          injection e with e1 e2
          subst e1
          exact h2 (hb it (by simp)) before i after e2 (fun j hj => hb j (by simp [hj]))
    rw [head, ← v3Step_ok_iff (mgr := mgr) (mins := mins), v3Loop]
    cases hs : v3Step (mkCtx env mgr mins f) it with
    | error e => simp
    | ok s =>
      obtain ⟨p3, _⟩ := v3Step_spec hs
      rw [W.lift_ok_bind]
      simp only [Except.ok.injEq, exists_eq', true_and]
      by_cases h3 : s.t3 = false
      · rw [if_pos h3]
        simp only [record_bind_res, W.pure_res, Except.ok.injEq, exists_eq', true_iff]
        exact fun h => absurd (p3.1 h3) h
      · rw [if_neg h3]
        have hm : ¬ SignalMissing env f (catalog env f).log it := fun e => h3 (p3.2 e)
        simp only [hm, not_false_eq_true, true_implies]
        split
        · rw [record_bind_res]; exact ih _ _
        · exact ih _ _

theorem defaultPlotV3_ok_iff {env : Env} {mgr : Manager} {mins : Dict (Str × Str) Int} {f : H5File} :
    (∃ r, (defaultPlotV3 (mkCtx env mgr mins f)).res = .ok r) ↔
      ∀ before it after, dataSignals (catalog env f).log = before ++ it :: after →
        (∀ i ∈ before, ¬ SignalMissing env f (catalog env f).log i) →
        SignalCheckable env f (catalog env f).log it := by
  rw [← v3Loop_ok_iff (mgr := mgr) (mins := mins) none [], defaultPlotV3]
  have hl : (Dict.get? (mkCtx env mgr mins f).classpaths s%"/NXentry/NXdata@signal").getD [] =
      dataSignals (catalog env f).log := classpathTable_get _ _
  rw [hl]
  simp only []
  constructor
  · rintro ⟨r, h⟩
    rw [W.bind_ok_iff] at h
    obtain ⟨a, h, _⟩ := h
    exact ⟨a, h⟩
  · rintro ⟨a, h⟩
    simp only [W.bind_ok_iff]
    match a, h with
    | none, h => exact ⟨_, _, h, rfl⟩
    | some (h5, []), h => exact ⟨_, _, h, rfl⟩
    | some (h5, [it]), h => exact ⟨_, _, h, rfl⟩
    | some (h5, _ :: _ :: _), h => exact ⟨_, _, h, rfl⟩

/-! ## the second method -/

mutual
theorem nodeItems_parent (env : Env) (parent : Item) (oid : List Nat)
    (hp : isHdf5Dataset parent.obj = false) {it p : Item} {m : Node} (hm : it.obj = .node m)
    (hpar : it.parent = some p) :
    (n : Node) → it ∈ nodeItems env parent oid n → isHdf5Dataset p.obj = false
  | .group n a kids, h => by
    rw [nodeItems] at h
    rcases List.mem_append.1 h with h | h
    · rcases List.mem_cons.1 h with rfl | h
      · rw [objItem_parent] at hpar; cases hpar; exact hp
      · obtain ⟨i, kb, _, _, _, rfl⟩ := mem_attrItemsOf h
        rw [attrItem_obj] at hm; cases hm
    · refine kidsItems_parent env _ oid 0 ?_ hm hpar kids h
      rcases parentFor_cases (objItem env (some parent) (.node (.group n a kids)) n oid) a with
        h | ⟨_, _, h⟩
      · rw [h]; rfl
      · obtain ⟨i, kb, _, _, _, e⟩ := mem_attrItemsOf h
        rw [e, attrItem_obj]; rfl
  | .dataset n a d, h => by
    rw [nodeItems] at h
    rcases List.mem_cons.1 h with rfl | h
    · rw [objItem_parent] at hpar; cases hpar; exact hp
    · obtain ⟨i, kb, _, _, _, rfl⟩ := mem_attrItemsOf h
      rw [attrItem_obj] at hm; cases hm
  | .datatype n a, h => by
    rw [nodeItems] at h
    rcases List.mem_cons.1 h with rfl | h
    · rw [objItem_parent] at hpar; cases hpar; exact hp
    · obtain ⟨i, kb, _, _, _, rfl⟩ := mem_attrItemsOf h
      rw [attrItem_obj] at hm; cases hm
theorem kidsItems_parent (env : Env) (parent : Item) (oid : List Nat) (i : Nat)
    (hp : isHdf5Dataset parent.obj = false) {it p : Item} {m : Node} (hm : it.obj = .node m)
    (hpar : it.parent = some p) :
    (ks : Kids) → it ∈ kidsItems env parent oid i ks → isHdf5Dataset p.obj = false
  | .nil, h => by simp [kidsItems] at h
  | .cons l k n rest, h => by
    rw [kidsItems] at h
    rcases List.mem_append.1 h with h | h
    · exact nodeItems_parent env parent _ hp hm hpar n h
    · exact kidsItems_parent env parent oid (i + 1) hp hm hpar rest h
  | .broken l k rest, h => by simp [kidsItems] at h
end

/-- No object is in a dataset. -/
theorem catalog_parent {env : Env} {f : H5File} (h : (catalog env f).res = .ok ()) {it p : Item}
    (hit : it ∈ (catalog env f).log) {m : Node} (hm : it.obj = .node m)
    (hpar : it.parent = some p) : isHdf5Dataset p.obj = false := by
  rw [catalog_log h, fileItems] at hit
  rcases List.mem_append.1 hit with hit | hit
  · rcases List.mem_cons.1 hit with rfl | hit
    · cases hm
    · obtain ⟨i, kb, _, _, _, rfl⟩ := mem_attrItemsOf hit
      rw [attrItem_obj] at hm; cases hm
  · exact kidsItems_parent env _ [] 0 rfl hm hpar f.kids hit

/-- An item that the second method can deal with. -/
def FieldMark (it : Item) : Prop :=
  ∃ par a g ga, it.parent = some par ∧ it.addr = some a ∧ par.parent = some g ∧ g.addr = some ga

theorem signal_item {env : Env} {f : H5File} (h : (catalog env f).res = .ok ())
    (hw : WellNamedFile f) {it : Item} (hit : it ∈ (catalog env f).log)
    (hs : s%"@signal" <:+ it.classpath) : ∃ par, it.parent = some par ∧
      (isHdf5Dataset par.obj = true → FieldMark it ∧ ∃ v, it.obj = .val v) := by
  have hcp : it.classpath ≠ nonNeXus := by
    intro e; rw [e] at hs; exact absurd hs (by decide)
  have hit' := hit
  cases catalogued h hit with
  | root =>
    change s%"@signal" <:+ [] at hs
    exact absurd hs (by decide)
  | @node p n oid hp ho =>
    refine ⟨p, objItem_parent _ _ _ _ _, fun hd => ?_⟩
    rw [catalog_parent h hit rfl (objItem_parent _ _ _ _ _)] at hd
    cases hd
  | @attr v attrs ka j hv ho ha hka =>
    refine ⟨v, attrItem_parent _ _ _, fun hd => ?_⟩
    have hvc : v.classpath ≠ nonNeXus := by
      intro e; apply hcp; rw [attrItem, if_pos e]
    refine ⟨?_, ka.2, attrItem_obj _ _ _⟩
    cases catalogued h hv with
    | root => cases hd
    | attr j' _ _ _ _ => rw [attrItem_obj] at hd; cases hd
    | @node g n oid hg hgo =>
      have hgn : g.classpath ≠ nonNeXus := by
        intro e
        rcases below_nonNexus h hv (objItem_parent _ _ _ _ _) e with h1 | ⟨_, h1⟩
        · exact hvc h1
        · injection h1 with h1
          exact node_name_ne h hw hv rfl h1
      have hgobj : IsObject f g := by
        rcases hgo with h1 | h1
        · exact h1
        · exact absurd h1 hgn
      obtain ⟨ga, hga, _⟩ := hgobj.addr
      refine ⟨_, n.name ++ '@' :: ka.1, g, ga, attrItem_parent _ _ _, ?_,
        objItem_parent _ _ _ _ _, hga⟩
      rw [attrItem, if_neg hvc]; rfl

def GoodReview (rev : Review) : Prop :=
  ∀ g its, (g, its) ∈ rev → (∃ ga, g = some ga) ∧ ∀ i ∈ its, FieldMark i

theorem v2Item_ok {ctx : Ctx} {rev : Review} (hr : GoodReview rev) {it : Item}
    (h : ∃ par, it.parent = some par ∧
      (isHdf5Dataset par.obj = true → FieldMark it ∧ ∃ v, it.obj = .val v)) :
    ∃ rev', (v2Item ctx rev it).res = .ok rev' ∧ GoodReview rev' := by
  obtain ⟨par, hp, h⟩ := h
  rw [v2Item, hp]
  simp only []
  by_cases hd : isHdf5Dataset par.obj = true
  · obtain ⟨⟨par', a, g, ga, hp', ha, hg, hga⟩, v, hv⟩ := h hd
    rw [hp] at hp'
    injection hp' with hp'
    subst hp'
    rw [if_pos hd, hv, ha]
    simp only []
    split
    · simp only [record_bind_res, hg]
      refine ⟨_, rfl, ?_⟩
      intro k its hm
      rcases mem_set hm with e | hm
      · cases e
        refine ⟨⟨ga, hga⟩, ?_⟩
        intro i hi
        rcases List.mem_append.1 hi with hi | hi
        · cases hget : Dict.get? rev g.addr with
          | none => rw [hget] at hi; simp at hi
          | some l =>
            rw [hget] at hi
            exact (hr _ _ (Dict.mem_of_get? hget)).2 i hi
        · rw [List.mem_singleton] at hi
          rw [hi]
          exact ⟨par, a, g, ga, hp, ha, hg, hga⟩
      · exact hr k its hm
    · rw [record_bind_res]
      exact ⟨rev, rfl, hr⟩
  · rw [if_neg hd]
    exact ⟨rev, rfl, hr⟩

theorem v2Items_ok {ctx : Ctx} {l : List Item} (h : ∀ it ∈ l, ∃ par, it.parent = some par ∧
      (isHdf5Dataset par.obj = true → FieldMark it ∧ ∃ v, it.obj = .val v)) {rev : Review}
    (hr : GoodReview rev) : ∃ rev', (v2Items ctx rev l).res = .ok rev' ∧ GoodReview rev' := by
  induction l generalizing rev with
  | nil => exact ⟨rev, rfl, hr⟩
  | cons it l ih =>
    obtain ⟨r1, h1, h2⟩ := v2Item_ok (ctx := ctx) hr (h it (by simp))
    obtain ⟨r2, h3, h4⟩ := ih (fun i hi => h i (by simp [hi])) h2
    refine ⟨r2, ?_, h4⟩
    rw [v2Items, W.bind_ok_iff]
    exact ⟨r1, h1, h3⟩

theorem v2Scan_ok {ctx : Ctx} {d : Dict Str (List Item)} (h : ∀ k its, (k, its) ∈ d →
      endsWith k s%"@signal" = true → ∀ it ∈ its, ∃ par, it.parent = some par ∧
      (isHdf5Dataset par.obj = true → FieldMark it ∧ ∃ v, it.obj = .val v)) {rev : Review}
    (hr : GoodReview rev) : ∃ rev', (v2Scan ctx rev d).res = .ok rev' ∧ GoodReview rev' := by
  induction d generalizing rev with
  | nil => exact ⟨rev, rfl, hr⟩
  | cons q d ih =>
    obtain ⟨k, its⟩ := q
    have ih := fun {r} => ih (fun k its hm => h k its (by simp [hm])) (rev := r)
    rw [v2Scan]
    split
    · rename_i hk
      obtain ⟨r1, h1, h2⟩ := v2Items_ok (ctx := ctx) (h k its (by simp) hk) hr
      obtain ⟨r2, h3, h4⟩ := ih h2
      refine ⟨r2, ?_, h4⟩
      rw [W.bind_ok_iff]
      exact ⟨r1, h1, h3⟩
    · exact ih hr

theorem v2Pick_ok {rev : Review} (hr : GoodReview rev) (a : Option Str) :
    ∃ r, (v2Pick a rev).res = .ok r := by
  induction rev generalizing a with
  | nil => exact ⟨_, rfl⟩
  | cons q rev ih =>
    obtain ⟨g, its⟩ := q
    have hq := hr g its (by simp)
    have ih := ih (fun g its hm => hr g its (by simp [hm]))
    match its, hq with
    | [], _ => unfold v2Pick; exact ih a
    | [it], hq =>
      obtain ⟨par, ad, g', ga, h1, h2, _⟩ := hq.2 it (by simp)
      unfold v2Pick
      simp only [h1, h2, record_bind_res]
      exact ih _
    | it :: it2 :: more, hq =>
      obtain ⟨par, ad, g', ga, h1, h2, h3, _⟩ := hq.2 it (by simp)
      obtain ⟨gn, rfl⟩ := hq.1
      unfold v2Pick
      simp only [h1, Option.bind_some, h3, record_bind_res]
      exact ih _

/-- The second method never raises an exception. -/
theorem defaultPlotV2_ok {env : Env} {mgr : Manager} {mins : Dict (Str × Str) Int} {f : H5File}
    (hc : (catalog env f).res = .ok ()) (hw : WellNamedFile f) :
    ∃ r, (defaultPlotV2 (mkCtx env mgr mins f)).res = .ok r := by
  obtain ⟨rev, h1, h2⟩ := v2Scan_ok (ctx := mkCtx env mgr mins f)
    (d := (mkCtx env mgr mins f).classpaths) (rev := []) (by
      intro k its hm hk it hi
      rw [mem_classpathTable hm, List.mem_filter] at hi
      have : it.classpath = k := by simpa using hi.2
      exact signal_item hc hw hi.1 (by rw [this]; exact endsWith_iff.1 hk))
    (fun _ _ h => by simp at h)
  obtain ⟨r, h3⟩ := v2Pick_ok h2 none
  refine ⟨r, ?_⟩
  rw [defaultPlotV2, W.bind_ok_iff]
  exact ⟨rev, h1, h3⟩

theorem defaultPlotRequired_ok_iff {mgr : Manager} {mins : Dict (Str × Str) Int} :
    (∃ b, defaultPlotRequired mgr mins = .ok b) ↔ ∃ d spec,
      Dict.get? mgr.classes s%"NXentry" = some d ∧ Dict.get? d.groups s%"data" = some spec := by
  rw [defaultPlotRequired]
  cases h : Dict.get? mgr.classes s%"NXentry" with
  | none => simp
  | some d =>
    simp only [Option.some.injEq, exists_and_left, exists_eq_left']
    cases Dict.get? d.groups s%"data" <;> simp

/-- Step 4 raises no exception exactly if the default plot can be looked for. -/
theorem plot_completes_iff {env : Env} {mgr : Manager} {mins mins' : Dict (Str × Str) Int}
    {f : H5File} (hc : (catalog env f).res = .ok ()) (hw : WellNamedFile f) :
    (defaultPlotVerify (mkCtx env mgr mins f) mins').res = .ok () ↔
      PlotCheckable env f mgr.classes (catalog env f).log := by
  have hroot : ∃ R, addressAt (mkCtx env mgr mins f) s%"/" = .ok R := by
    have hr : rootItem f ∈ (catalog env f).log := by rw [catalog_log hc]; simp [fileItems]
    obtain ⟨x, hx⟩ := address_of_mem (mgr := mgr) (mins := mins) hr
    exact ⟨x, by rw [addressAt, show some s%"/" = (rootItem f).addr from rfl, hx]⟩
  obtain ⟨R, hR⟩ := hroot
  rw [defaultPlotVerify, hR, W.lift_ok_bind]
  unfold PlotCheckable
  rw [← defaultPlotV3_ok_iff (mgr := mgr) (mins := mins)]
  rw [W.bind_ok_iff]
  constructor
  · rintro ⟨r, h, hr⟩
    rw [findDefaultPlot, W.bind_ok_iff] at h
    obtain ⟨r3, h3, h⟩ := h
    refine ⟨⟨r3, h3⟩, fun no3 no2 => ?_⟩
    cases r3 with
    | some a => exact absurd ⟨a, ((v3_exact h3).1 a).1 rfl⟩ no3
    | none =>
      simp only [] at h
      rw [W.bind_ok_iff] at h
      obtain ⟨r2, h2, h⟩ := h
      cases r2 with
      | some a => exact absurd ⟨a, ((v2_exact hc h2).1 a).1 rfl⟩ no2
      | none =>
        injection h with h
        subst h
        simp only [] at hr
        rw [W.bind_ok_iff] at hr
        obtain ⟨b, hb, _⟩ := hr
        exact defaultPlotRequired_ok_iff.1 ⟨b, hb⟩
  · rintro ⟨⟨r3, h3⟩, hreq⟩
    cases r3 with
    | some a =>
      refine ⟨some (s%"v3", a), ?_, rfl⟩
      rw [findDefaultPlot, W.bind_ok_iff]
      exact ⟨_, h3, rfl⟩
    | none =>
      obtain ⟨r2, h2⟩ := defaultPlotV2_ok (mgr := mgr) (mins := mins) hc hw
      cases r2 with
      | some a =>
        refine ⟨some (s%"v2", a), ?_, rfl⟩
        rw [findDefaultPlot, W.bind_ok_iff]
        refine ⟨_, h3, ?_⟩
        simp only []
        rw [W.bind_ok_iff]
        exact ⟨_, h2, rfl⟩
      | none =>
        refine ⟨none, ?_, ?_⟩
        · rw [findDefaultPlot, W.bind_ok_iff]
          refine ⟨_, h3, ?_⟩
          simp only []
          rw [W.bind_ok_iff]
          exact ⟨_, h2, rfl⟩
        · simp only []
          rw [W.bind_ok_iff]
          obtain ⟨b, hb⟩ := (defaultPlotRequired_ok_iff (mins := mins')).2 (hreq
            (fun ⟨a, ha⟩ => by cases ((v3_exact h3).1 a).2 ha)
            (fun ⟨a, ha⟩ => by cases ((v2_exact hc h2).1 a).2 ha))
          exact ⟨b, hb, rfl⟩

end Punx

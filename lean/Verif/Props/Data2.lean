import Verif.Props.Data

/-!
# C121: the data of a file do not matter for its validation (2)
-/

namespace Punx
open Spec Classical

/-! ## the default plot -/

section
variable (K : Str → Prop) (ctx : Ctx)

theorem bare_buildAddress (env : Env) (it : Item) (v : Val) :
    buildH5Address env (it.bare K) v = buildH5Address env it v := by
  unfold buildH5Address
  have ho : (it.bare K).obj = it.obj.bare K := rfl
  have hp : (((it.bare K).parent).getD (it.bare K)).obj.name? = ((it.parent).getD it).obj.name? := by
    rw [bare_parent]
    cases it.parent with
    | none => exact bare_name? K it.obj
    | some p => exact bare_name? K p.obj
  rw [ho, hp]
  cases it.obj with
  | node n => cases n <;> rfl
  | val v => cases v <;> rfl
  | _ => rfl

theorem bare_pointsAt (it : Item) (a : Str) (t : Option Str) :
    attrPointsAt (ctx.bare K) (it.bare K) a t = attrPointsAt ctx it a t := by
  unfold attrPointsAt
  have ho : (it.bare K).obj = it.obj.bare K := rfl
  have he : (ctx.bare K).env = ctx.env := rfl
  simp only [ho, bare_attrs?, bare_objContains, bare_buildAddress, he]

theorem bare_addressAt (k : Str) :
    addressAt (ctx.bare K) k = (addressAt ctx k).map (Item.bare K) := by
  unfold addressAt
  have ht : Dict.get? (ctx.bare K).addresses (some k) =
      (Dict.get? ctx.addresses (some k)).map (Item.bare K) := Dict.get?_mapVals _ _ _
  rw [ht]
  cases Dict.get? ctx.addresses (some k) <;> rfl

theorem bare_v3Step (it : Item) : v3Step (ctx.bare K) (it.bare K) = v3Step ctx it := by
  unfold v3Step
  have h0 : entryAndData (it.bare K) = entryAndData it := rfl
  have he : (ctx.bare K).env = ctx.env := rfl
  rw [h0]
  cases entryAndData it with
  | error e => rfl
  | ok ed =>
    simp only [bare_addressAt]
    obtain ⟨e0, d0⟩ := ed
    simp only [bind, Except.bind]
    cases addressAt ctx (s%"/" ++ e0 ++ s%"/" ++ d0) with
    | error e => rfl
    | ok d =>
      cases addressAt ctx (s%"/" ++ e0) with
      | error e => rfl
      | ok e =>
        cases addressAt ctx s%"/" with
        | error e => rfl
        | ok r =>
          have hd : (d.bare K).obj = d.obj.bare K := rfl
          have ha : ∀ i : Item, (i.bare K).addr = i.addr := fun _ => rfl
          simp only [Except.map, hd, bare_attrs?, bare_buildAddress, he, ha,
            bare_pointsAt]
          cases d.obj.attrs? with
          | none => rfl
          | some at' =>
            simp only
            cases attrGet at' s%"signal" with
            | none => rfl
            | some v =>
              simp only
              cases buildH5Address ctx.env d v with
              | error e => rfl
              | ok sa =>
                simp only
                cases attrPointsAt ctx r s%"default" e.addr with
                | error e => rfl
                | ok t1 =>
                  simp only
                  cases attrPointsAt ctx e s%"default" d.addr with
                  | error e => rfl
                  | ok t2 =>
                    simp only
                    cases attrPointsAt ctx d s%"signal" (some sa) with
                    | error e => rfl
                    | ok t3 =>
                      cases t3 with
                      | false => rfl
                      | true =>
                        simp only [if_true]
                        cases addressAt ctx sa with
                        | error e => rfl
                        | ok tg =>
                          have htg : (tg.bare K).obj = tg.obj.bare K := rfl
                          simp only [htg, bare_isDataset]

/-- The result of `v3Loop` without data. -/
noncomputable def bareV3 (r : Option (Option Str × List Item)) : Option (Option Str × List Item) :=
  r.map fun p => (p.1, p.2.map (Item.bare K))

/-- A run with a changed result. -/
def W.mapRes {ε α β : Type} (g : α → β) (x : W ε α) : W ε β := ⟨x.log, x.res.map g⟩

theorem W.mapRes_bind {ε α β γ : Type} (g : β → γ) (x : W ε α) (k : α → W ε β) :
    W.mapRes g (x >>= k) = x >>= fun a => W.mapRes g (k a) := by
  obtain ⟨l, r⟩ := x
  cases r <;> rfl

theorem W.bind_mapRes {ε α β γ : Type} (g : α → β) (x : W ε α) (k : β → W ε γ) :
    (W.mapRes g x >>= k) = x >>= fun a => k (g a) := by
  obtain ⟨l, r⟩ := x
  cases r <;> rfl

theorem bare_v3Loop : ∀ (l : List Item) (h5 : Option Str) (niac : List Item),
    v3Loop (ctx.bare K) h5 (niac.map (Item.bare K)) (l.map (Item.bare K)) =
      W.mapRes (bareV3 K) (v3Loop ctx h5 niac l)
  | [], h5, niac => rfl
  | it :: l, h5, niac => by
    simp only [List.map_cons, v3Loop, bare_v3Step, bare_record, W.mapRes_bind]
    congr 1
    funext s
    split
    · rw [W.mapRes_bind]; rfl
    · split
      · rw [W.mapRes_bind]
        congr 1
        funext _
        rw [← bare_v3Loop l]
        congr 1
        split
        · simp
        · rfl
      · exact bare_v3Loop l h5 niac

theorem bare_V3 : defaultPlotV3 (ctx.bare K) = defaultPlotV3 ctx := by
  unfold defaultPlotV3
  have hc : (Dict.get? (ctx.bare K).classpaths s%"/NXentry/NXdata@signal").getD [] =
      ((Dict.get? ctx.classpaths s%"/NXentry/NXdata@signal").getD []).map (Item.bare K) := by
    have : Dict.get? (ctx.bare K).classpaths s%"/NXentry/NXdata@signal" = _ :=
      Dict.get?_mapVals (List.map (Item.bare K)) _ ctx.classpaths
    rw [this]
    cases Dict.get? ctx.classpaths s%"/NXentry/NXdata@signal" <;> rfl
  have h := bare_v3Loop K ctx ((Dict.get? ctx.classpaths s%"/NXentry/NXdata@signal").getD []) none []
  rw [List.map_nil] at h
  simp only [hc, h, W.bind_mapRes]
  congr 1
  funext r
  cases r with
  | none => rfl
  | some p =>
    obtain ⟨h5, niac⟩ := p
    cases niac with
    | nil => rfl
    | cons x xs => cases xs <;> rfl

/-- `review_dict` without data. -/
noncomputable def bareReview (r : Review) : Review := Dict.mapVals (List.map (Item.bare K)) r

theorem bare_v2Item (rev : Review) (it : Item) :
    v2Item (ctx.bare K) (bareReview K rev) (it.bare K) =
      W.mapRes (bareReview K) (v2Item ctx rev it) := by
  unfold v2Item
  rw [bare_parent]
  cases it.parent with
  | none => rfl
  | some par =>
    have hp : (par.bare K).obj = par.obj.bare K := rfl
    have ho : (it.bare K).obj = it.obj.bare K := rfl
    have ha : (it.bare K).addr = it.addr := rfl
    have he : (ctx.bare K).env = ctx.env := rfl
    simp only [Option.map_some, hp, bare_isDataset, ho, ha, he]
    by_cases hd : isHdf5Dataset par.obj = true
    · rw [if_pos hd, if_pos hd]
      cases it.obj with
      | val v =>
        cases it.addr with
        | none => rfl
        | some a =>
          simp only [H5Obj.bare, bare_record]
          split
          · rw [W.mapRes_bind]
            congr 1
            funext _
            rw [bare_parent]
            cases par.parent with
            | none => rfl
            | some g =>
              simp only [Option.map_some]
              have hg : (g.bare K).addr = g.addr := rfl
              have : Dict.set (bareReview K rev) g.addr
                    ((Dict.get? (bareReview K rev) g.addr).getD [] ++ [it.bare K]) =
                  bareReview K (Dict.set rev g.addr ((Dict.get? rev g.addr).getD [] ++ [it])) := by
                unfold bareReview
                rw [← Dict.set_mapVals, Dict.get?_mapVals]
                cases Dict.get? rev g.addr <;> simp
              rw [hg, this]
              rfl
          · rw [W.mapRes_bind]; rfl
      | node n => cases n <;> rfl
      | _ => rfl
    · rw [if_neg hd, if_neg hd]; rfl

theorem bare_v2Items : ∀ (l : List Item) (rev : Review),
    v2Items (ctx.bare K) (bareReview K rev) (l.map (Item.bare K)) =
      W.mapRes (bareReview K) (v2Items ctx rev l)
  | [], rev => rfl
  | it :: l, rev => by
    simp only [List.map_cons, v2Items, bare_v2Item, W.mapRes_bind, W.bind_mapRes]
    congr 1
    funext r
    exact bare_v2Items l r

theorem bare_v2Scan : ∀ (d : Dict Str (List Item)) (rev : Review),
    v2Scan (ctx.bare K) (bareReview K rev) (Dict.mapVals (List.map (Item.bare K)) d) =
      W.mapRes (bareReview K) (v2Scan ctx rev d)
  | [], rev => rfl
  | (k, l) :: d, rev => by
    show v2Scan (ctx.bare K) (bareReview K rev)
      ((k, l.map (Item.bare K)) :: Dict.mapVals (List.map (Item.bare K)) d) = _
    simp only [v2Scan]
    split
    · rw [bare_v2Items, W.bind_mapRes, W.mapRes_bind]
      congr 1
      funext r
      exact bare_v2Scan d r
    · exact bare_v2Scan d rev

theorem bare_v2Pick : ∀ (rev : Review) (a : Option Str), v2Pick a (bareReview K rev) = v2Pick a rev
  | [], a => rfl
  | (grp, l) :: rest, a => by
    have ih := bare_v2Pick rest
    show v2Pick a ((grp, l.map (Item.bare K)) :: bareReview K rest) = _
    cases l with
    | nil => exact ih a
    | cons it l =>
      have hp := bare_parent K it
      have ha : (it.bare K).addr = it.addr := rfl
      cases l with
      | nil =>
        simp only [List.map_cons, List.map_nil, v2Pick, hp, ha]
        cases it.parent with
        | none => rfl
        | some par =>
          cases it.addr with
          | none => rfl
          | some a' =>
            simp only [Option.map_some, bare_record, ih]
            rfl
      | cons it' l =>
        simp only [List.map_cons, v2Pick, hp]
        have : ((it.parent.map (Item.bare K)).bind Item.parent) =
            (it.parent.bind Item.parent).map (Item.bare K) := by
          cases it.parent with
          | none => rfl
          | some par => exact bare_parent K par
        rw [this]
        cases it.parent.bind Item.parent with
        | none => rfl
        | some g =>
          cases grp with
          | none => rfl
          | some gn => simp only [Option.map_some, bare_record, ih]

theorem bare_V2 : defaultPlotV2 (ctx.bare K) = defaultPlotV2 ctx := by
  unfold defaultPlotV2
  have h : v2Scan (ctx.bare K) [] (ctx.bare K).classpaths =
      W.mapRes (bareReview K) (v2Scan ctx [] ctx.classpaths) := bare_v2Scan K ctx ctx.classpaths []
  rw [h, W.bind_mapRes]
  congr 1
  funext r
  exact bare_v2Pick K r none

theorem bare_defaultPlot (mins : Dict (Str × Str) Int) :
    defaultPlotVerify (ctx.bare K) mins = defaultPlotVerify ctx mins := by
  unfold defaultPlotVerify findDefaultPlot
  rw [bare_V3, bare_V2, bare_addressAt]
  cases addressAt ctx s%"/" <;> rfl

/-! ## application definitions -/

theorem bare_readValue {l : Str} (n : Node) (h : ∀ m a d, n = .dataset m a d → K l) :
    readValue (some (bareNode K l n)) = readValue (some n) := by
  cases n with
  | dataset m a d => simp only [bareNode, readValue, keptData, if_pos (h m a d rfl)]
  | _ => rfl

theorem bare_appDefName (hK : K s%"definition") (it : Item) :
    appDefName (ctx.bare K) (it.bare K) = appDefName ctx it := by
  unfold appDefName
  have ho : (it.bare K).obj = it.obj.bare K := rfl
  rw [ho, bare_asGroup]
  cases it.obj.asGroup with
  | none => rfl
  | some g =>
    simp only [Option.map_some]
    have hf : (ctx.bare K).file = ctx.file.bare K := rfl
    have he : (ctx.bare K).env = ctx.env := rfl
    have hl : (pathParts s%"definition").getLast?.getD [] = s%"definition" := by decide
    rw [hf, he, bare_get, hl]
    cases h5get ctx.file g s%"definition" with
    | error e => rfl
    | ok o =>
      cases o with
      | none => rfl
      | some n =>
        simp only [Except.map, Option.map_some]
        rw [bare_readValue K n fun _ _ _ _ => hK]

theorem bare_enumLoop {l : Str} (env : Env) (o : Option Node)
    (h : ∀ m a d, o = some (.dataset m a d) → K l) : ∀ es : List (Option Str),
      enumLoop env (o.map (bareNode K l)) es = enumLoop env o es
  | [] => rfl
  | e :: es => by
    have hr : readValue (o.map (bareNode K l)) = readValue o := by
      cases o with
      | none => rfl
      | some n => exact bare_readValue K n fun m a d hn => h m a d (by rw [hn])
    simp only [enumLoop, hr, bare_enumLoop env o h es]

theorem mkItem_bare_record {env : Env} {p : Item} {o : H5Obj} {o' : H5Obj}
    (hn : o'.name? = o.name?) (ha : o'.attrs? = o.attrs?) (hg : isHdf5Group o' = isHdf5Group o)
    (ht : objectTypeCheck env o' = objectTypeCheck env o) (an : Option Str) (oid : List Nat) :
    (mkItem env (some (p.bare K)) o' an oid).map (fun v => (v.oid, v.addr)) =
      (mkItem env (some p) o an oid).map fun v => (v.oid, v.addr) := by
  unfold mkItem
  rw [hn]
  cases o.name? with
  | some n =>
    simp only [ha, hg, ht]
    have hd : ∀ b x y, determineClasspath env (some (p.bare K)) b x y =
        determineClasspath env (some p) b x y := fun _ _ _ => rfl
    rw [hd]
    cases determineClasspath env (some p) (isHdf5Group o) (objName n) (o.attrs?.getD []) with
    | error e => rfl
    | ok r =>
      simp only [bind, Except.bind]
      cases objectTypeCheck env o <;> rfl
  | none =>
    simp only
    have hc : (p.bare K).classpath = p.classpath := rfl
    rw [hc]
    split <;> rfl

theorem record_same {v v' : Item} (h : (v'.oid, v'.addr) = (v.oid, v.addr)) (k : Str) (st : Status)
    (c : Str) : record v' k st c = record v k st c := by
  injection h with h1 h2
  unfold record
  rw [h1, h2]

theorem bind_lift_same {α β : Type} {x y : Except PyErr α} {P : α → β}
    (h : y.map P = x.map P) {k k' : α → W Eff Unit} (hk : ∀ a b, P b = P a → k' b = k a) :
    (W.lift y >>= k') = (W.lift x >>= k) := by
  cases x with
  | error e =>
    cases y with
    | error e' => injection h with h; subst h; rfl
    | ok b => cases h
  | ok a =>
    cases y with
    | error e' => cases h
    | ok b =>
      injection h with h
      rw [W.lift_ok_bind, W.lift_ok_bind]
      exact hk a b h

theorem resolve_group {s : Node} : ∀ {cs : List Str} {m : Str} {a : List (Str × Val)} {d : DataInfo},
    (∃ x y z, s = .group x y z) → resolve s cs = some (.dataset m a d) → cs ≠ [] := by
  rintro cs m a d ⟨x, y, z, rfl⟩ h rfl
  cases h

theorem bare_appField (it : Item) (g : Node) (hg : ∃ x y z, g = .group x y z) (c : Str) (i : Nat)
    (fld : Str × FieldSpec)
    (hK : fld.2.enums ≠ [] → ∀ l, (pathParts fld.1).getLast? = some l → K l) :
    appField (ctx.bare K) (it.bare K) (bareNode K [] g) c i fld = appField ctx it g c i fld := by
  unfold appField
  have hf : (ctx.bare K).file = ctx.file.bare K := rfl
  have he : (ctx.bare K).env = ctx.env := rfl
  have hm : (ctx.bare K).mgr = ctx.mgr := rfl
  have hi : (it.bare K).oid = it.oid := rfl
  rw [hf, he, hm, hi, bare_get]
  cases hx : h5get ctx.file g fld.1 with
  | error e => rfl
  | ok o =>
    simp only [Except.map, W.lift_ok_bind]
    have hk : ∀ m a d, o = some (.dataset m a d) → fld.2.enums ≠ [] →
        K ((pathParts fld.1).getLast?.getD []) := by
      intro m a d ho hne
      have hne' : pathParts fld.1 ≠ [] := by
        unfold h5get at hx
        split at hx
        · cases hx
        · injection hx with hx
          rw [ho] at hx
          refine resolve_group ?_ hx
          unfold startNode
          split
          · exact ⟨_, _, _, rfl⟩
          · exact hg
      rw [List.getLast?_eq_some_getLast hne']
      exact hK hne _ (List.getLast?_eq_some_getLast hne')
    have hs : (o.map (bareNode K ((pathParts fld.1).getLast?.getD []))).isSome = o.isSome := by
      cases o <;> rfl
    refine bind_lift_same (P := fun v => (v.oid, v.addr)) ?_ fun v v' hv => ?_
    · refine mkItem_bare_record K ?_ ?_ ?_ ?_ none _
      all_goals
        cases o with
        | none => rfl
        | some n => cases n <;> rfl
    · simp only [record_same hv, hs]
      congr 1
      funext _
      split
      · rename_i hlen
        have hne : fld.2.enums ≠ [] := by
          intro h0
          rw [h0] at hlen
          exact absurd hlen (by decide)
        rw [bare_enumLoop K ctx.env o fun m a d ho => hk m a d ho hne]
      · rfl

theorem bare_appFields (it : Item) (g : Node) (hg : ∃ x y z, g = .group x y z) (c : Str) :
    ∀ (l : List (Str × FieldSpec)) (i : Nat),
      (∀ fld ∈ l, fld.2.enums ≠ [] → ∀ p, (pathParts fld.1).getLast? = some p → K p) →
      appFields (ctx.bare K) (it.bare K) (bareNode K [] g) c i l = appFields ctx it g c i l
  | [], _, _ => rfl
  | fld :: l, i, h => by
    simp only [appFields]
    rw [bare_appField K ctx it g hg c i fld (h fld (by simp))]
    congr 1
    funext _
    exact bare_appFields it g hg c l (i + 1) fun x hx => h x (by simp [hx])

theorem asGroup_group {o : H5Obj} {g : Node} (h : o.asGroup = some g) : ∃ x y z, g = .group x y z := by
  cases o with
  | file f => injection h with h; exact ⟨_, _, _, h.symm⟩
  | node n =>
    cases n with
    | group x y z => injection h with h; exact ⟨x, y, z, h.symm⟩
    | _ => cases h
  | _ => cases h

theorem bare_appDef (hK : K s%"definition") (it : Item)
    (h : ∀ g c ad gname entry more fld l, it.obj.asGroup = some g → Declares ctx.env ctx.file g c →
      Dict.get? ctx.mgr.classes c = some ad → ad.groups = (gname, entry) :: more →
      fld ∈ entry.fields → fld.2.enums ≠ [] → (pathParts fld.1).getLast? = some l → K l) :
    appDefVerify (ctx.bare K) (it.bare K) = appDefVerify ctx it := by
  unfold appDefVerify
  rw [bare_appDefName K ctx hK]
  cases hn : appDefName ctx it with
  | error e => rfl
  | ok c =>
    obtain ⟨g, hg, hd⟩ := appDefName_ok hn
    have hm : (ctx.bare K).mgr = ctx.mgr := rfl
    have ho : (it.bare K).obj = it.obj.bare K := rfl
    simp only [W.lift_ok_bind, hm]
    cases hc : Dict.get? ctx.mgr.classes c with
    | none => rfl
    | some ad =>
      simp only [bare_record, ho, bare_asGroup, hg, Option.map_some]
      cases hv : ad.groups with
      | nil => rfl
      | cons p more =>
        obtain ⟨gname, entry⟩ := p
        simp only [Dict.values, List.map_cons]
        rw [bare_appFields K ctx it g (asGroup_group hg) c entry.fields 0 fun fld hf hne l hl =>
          h g c ad gname entry more fld l hg hd hc hv hf hne hl]

/-! ## the whole run -/

theorem bare_runChecks (hK : K s%"definition")
    (h : ∀ k, ∀ it ∈ (Dict.get? ctx.classpaths k).getD [], ∀ p, it.parent = some p →
      ∀ g c ad gname entry more fld l, p.obj.asGroup = some g → Declares ctx.env ctx.file g c →
      Dict.get? ctx.mgr.classes c = some ad → ad.groups = (gname, entry) :: more →
      fld ∈ entry.fields → fld.2.enums ≠ [] → (pathParts fld.1).getLast? = some l → K l) :
    runChecks (ctx.bare K) = runChecks ctx := by
  have h1 : ∀ (items : List Item) done, step1 (ctx.bare K) done (items.map (Item.bare K)) =
      step1 ctx done items := by
    intro items
    induction items with
    | nil => intro done; rfl
    | cons it items ih =>
      intro done
      have : ∀ seen, nameAndAttribute (ctx.bare K) seen (it.bare K) = nameAndAttribute ctx seen it := by
        intro seen
        unfold nameAndAttribute
        rw [bare_itemName, bare_attribute]
      simp only [List.map_cons, step1]
      have ho : (it.bare K).oid = it.oid := rfl
      rw [ho, this]
      congr 1
      funext _
      exact ih _
  have h1' : step1 (ctx.bare K) [] (Dict.values (ctx.bare K).classpaths).flatten =
      step1 ctx [] (Dict.values ctx.classpaths).flatten := by
    have : (Dict.values (ctx.bare K).classpaths).flatten =
        (Dict.values ctx.classpaths).flatten.map (Item.bare K) := by
      rw [List.map_flatten]
      exact congrArg _ (Dict.values_mapVals _ _)
    rw [this, h1]
  have h2 : step2 (ctx.bare K) = step2 ctx := by
    unfold step2
    have : Dict.values (ctx.bare K).addresses = (Dict.values ctx.addresses).map (Item.bare K) :=
      Dict.values_mapVals _ _
    rw [this, W.forEach_map]
    refine W.forEach_congr fun it _ => ?_
    have ho : (it.bare K).obj = it.obj.bare K := rfl
    rw [ho, bare_isGroup, bare_isFile, bare_validateGroup]
  have h3 : step3 (ctx.bare K) = step3 ctx := by
    unfold step3
    refine W.forEach_congr fun k _ => ?_
    have : (Dict.get? (ctx.bare K).classpaths k).getD [] =
        ((Dict.get? ctx.classpaths k).getD []).map (Item.bare K) := by
      have : Dict.get? (ctx.bare K).classpaths k = _ :=
        Dict.get?_mapVals (List.map (Item.bare K)) _ ctx.classpaths
      rw [this]
      cases Dict.get? ctx.classpaths k <;> rfl
    rw [this, W.forEach_map]
    refine W.forEach_congr fun it hit => ?_
    rw [bare_parent]
    cases hp : it.parent with
    | none => rfl
    | some p => exact bare_appDef K ctx hK p (h k it hit p hp)
  have hm : (ctx.bare K).minOccurs = ctx.minOccurs := rfl
  unfold runChecks
  simp only [h1', h2, h3, bare_defaultPlot, hm]

theorem bare_mkCtx (env : Env) (mgr : Manager) (mins : Dict (Str × Str) Int) {f f' : H5File}
    (h : OtherData K f f') :
    (mkCtx env mgr mins f).bare K = (mkCtx env mgr mins f').bare K := by
  unfold mkCtx Ctx.bare
  have hl := (like_catalog (env := env) h).1
  simp only
  rw [← bare_addressTable, ← bare_addressTable, ← bare_classpathTable, ← bare_classpathTable, hl]
  congr 1
  simp only [H5File.bare, h.attrs, LikeKids.bare h.kids]

end

/-! ## the same names are looked at -/

mutual
theorem LikeNode.symm {K : Str → Prop} {l : Str} {n n' : Node} : LikeNode K l n n' → LikeNode K l n' n
  | .dataset h => .dataset fun k => (h k).symm
  | .datatype => .datatype
  | .group h => .group (LikeKids.symm h)
theorem LikeKids.symm {K : Str → Prop} {ks ks' : Kids} : LikeKids K ks ks' → LikeKids K ks' ks
  | .nil => .nil
  | .cons h t => .cons (LikeNode.symm h) (LikeKids.symm t)
  | .broken t => .broken (LikeKids.symm t)
end

theorem LikeKids.mem {K : Str → Prop} {l : Str} {k : Node} : ∀ {ks ks' : Kids}, LikeKids K ks ks' →
    (l, some k) ∈ ks.toList → ∃ k', (l, some k') ∈ ks'.toList ∧ LikeNode K l k k'
  | _, _, .nil, hm => by simp [Kids.toList] at hm
  | _, _, .cons h t, hm => by
    simp only [Kids.toList, List.mem_cons] at hm ⊢
    rcases hm with hm | hm
    · injection hm with h1 h2
      injection h2 with h2
      subst h1; subst h2
      exact ⟨_, .inl rfl, h⟩
    · obtain ⟨k', h1, h2⟩ := LikeKids.mem t hm
      exact ⟨k', .inr h1, h2⟩
  | _, _, .broken t, hm => by
    simp only [Kids.toList, List.mem_cons] at hm ⊢
    rcases hm with hm | hm
    · injection hm with _ h2; cases h2
    · obtain ⟨k', h1, h2⟩ := LikeKids.mem t hm
      exact ⟨k', .inr h1, h2⟩

theorem like_inTree {K : Str → Prop} {n x : Node} (hi : InTree n x) : ∀ {l : Str} {n' : Node},
    LikeNode K l n n' → ∃ l' x', InTree n' x' ∧ LikeNode K l' x x' := by
  induction hi with
  | self => intro l n' h; exact ⟨l, n', .self, h⟩
  | member hm _ ih =>
    intro l n' h
    cases h with
    | group hk =>
      obtain ⟨k', h1, h2⟩ := LikeKids.mem hk hm
      obtain ⟨l', x', h3, h4⟩ := ih h2
      exact ⟨l', x', .member h1 h3, h4⟩

theorem OtherData.root {K : Str → Prop} {f f' : H5File} (h : OtherData K f f') :
    LikeNode K [] f.root f'.root := by
  unfold H5File.root
  rw [h.attrs]
  exact .group h.kids

/-- A declared definition is also declared in the other file. -/
theorem like_declares {K : Str → Prop} {env : Env} {f f' : H5File} (hK : K s%"definition")
    (h : OtherData K f f') {g : Node} {c : Str} (hi : InTree f.root g) (hd : Declares env f g c) :
    ∃ g', InTree f'.root g' ∧ Declares env f' g' c := by
  obtain ⟨l, g', hi', hg⟩ := like_inTree hi (OtherData.root h)
  refine ⟨g', hi', ?_⟩
  obtain ⟨n, a, d, hx, hv⟩ := hd
  have hl : (pathParts s%"definition").getLast?.getD l = s%"definition" := by
    show ((pathParts s%"definition").getLast?).getD l = _
    rw [show (pathParts s%"definition").getLast? = some s%"definition" by decide]
    rfl
  have hb := bare_get K f l g s%"definition"
  have hb' := bare_get K f' l g' s%"definition"
  have hf : f.bare K = f'.bare K := by simp only [H5File.bare, h.attrs, LikeKids.bare h.kids]
  rw [← hf, ← LikeNode.bare hg, hb, hx, hl] at hb'
  cases hy : h5get f' g' s%"definition" with
  | error e => rw [hy] at hb'; cases hb'
  | ok o =>
    rw [hy] at hb'
    injection hb' with hb'
    cases o with
    | none => cases hb'
    | some m =>
      simp only [Option.map_some, bareNode] at hb'
      injection hb' with hb'
      cases m with
      | dataset n' a' d' =>
        simp only [bareNode] at hb'
        injection hb' with h1 h2 h3
        subst h1; subst h2
        have : d.value = d'.value := by
          have := congrArg DataInfo.value h3
          simpa [keptData, hK] using this
        exact ⟨n, a, d', hy, this ▸ hv⟩
      | datatype n' a' => simp only [bareNode] at hb'; cases hb'
      | group n' a' k => simp only [bareNode] at hb'; cases hb'

/-- C121: validation does not depend on what the datasets hold, except for the values that are
looked at: if two files differ in nothing else, the validation does the same, finding by finding and
with the same comments, and ends in the same way. -/
theorem data_irrelevant (env : Env) (mgr : Manager) (mins : Dict (Str × Str) Int) {f f' : H5File}
    (h : OtherData (Looked env mgr f) f f') :
    validateOpen env mgr mins f = validateOpen env mgr mins f' := by
  have hK : Looked env mgr f s%"definition" := .inl rfl
  have hrun : ∀ x : H5File, (catalog env x).res = .ok () →
      (∀ g c, InTree x.root g → Declares env x g c → ∃ g', InTree f.root g' ∧ Declares env f g' c) →
      runChecks ((mkCtx env mgr mins x).bare (Looked env mgr f)) = runChecks (mkCtx env mgr mins x) := by
    intro x hx ht
    refine bare_runChecks (Looked env mgr f) (mkCtx env mgr mins x) hK ?_
    intro k it hit p hp g c ad gname entry more fld l hg hd hc hv hf hne hl
    have hcat : it ∈ (catalog env x).log := by
      have : (Dict.get? (mkCtx env mgr mins x).classpaths k).getD [] = _ :=
        classpathTable_get (catalog env x).log k
      rw [this] at hit
      exact (List.mem_filter.1 hit).1
    have hin := catalog_group_inTree hx (catalog_parent_mem hx hcat hp) hg
    obtain ⟨g', h1, h2⟩ := ht g c hin hd
    exact .inr ⟨g', c, ad, gname, entry, more, fld, h1, h2, hc, hv, hf, hne, hl⟩
  have hsymm : OtherData (Looked env mgr f) f' f := ⟨h.attrs.symm, LikeKids.symm h.kids⟩
  unfold validateOpen
  have hc := (like_catalog (env := env) h).2
  rcases hc with ⟨e, h1, h2⟩ | ⟨u, u', h1, h2, _⟩
  · rw [h1, h2]
  · rw [h1, h2]
    simp only
    rw [← hrun f h1 fun g c hi hd => ⟨g, hi, hd⟩,
      ← hrun f' h2 fun g c hi hd => like_declares hK hsymm hi hd, bare_mkCtx _ env mgr mins h]

/-- C121: so does the validator object: what it has recorded, what it leaves in the definitions, and
the exception, if there is one. -/
theorem data_irrelevant_validate (env : Env) (mgr : Manager) (fs fs' : Str → FileState) (name : Str)
    (s : VState) {f f' : H5File} (hf : fs name = .hdf5 f) (hf' : fs' name = .hdf5 f')
    (h : OtherData (Looked env mgr f) f f') :
    (validate env mgr fs name s).2 = (validate env mgr fs' name s).2 ∧
    (validate env mgr fs name s).1.effs = (validate env mgr fs' name s).1.effs ∧
    (validate env mgr fs name s).1.minOccurs = (validate env mgr fs' name s).1.minOccurs := by
  unfold validate
  rw [hf, hf']
  simp only [data_irrelevant env mgr s.minOccurs h, and_self]

/-- C121: and `punx validate`: it does and prints the same for both files. -/
theorem data_irrelevant_command {w w' : World} (a : ValidateArgs) (hs : w.sets = w'.sets)
    (he : w.env = w'.env) (hu : w.upper = w'.upper) (hl : w.load = w'.load) {f f' : H5File}
    (hf : w.files a.infile = .hdf5 f) (hf' : w'.files a.infile = .hdf5 f')
    (h : ∀ ref m, a.fileSet = some ref → w.load ref = .ok m → OtherData (Looked w.env m f) f f') :
    funcValidate w a = funcValidate w' a := by
  unfold funcValidate
  rw [← hs, ← hu, ← hl]
  cases w.sets with
  | error e => rfl
  | ok sets =>
    simp only
    by_cases h0 : endsWith a.infile s%".nxdl.xml" = true
    · rw [if_pos h0, if_pos h0]
    rw [if_neg h0, if_neg h0]
    cases hr : a.fileSet with
    | none => rfl
    | some ref =>
      simp only
      cases hm : w.load ref with
      | error e => rfl
      | ok m =>
        have hv : ∀ ch, validateAndReport w m a.infile ch = validateAndReport w' m a.infile ch := by
          intro ch
          obtain ⟨h1, h2, _⟩ :=
            data_irrelevant_validate w.env m w.files w'.files a.infile VState.init hf hf' (h ref m hr hm)
          unfold validateAndReport
          simp only [← he, VState.validations, h1, h2]
        simp only [hv]

/-! ## cases -/

/-- An entry declaring NXsas with a mode and a field `x` with these data. -/
def measured (mode : Str) (d : DataInfo) : H5File :=
  entryFile (textIn s%"definition" s%"NXsas" (textIn s%"mode" mode
    (.cons s%"x" .hard (.dataset s%"/e/x" [(s%"units", .str s%"mm")] d) .nil)))

/-- Only the names `definition` and `mode` are looked at. -/
theorem measured_looked {mode : Str} {d : DataInfo} {l : Str}
    (h : Looked sampleEnv modeMgr (measured mode d) l) : l = s%"definition" ∨ l = s%"mode" := by
  rcases h with h | ⟨g, c, ad, gname, entry, more, fld, _, _, hc, hg, hf, hne, hl⟩
  · exact .inl h
  · right
    have hm : (c, ad) ∈ modeMgr.classes := Dict.mem_of_get? hc
    simp only [modeMgr, sampleMgr, baseClass, Dict.set] at hm
    simp only [List.mem_cons, List.not_mem_nil, or_false, show (s%"NXroot" = s%"NXsas") = False by simp,
      show (s%"NXentry" = s%"NXsas") = False by simp, show (s%"NXdata" = s%"NXsas") = False by simp,
      show (s%"NXcollection" = s%"NXsas") = False by simp, if_false, if_true] at hm
    rcases hm with h | h | h | h | h <;> injection h with _ h <;> subst h
    · injection hg with hg _
      injection hg with _ hg
      subst hg
      cases hf
    · injection hg with hg _
      injection hg with _ hg
      subst hg
      cases hf
    · cases hg
    · cases hg
    · injection hg with hg _
      injection hg with _ hg
      subst hg
      simp only [GroupSpec.fields, List.mem_cons, List.not_mem_nil, or_false] at hf
      subst hf
      simpa [pathParts, split] using hl.symm

/-- The field may hold whatever it likes. -/
example (d d' : DataInfo) :
    validateOpen sampleEnv modeMgr [] (measured s%"a" d) =
      validateOpen sampleEnv modeMgr [] (measured s%"a" d') := by
  refine data_irrelevant _ _ _ ⟨rfl, ?_⟩
  refine .cons (.group (.cons (.dataset fun _ => rfl) (.cons (.dataset fun _ => rfl)
    (.cons (.dataset fun h => ?_) .nil)))) .nil
  rcases measured_looked h with e | e <;> exact absurd e (by decide)

/-- Both kinds of values that are looked at matter: the text of `definition` and that of `mode`. -/
example : (validateOpen sampleEnv modeMgr [] (modeFile s%"a")).log ≠
      (validateOpen sampleEnv modeMgr [] (modeFile s%"c")).log ∧
    (validateOpen sampleEnv modeMgr [] (entryFile (textIn s%"definition" s%"NXsas" .nil))).log ≠
      (validateOpen sampleEnv modeMgr [] (entryFile (textIn s%"definition" s%"NXother" .nil))).log := by
  constructor <;> decide +kernel

/-- An installation with the set `main`, and the file `a.h5` with these data. -/
def measuringWorld (d : DataInfo) : World where
  env := sampleEnv
  sets := .ok [(s%"main", ⟨[], [], [], none, none, none, none⟩)]
  load := fun _ => .ok modeMgr
  files := fun _ => .hdf5 (measured s%"a" d)
  upper := fun c => [c]
  abspath := id

example (d d' : DataInfo) :
    funcValidate (measuringWorld d) ⟨s%"a.h5", some s%"main", s%"error"⟩ =
      funcValidate (measuringWorld d') ⟨s%"a.h5", some s%"main", s%"error"⟩ := by
  refine data_irrelevant_command _ rfl rfl rfl rfl rfl rfl fun ref m _ hm => ?_
  injection hm with hm
  subst hm
  refine ⟨rfl, .cons (.group (.cons (.dataset fun _ => rfl) (.cons (.dataset fun _ => rfl)
    (.cons (.dataset fun h => ?_) .nil)))) .nil⟩
  rcases measured_looked h with e | e <;> exact absurd e (by decide)

/-- It does print a report. -/
example : (funcValidate (measuringWorld noData) ⟨s%"a.h5", some s%"main", s%"error"⟩).log.length = 3 := by
  decide +kernel

end Punx

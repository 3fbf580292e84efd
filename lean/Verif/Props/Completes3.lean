import Verif.Props.Completes2

/-!
# C77: when the application definition checks raise no exception
-/

namespace Punx
open Spec

/-- A value can be read exactly if it holds text or can be printed. -/
theorem readable_iff (env : Env) (v : Val) :
    (∃ w x, firstOfArray v = .ok w ∧ decodeByteString env w = .ok x) ↔
      ∃ s, HoldsText env v s ∨ HoldsOther env v s := by
  constructor
  · rintro ⟨w, x, h1, h2⟩
    exact ⟨_, readPrinted h1 h2⟩
  · rintro ⟨s, h⟩
    unfold HoldsText TextOf HoldsOther at h
    cases v with
    | bytes b =>
      simp at h
      exact ⟨_, .str s, rfl, by simp [decodeByteString, h]⟩
    | arrS l =>
      cases l with
      | nil => simp at h
      | cons b l =>
        simp at h
        exact ⟨_, .str s, rfl, by simp [decodeByteString, h]⟩
    | arrO l =>
      cases l with
      | nil => simp at h
      | cons b l => exact ⟨_, _, rfl, rfl⟩
    | list l =>
      cases l with
      | nil => simp at h
      | cons b l => exact ⟨_, _, rfl, rfl⟩
    | arrNum l =>
      cases l with
      | nil => simp at h
      | cons b l => exact ⟨_, _, rfl, rfl⟩
    | _ => exact ⟨_, _, rfl, rfl⟩

theorem appDefName_ok_iff {ctx : Ctx} {it : Item} {g : Node} (hg : it.obj.asGroup = some g)
    (name : Str) : appDefName ctx it = .ok name ↔ Declares ctx.env ctx.file g name := by
  constructor
  · intro h
    obtain ⟨g', hg', h⟩ := appDefName_ok h
    rw [hg] at hg'
    injection hg' with hg'
    rw [hg']; exact h
  · intro h
    obtain ⟨n, a, d, e, hv⟩ := h
    obtain ⟨w, x, h1, h2⟩ := (readable_iff ctx.env d.value).2 ⟨name, hv⟩
    have : appDefName ctx it = .ok (pyStr ctx.env x) := by
      simp only [appDefName, hg, e, readValue, bind, Except.bind, h1, h2]
    rw [this, holds_unique hv (readPrinted h1 h2)]

theorem enumLoop_ok_iff {env : Env} {o : Option Node} {enums : List (Option Str)}
    (hne : enums ≠ []) :
    (∃ r, enumLoop env o enums = .ok r) ↔ ∃ m a d, o = some (.dataset m a d) ∧
      ∃ s, HoldsText env d.value s ∨ HoldsOther env d.value s := by
  constructor
  · rintro ⟨r, h⟩
    obtain ⟨m, a, d, rfl, _⟩ := enumLoop_ok hne h
    refine ⟨m, a, d, rfl, (readable_iff env d.value).1 ?_⟩
    cases enums with
    | nil => exact absurd rfl hne
    | cons e es =>
      rw [enumLoop] at h
      simp only [readValue, bind, Except.bind] at h
      cases h1 : firstOfArray d.value with
      | error e => rw [h1] at h; cases h
      | ok w =>
        rw [h1] at h
        simp only [] at h
        cases h2 : decodeByteString env w with
        | error e => rw [h2] at h; cases h
        | ok x => exact ⟨w, x, rfl, h2⟩
  · rintro ⟨m, a, d, rfl, hs⟩
    obtain ⟨w, x, h1, h2⟩ := (readable_iff env d.value).2 hs
    clear hne
    induction enums with
    | nil => exact ⟨_, rfl⟩
    | cons e es ih =>
      rw [enumLoop]
      simp only [readValue, bind, Except.bind, h1, h2]
      split
      · exact ⟨_, rfl⟩
      · exact ih

theorem mkItem_node_ok_iff {env : Env} {p : Item} (hp : p.classpath ≠ nonNeXus)
    (hs : ¬ s%"/" <:+ p.classpath) (n : Node) (oid : List Nat) :
    (∃ it, mkItem env (some p) (.node n) none oid = .ok it) ↔ ItemReadable env n := by
  have hm : mkItem env (some p) (.node n) none oid = (do
      let (cp, nx) ← determineClasspath env (some p) (isHdf5Group (.node n)) (objName n.name) n.attrs
      objectTypeCheck env (.node n)
      .ok ⟨⟨oid, .node n, objName n.name, some n.name, cp, nx⟩, p.chain⟩) := rfl
  have hcp : (∃ r, determineClasspath env (some p) (isHdf5Group (.node n)) (objName n.name) n.attrs
      = .ok r) ↔ n.name = s%"/" ∨ NodeClassOk env n := by
    constructor
    · rintro ⟨r, h⟩
      by_cases hname : n.name = s%"/"
      · exact .inl hname
      right
      cases n with
      | dataset m a d => trivial
      | datatype m a => trivial
      | group m a ks =>
        rw [determineClasspath, if_neg (fun h => hname (objName_slash h))] at h
        simp only [if_neg hp, if_neg (fun h => hs (endsWith_iff.1 h))] at h
        refine (decode_class_ok_iff env a).1 ?_
        rw [if_pos (show isHdf5Group (.node (.group m a ks)) = true from rfl)] at h
        cases hd : decodeByteString env ((attrGet a s%"NX_class").getD .none) with
        | ok v => exact ⟨v, rfl⟩
        | error e => simp only [Node.attrs, hd] at h; cases h
    · rintro (h | h)
      · rw [determineClasspath, h, if_pos (by rfl)]
        exact ⟨_, rfl⟩
      · exact determineClasspath_ok h
  rw [ItemReadable, ← hcp, ← objectTypeCheck_ok_iff, hm]
  cases determineClasspath env (some p) (isHdf5Group (.node n)) (objName n.name) n.attrs with
  | error e => simp [bind, Except.bind]
  | ok r => cases objectTypeCheck env (.node n) <;> simp [bind, Except.bind]

theorem appField_ok_iff {ctx : Ctx} {it : Item} (hp : it.classpath ≠ nonNeXus)
    (hs : ¬ s%"/" <:+ it.classpath) (g : Node) (ad : Str) (i : Nat) (fld : Str × FieldSpec) :
    (appField ctx it g ad i fld).res = .ok () ↔ FieldCheckable ctx.env ctx.mgr ctx.file g fld := by
  have tail : ∀ (o : Option Node) (v : Item), ((if fld.2.enums.length > 0 then do
        let found ← W.lift (enumLoop ctx.env o fld.2.enums)
        let required ← W.lift (fieldRequired ctx.mgr)
        let msg := ad ++ s%":" ++ fld.1 ++
          (if required then s%" (required)" else s%" (optional)")
        match found with
        | some (some e) =>
          record v s%"NXDL field enumerations" .ok (msg ++ s%" has expected value: " ++ e)
        | some none => W.fail .typeError
        | none => do
          let values ← W.lift (joinEnums fld.2.enums)
          record v s%"NXDL field enumerations" .error (msg ++ s%" does not have value: " ++ values)
      else pure () : W Eff Unit).res = .ok ()) ↔
      (fld.2.enums ≠ [] → ∃ n, o = some n ∧ (∃ m a d, n = .dataset m a d ∧
        ∃ s, HoldsText ctx.env d.value s ∨ HoldsOther ctx.env d.value s) ∧
        ctx.mgr.fieldMinOccursIsOne ≠ none ∧
        (none ∈ fld.2.enums → HasOneOf ctx.env n fld.2.enums)) := by
    intro o v
    by_cases he : fld.2.enums = []
    · simp [he]
    · rw [if_pos (List.length_pos_iff.2 he), W.bind_ok_iff]
      simp only [ne_eq, he, not_false_eq_true, true_implies]
      constructor
      · rintro ⟨r, h, h'⟩
        rw [W.lift_res] at h
        rw [W.bind_ok_iff] at h'
        obtain ⟨b, hb, h'⟩ := h'
        rw [W.lift_res] at hb
        obtain ⟨m, a, d, e, hh⟩ := (enumLoop_ok_iff he).1 ⟨r, h⟩
        refine ⟨_, e, ⟨m, a, d, rfl, hh⟩, fieldRequired_ok.1 ⟨b, hb⟩, fun hn => ?_⟩
        obtain ⟨m', a', d', e', h1, h2, h3, _⟩ := enumLoop_ok he h
        rw [e] at e'
        injection e' with e'
        refine ⟨m', a', d', e', ?_⟩
        cases r with
        | none =>
          dsimp only at h'
          rw [W.bind_ok_iff] at h'
          obtain ⟨j, hj, _⟩ := h'
          rw [W.lift_res] at hj
          exact absurd hn (joinEnums_ok.1 ⟨j, hj⟩)
        | some t =>
          cases t with
          | none => cases h'
          | some t => exact ⟨t, h2 _ rfl, h3 t rfl⟩
      · rintro ⟨n, rfl, hd, hm, hn⟩
        obtain ⟨r, h⟩ := (enumLoop_ok_iff (o := some n) he).2 (by
          obtain ⟨m, a, d, rfl, hh⟩ := hd
          exact ⟨m, a, d, rfl, hh⟩)
        obtain ⟨b, hb⟩ := fieldRequired_ok.2 hm
        refine ⟨r, h, ?_⟩
        rw [hb, W.lift_ok_bind]
        obtain ⟨m', a', d', e', h1, h2, _, h4⟩ := enumLoop_ok he h
        injection e' with e'
        subst e'
        cases r with
        | none =>
          dsimp only
          obtain ⟨j, hj⟩ := joinEnums_ok.2 (fun hh => by
            obtain ⟨_, _, _, e, t, ht, ht'⟩ := hn hh
            cases e
            exact h1 rfl t ht ht')
          rw [hj, W.lift_ok_bind]
          rfl
        | some t =>
          cases t with
          | none =>
            obtain ⟨_, _, _, e, t, ht, ht'⟩ := hn (h2 _ rfl)
            cases e
            exact absurd ht' (h4 rfl t)
          | some t => rfl
  unfold appField FieldCheckable
  cases ho : h5get ctx.file g fld.1 with
  | error e => simp
  | ok o =>
    simp only [W.lift_ok_bind]
    cases o with
    | none =>
      obtain ⟨v, hv⟩ : ∃ v, mkItem ctx.env (some it) .none none (0 :: i :: it.oid) = .ok v := by
        rw [mkItem]
        simp only [H5Obj.name?, if_neg hp]
        exact ⟨_, rfl⟩
      simp only [hv, W.lift_ok_bind, record_bind_res]
      refine (tail none v).trans ?_
      simp
    | some n =>
      simp only []
      rw [W.bind_ok_iff]
      simp only [record_bind_res, Except.ok.injEq, Option.some.injEq, exists_eq_left', reduceCtorEq,
        false_and, or_false]
      rw [← mkItem_node_ok_iff hp hs n (0 :: i :: it.oid)]
      constructor
      · rintro ⟨v, hv, h⟩
        refine ⟨⟨v, hv⟩, fun he => ?_⟩
        obtain ⟨n', e, h⟩ := (tail _ v).1 h he
        injection e with e
        subst e
        exact h
      · rintro ⟨⟨v, hv⟩, h⟩
        exact ⟨v, hv, (tail _ v).2 fun he => ⟨n, rfl, h he⟩⟩

theorem appFields_ok_iff {ctx : Ctx} {it : Item} (hp : it.classpath ≠ nonNeXus)
    (hs : ¬ s%"/" <:+ it.classpath) (g : Node) (ad : Str) (i : Nat) (l : List (Str × FieldSpec)) :
    (appFields ctx it g ad i l).res = .ok () ↔ ∀ fld ∈ l, FieldCheckable ctx.env ctx.mgr ctx.file g fld := by
  induction l generalizing i with
  | nil => simp [appFields]
  | cons fld l ih => rw [appFields, unit_bind_ok_iff, appField_ok_iff hp hs, ih]; simp

theorem appDefVerify_ok_iff {ctx : Ctx} {it : Item} (hp : it.classpath ≠ nonNeXus)
    (hs : ¬ s%"/" <:+ it.classpath) :
    (appDefVerify ctx it).res = .ok () ↔ ∃ g, it.obj.asGroup = some g ∧
      DefinitionCheckable ctx.env ctx.mgr ctx.file g := by
  cases hg : it.obj.asGroup with
  | none =>
    simp only [reduceCtorEq, false_and, exists_false, iff_false]
    intro h
    rw [appDefVerify, W.bind_ok_iff] at h
    obtain ⟨_, h, _⟩ := h
    rw [W.lift_res, appDefName, hg] at h
    cases h
  | some g =>
    simp only [Option.some.injEq, exists_eq_left', DefinitionCheckable]
    rw [appDefVerify, W.bind_ok_iff]
    refine exists_congr fun name => ?_
    rw [W.lift_res, appDefName_ok_iff hg]
    refine and_congr_right fun _ => ?_
    cases hd : Dict.get? ctx.mgr.classes name with
    | none => simp; rfl
    | some ad =>
      simp only [record_bind_res, Option.some.injEq, forall_eq', hg]
      have last : ((match Dict.values ad.groups with
          | [] => W.fail .indexError
          | entry :: _ => appFields ctx it g name 0 entry.fields : W Eff Unit).res = .ok ()) ↔
          ∃ gname entry more, ad.groups = (gname, entry) :: more ∧
            ∀ fld ∈ entry.fields, FieldCheckable ctx.env ctx.mgr ctx.file g fld := by
        cases hgr : ad.groups with
        | nil => simp [Dict.values]
        | cons x more =>
          simp only [Dict.values, List.map_cons]
          rw [appFields_ok_iff hp hs]
          constructor
          · intro h; exact ⟨x.1, x.2, more, rfl, h⟩
          · rintro ⟨n, e, m, he, h⟩
            injection he with he
            rw [he]; exact h
      rw [← last]
      cases ad.category <;> rfl

theorem definer_parent_path {env : Env} {f : H5File} (h : (catalog env f).res = .ok ()) {it : Item}
    (hit : it ∈ (catalog env f).log) (hd : IsDefinition it) :
    ∃ p, it.parent = some p ∧ p.classpath ≠ nonNeXus ∧ ¬ s%"/" <:+ p.classpath := by
  obtain ⟨p, hpm, hp, hn⟩ := definer_parent h (mem_definers.2 ⟨hit, hd⟩)
  refine ⟨p, hp, hn, ?_⟩
  intro hs
  have hends : ¬ s%"/" <:+ it.classpath := by
    rcases hd with h | h <;> rw [h] <;> decide
  have hne : it.classpath ≠ [] := by
    rcases hd with h | h <;> rw [h] <;> decide
  cases catalogued h hit with
  | root => exact hne rfl
  | @attr v attrs ka j hv ho ha hka =>
    rw [attrItem] at hd
    split at hd
    · rcases hd with hd | hd <;> simp [nonNeXus] at hd
    · have : '@' ∈ v.classpath ++ '@' :: ka.1 := by simp
      rcases hd with hk | hk
      · have hk' : v.classpath ++ '@' :: ka.1 = s%"/NXentry/definition" := hk
        rw [hk'] at this; exact absurd this (by decide)
      · have hk' : v.classpath ++ '@' :: ka.1 = s%"/NXentry/NXsubentry/definition" := hk
        rw [hk'] at this; exact absurd this (by decide)
  | @node q n oid hq ho =>
    have e : q = p := by
      have : (objItem env (some q) (.node n) n.name oid).parent = some q := objItem_parent _ _ _ _ _
      rw [hp] at this
      injection this with this
      exact this.symm
    subst e
    have e : (objItem env (some q) (.node n) n.name oid).classpath =
      (cpOf env (some q) (.node n) n.name).1 := rfl
    rw [e, cpOf, determineClasspath] at hends hne
    by_cases h1 : objName n.name = s%"/"
    · rw [if_pos h1] at hne; exact hne rfl
    · rw [if_neg h1] at hends
      simp only [if_neg hn, if_pos (endsWith_iff.2 hs)] at hends
      exact hends hs

/-- Step 3 raises no exception exactly if all declared definitions can be checked. -/
theorem definitions_completes_iff {env : Env} {mgr : Manager} {mins : Dict (Str × Str) Int}
    {f : H5File} (hc : (catalog env f).res = .ok ()) :
    (step3 (mkCtx env mgr mins f)).res = .ok () ↔
      DefinitionsCheckable env mgr f (catalog env f).log := by
  have hget : ∀ k, (Dict.get? (mkCtx env mgr mins f).classpaths k).getD [] =
      (catalog env f).log.filter (fun it => it.classpath = k) := classpathTable_get _
  rw [step3, W.forEach_ok_iff]
  simp only [W.forEach_ok_iff, hget]
  constructor
  · intro h it hit hd
    obtain ⟨p, hp, hn, hs⟩ := definer_parent_path hc hit hd
    refine ⟨p, ?_⟩
    have := h it.classpath (by rcases hd with h | h <;> simp [h, definitionPaths]) it
      (by simp [hit])
    rw [hp] at this
    obtain ⟨g, hg, hdc⟩ := (appDefVerify_ok_iff hn hs).1 this
    exact ⟨g, hp, hg, hdc⟩
  · intro h k hk it hit
    rw [List.mem_filter] at hit
    have hik : it.classpath = k := by simpa using hit.2
    have hd : IsDefinition it := by
      simp only [definitionPaths, List.mem_cons, List.not_mem_nil, or_false] at hk
      unfold IsDefinition
      rw [hik]; exact hk
    obtain ⟨p, hp, hn, hs⟩ := definer_parent_path hc hit.1 hd
    obtain ⟨p', g, hp', hg, hdc⟩ := h it hit.1 hd
    rw [hp] at hp' ⊢
    injection hp' with hp'
    subst hp'
    exact (appDefVerify_ok_iff hn hs).2 ⟨g, hg, hdc⟩

end Punx

import Verif.Props.Attribute
import Mathlib.Data.List.Forall2

/-!
# C18, C19, C60, C61: axes, target, NX_class and other attributes
-/

namespace Punx
open Spec

theorem textOf_unique {env : Env} {v : Val} {s t : Str} (h : TextOf env v s) (h' : TextOf env v t) :
    s = t := by
  rcases h with h1 | ⟨b, h1, hb⟩ <;> rcases h' with hs | ⟨b', hs, hb'⟩
  · rw [h1] at hs; injection hs
  · rw [h1] at hs; cases hs
  · rw [h1] at hs; cases hs
  · rw [h1] at hs; injection hs with hs; subst hs; rw [hb] at hb'; injection hb'

theorem decode_of_text {env : Env} {v : Val} {s : Str} (h : TextOf env v s) :
    decodeByteString env v = .ok (.str s) := by
  rcases h with rfl | ⟨b, rfl, hb⟩
  · rfl
  · simp only [decodeByteString, hb]

/-! ## C18: axes -/

/-- The two findings on one axis `name` listed by the attribute at `addr` of the object `owner`:
a verdict on the name, then OK if the path resolves from the group, else ERROR. -/
def AxisRule (env : Env) (mgr : Manager) (f : H5File) (owner : H5Obj) (addr : Str) (name : Str)
    (fs : List Finding) : Prop :=
  ∃ g st c st' c', owner.asGroup = some g ∧
    fs = [⟨some addr, s%"valid name @axes['" ++ name ++ s%"']", st, c⟩,
          ⟨some addr, s%"axes['" ++ name ++ s%"'] exists", st', c'⟩] ∧
    ValueNameRule name (RelaxedBy env.word mgr name) st ∧
    (∃ r, h5get f g name = .ok r) ∧
    ((∃ m, h5get f g name = .ok (some m)) → st' = .ok) ∧
    (h5get f g name = .ok none → st' = .error)

theorem axisCheck_ok {env : Env} {mgr : Manager} {mins : Dict (Str × Str) Int} {f : H5File}
    {it : Item} {owner : H5Obj} {x : Val} {addr : Str} (ha : it.addr = some addr)
    (h : (axisCheck (mkCtx env mgr mins f) it owner x).res = .ok ()) :
    ∃ s, x = .str s ∧ AxisRule env mgr f owner addr s
      (findings (axisCheck (mkCtx env mgr mins f) it owner x).log) := by
  rw [axisCheck] at h ⊢
  rw [W.bind_ok_iff] at h
  obtain ⟨k, hk, h⟩ := h
  rw [W.lift_res] at hk
  rw [hk, W.lift_ok_bind]
  cases x with
  | str s =>
    refine ⟨s, rfl, ?_⟩
    have hk' : k = matchKey (mkCtx env mgr mins f) s := by
      simp only [matchKeyVal, decodeByteString, bind, Except.bind] at hk
      injection hk with hk
      exact hk.symm
    simp only at h ⊢
    rw [record_bind_res] at h
    rw [findings_record_bind]
    rw [W.bind_ok_iff] at h
    obtain ⟨o, hob, h⟩ := h
    rw [W.lift_res, objGet] at hob
    have hv := nameVerdict_spec (mkCtx env mgr mins f) s
    rw [← hk'] at hv
    rw [objGet]
    cases hg : owner.asGroup with
    | none => rw [hg] at hob; cases hob
    | some g =>
      rw [hg] at hob
      simp only at hob
      simp only [hob, W.lift_ok_bind]
      have hob' : h5get f g s = .ok o := hob
      cases o with
      | none =>
        simp only [Option.isSome_none, Bool.false_eq_true, if_false]
        rw [findings_record, ha]
        refine ⟨g, _, _, _, _, hg, rfl, hv, ⟨_, hob'⟩, ?_, fun _ => rfl⟩
        rintro ⟨m, hm⟩
        rw [hob'] at hm
        cases hm
      | some m =>
        simp only [Option.isSome_some, if_true]
        rw [findings_record, ha]
        refine ⟨g, _, _, _, _, hg, rfl, hv, ⟨_, hob'⟩, fun _ => rfl, ?_⟩
        intro hm
        rw [hob'] at hm
        cases hm
  | _ => cases h

theorem findings_forEach_axes {env : Env} {mgr : Manager} {mins : Dict (Str × Str) Int}
    {f : H5File} {it : Item} {owner : H5Obj} {addr : Str} (ha : it.addr = some addr)
    (xs : List Val)
    (h : (W.forEach xs (axisCheck (mkCtx env mgr mins f) it owner)).res = .ok ()) :
    ∃ names fs, xs = names.map .str ∧
      findings (W.forEach xs (axisCheck (mkCtx env mgr mins f) it owner)).log = fs.flatten ∧
      List.Forall₂ (AxisRule env mgr f owner addr) names fs := by
  induction xs with
  | nil => exact ⟨[], [], rfl, rfl, .nil⟩
  | cons x xs ih =>
    rw [W.forEach_cons, W.bind_ok_iff] at h
    obtain ⟨⟨⟩, h1, h2⟩ := h
    obtain ⟨s, rfl, hs⟩ := axisCheck_ok ha h1
    obtain ⟨names, fs, rfl, hf, hr⟩ := ih h2
    refine ⟨s :: names, _ :: fs, rfl, ?_, .cons hs hr⟩
    rw [W.forEach_cons, W.bind_log_of_ok h1, findings_append, hf]
    rfl

theorem decodeAll_some {g : List UInt8 → Option Str} : ∀ {xs : List (List UInt8)} {ss : List Str},
    decodeAll g xs = some ss → xs.map g = ss.map some
  | [], ss, h => by simp only [decodeAll] at h; injection h with h; subst h; rfl
  | x :: xs, ss, h => by
    rw [decodeAll] at h
    split at h
    · rename_i a b h1 h2
      injection h with h
      subst h
      simp [h1, decodeAll_some h2]
    · cases h

theorem str_map_inj {xs ys : List Str} (h : xs.map Val.str = ys.map Val.str) : xs = ys := by
  have : Function.Injective Val.str := by intro a b h; injection h
  exact (List.map_inj_right (fun a b h => this h)).1 h

theorem axes_of_decoded {env : Env} {v d : Val} {names : List Str}
    (hd : decodeByteString env v = .ok d) (h : axesList d = names.map .str) :
    AxesOf env v names := by
  have single : ∀ x, axesList d = [x] → d = x → AxesOf env v names := by
    intro x hx hdx
    rw [hx] at h
    cases names with
    | nil => cases h
    | cons s t =>
      cases t with
      | cons => simp at h
      | nil =>
        injection h with h
        subst h
        subst hdx
        exact .inl ⟨s, decode_text hd, rfl⟩
  have num : ∀ rs : List Str, rs.map Val.num = names.map Val.str → rs = [] ∧ names = [] := by
    intro rs hrs
    cases rs with
    | nil => cases names with
      | nil => exact ⟨rfl, rfl⟩
      | cons => simp at hrs
    | cons => cases names <;> simp at hrs
  cases v with
  | arrO xs =>
    simp only [decodeByteString] at hd
    split at hd
    · rename_i hl
      injection hd with hd; subst hd
      have := str_map_inj h
      subst this
      exact .inr (.inl ⟨by rintro rfl; simp at hl, rfl⟩)
    · injection hd with hd; subst hd; exact single _ rfl rfl
  | arrS xs =>
    simp only [decodeByteString] at hd
    split at hd
    · rename_i hl
      split at hd
      · rename_i ss hss
        injection hd with hd; subst hd
        have := str_map_inj h
        subst this
        exact .inr (.inr (.inl ⟨xs, rfl, by rintro rfl; simp at hl, decodeAll_some hss⟩))
      · cases hd
    · injection hd with hd; subst hd; exact single _ rfl rfl
  | list xs =>
    simp only [decodeByteString] at hd
    injection hd with hd; subst hd
    have := str_map_inj h
    subst this
    exact .inr (.inr (.inr (.inl rfl)))
  | arrNum rs =>
    simp only [decodeByteString] at hd
    injection hd with hd; subst hd
    obtain ⟨rfl, rfl⟩ := num rs h
    exact .inr (.inr (.inr (.inr ⟨rfl, rfl⟩)))
  | bytes b =>
    simp only [decodeByteString] at hd
    split at hd
    · injection hd with hd; subst hd; exact single _ rfl rfl
    · cases hd
  | _ =>
    simp only [decodeByteString] at hd
    injection hd with hd; subst hd; exact single _ rfl rfl

/-- C18: in a completed validation the findings on an `axes` attribute are exactly, for each
listed name in order, the two findings of `AxisRule`, followed by one TODO. -/
theorem axes_findings {env : Env} {mgr : Manager} {mins : Dict (Str × Str) Int}
    {f : H5File} (h : (validateOpen env mgr mins f).res = .ok ()) {it owner : Item}
    (hit : it ∈ (catalog env f).log) {v : Val} (hobj : it.obj = .val v) {a : Str}
    (ha : it.addr = some a) (hn : it.name = s%"axes") (hp : it.parent = some owner) :
    ∃ names fs, AxesOf env v names ∧
      List.Forall₂ (AxisRule env mgr f owner.obj a) names fs ∧
      attrFindings (validateOpen env mgr mins f).log it.oid =
        fs.flatten ++ [⟨some a, s%"attribute value", .todo, s%"implement"⟩] := by
  obtain ⟨hok, e⟩ := attrFindings_run h hit
  rw [attrFindings, e]
  rw [attributeVerify_attr h hit hobj ha hp, hn] at hok ⊢
  simp only [List.cons.injEq, Char.reduceEq, if_false, if_true, reduceCtorEq,
    and_false, axesHandler, hobj] at hok ⊢
  rw [W.bind_ok_iff] at hok
  obtain ⟨d, hd, hok⟩ := hok
  rw [W.lift_res] at hd
  have hd' : decodeByteString env v = .ok d := hd
  rw [hd, W.lift_ok_bind]
  rw [W.bind_ok_iff] at hok
  obtain ⟨⟨⟩, h1, hok⟩ := hok
  obtain ⟨names, fs, hx, hf, hr⟩ := findings_forEach_axes ha _ h1
  refine ⟨names, fs, axes_of_decoded hd' hx, hr, ?_⟩
  rw [W.bind_log_of_ok h1, findings_append, hf, findings_record, ha]
  rfl

/-- C18, other side: `axes` with at least one name on an object that is no group (a field, a
named type) never occurs in a completed validation. -/
theorem axes_only_on_groups {env : Env} {mgr : Manager} {mins : Dict (Str × Str) Int}
    {f : H5File} (h : (validateOpen env mgr mins f).res = .ok ()) {it owner : Item}
    (hit : it ∈ (catalog env f).log) {v : Val} (hobj : it.obj = .val v) {a : Str}
    (ha : it.addr = some a) (hn : it.name = s%"axes") (hp : it.parent = some owner)
    (hne : v ≠ .arrNum [] ∧ v ≠ .list []) :
    isHdf5Group owner.obj = true ∨ isHdf5File owner.obj = true := by
  obtain ⟨names, fs, h1, h2, _⟩ := axes_findings h hit hobj ha hn hp
  have hnn : names ≠ [] := by
    rcases h1 with ⟨s, _, rfl⟩ | ⟨h, _⟩ | ⟨bs, _, hb, hm⟩ | rfl | ⟨rfl, _⟩
    · simp
    · exact h
    · rintro rfl; simp at hm; exact hb hm
    · intro hnil; exact hne.2 (by rw [hnil])
    · exact absurd rfl hne.1
  cases h2 with
  | nil => exact absurd rfl hnn
  | cons hr _ =>
    obtain ⟨g, _, _, _, _, hg, _⟩ := hr
    cases ho : owner.obj with
    | file => exact .inr rfl
    | node n =>
      cases n with
      | group => exact .inl rfl
      | _ => rw [ho] at hg; cases hg
    | _ => rw [ho] at hg; cases hg

/-- What the existence of a simple name means: the group has a link of that name which leads to
an object. -/
theorem h5get_simple (f : H5File) (n : Str) (a : List (Str × Val)) (ks : Kids) {s : Str}
    (h : SimpleName s) : h5get f (.group n a ks) s = .ok ((ks.toList.lookup s).getD none) := by
  obtain ⟨h1, h2, h3⟩ := h
  have hparts : pathParts s = [s] := by
    rw [pathParts, split_noSep h2]
    simp [h1, h3]
  have hstart : startNode f (.group n a ks) s = .group n a ks := by
    rw [startNode, if_neg]
    rw [startsWith_iff]
    rintro ⟨t, rfl⟩
    simp at h2
  rw [h5get, if_neg h1, hparts, hstart, resolve, Kids.find]
  cases hl : ks.toList.lookup s with
  | none => rfl
  | some o => cases o <;> rfl

/-- The axis name "." denotes the group itself and always exists. -/
theorem h5get_dot (f : H5File) (g : Node) : h5get f g s%"." = .ok (some g) := by
  rw [h5get, if_neg (by simp)]
  have : pathParts s%"." = [] := by decide
  rw [this, startNode, if_neg (by decide), resolve]

/-! ## C60: NX_class -/

theorem isBaseClassNXDL_iff (d : ClassDef) : isBaseClassNXDL d = true ↔ UsableClass d := by
  rw [isBaseClassNXDL, UsableClass]
  cases hc : d.category with
  | baseClasses => simp
  | applications => simp
  | contributed =>
    simp only [reduceCtorEq, false_or, true_and]
    cases he : Dict.get? d.groups s%"entry" with
    | none => simp
    | some e =>
      cases hf : Dict.get? e.fields s%"definition" with
      | none => simp [hf]
      | some fd => simp [hf]

/-- C60: in a completed validation the NX_class attribute of NeXus content gets exactly one
"attribute value" finding: OK if the definitions contain that class and it is usable for groups,
else ERROR. -/
theorem nxclass_known {env : Env} {mgr : Manager} {mins : Dict (Str × Str) Int}
    {f : H5File} (h : (validateOpen env mgr mins f).res = .ok ()) {it : Item}
    (hit : it ∈ (catalog env f).log) {v : Val} (hobj : it.obj = .val v) {a : Str}
    (ha : it.addr = some a) (hn : it.name = s%"NX_class") :
    ∃ s st c, TextOf env v s ∧
      attrFindings (validateOpen env mgr mins f).log it.oid =
        [⟨some a, s%"attribute value", st, c⟩] ∧
      ((∃ d, Dict.get? mgr.classes s = some d ∧ UsableClass d) → st = .ok) ∧
      ((¬ ∃ d, Dict.get? mgr.classes s = some d ∧ UsableClass d) → st = .error) := by
  obtain ⟨owner, _, _, _, hp, _, _, _, _, _, _, _, _⟩ :=
    attr_shape (catalogued (completed h).catalog hit) hobj ha
  obtain ⟨hok, e⟩ := attrFindings_run h hit
  rw [attrFindings, e]
  rw [attributeVerify_attr h hit hobj ha hp, if_pos hn] at hok ⊢
  simp only [nxclassHandler, hobj] at hok ⊢
  rw [W.bind_ok_iff] at hok
  obtain ⟨d, hd, hok⟩ := hok
  rw [W.lift_res] at hd
  have hd' : decodeByteString env v = .ok d := hd
  rw [hd, W.lift_ok_bind]
  cases d with
  | str s =>
    have hm : (mkCtx env mgr mins f).mgr = mgr := rfl
    simp only [hm]
    cases hc : Dict.get? mgr.classes s with
    | none =>
      simp only [findings_record, ha]
      exact ⟨s, _, _, decode_text hd', rfl, (fun ⟨d, h, _⟩ => by rw [hc] at h; cases h),
        fun _ => rfl⟩
    | some d =>
      simp only []
      by_cases hb : isBaseClassNXDL d = true
      · simp only [if_pos hb, findings_record, ha]
        exact ⟨s, _, _, decode_text hd', rfl, fun _ => rfl,
          fun hno => absurd ⟨d, hc, (isBaseClassNXDL_iff d).1 hb⟩ hno⟩
      · simp only [if_neg hb, findings_record, ha]
        refine ⟨s, _, _, decode_text hd', rfl, ?_, fun _ => rfl⟩
        rintro ⟨d', h1, h2⟩
        rw [hc] at h1
        injection h1 with h1
        subst h1
        exact absurd ((isBaseClassNXDL_iff d).2 h2) hb
  | _ => cases hok

/-! ## C61: attributes without a special check -/

/-- C61: every other attribute of NeXus content gets exactly one TODO. -/
theorem other_attribute_todo {env : Env} {mgr : Manager} {mins : Dict (Str × Str) Int}
    {f : H5File} (h : (validateOpen env mgr mins f).res = .ok ()) {it : Item}
    (hit : it ∈ (catalog env f).log) {v : Val} (hobj : it.obj = .val v) {a : Str}
    (ha : it.addr = some a)
    (hn : it.name ∉ [s%"NX_class", s%"target", s%"signal", s%"axes"]) :
    attrFindings (validateOpen env mgr mins f).log it.oid =
      [⟨some a, s%"attribute value", .todo, s%"implement"⟩] := by
  obtain ⟨owner, _, _, _, hp, _, _, _, _, _, _, _, _⟩ :=
    attr_shape (catalogued (completed h).catalog hit) hobj ha
  obtain ⟨_, e⟩ := attrFindings_run h hit
  simp only [List.mem_cons, List.not_mem_nil, or_false, not_or] at hn
  rw [attrFindings, e, attributeVerify_attr h hit hobj ha hp, if_neg hn.1, if_neg hn.2.1,
    if_neg hn.2.2.1, if_neg hn.2.2.2, genericHandler, findings_record, ha]
  rfl

/-- C61: items without an address (attributes of non-NeXus content) and items whose address
contains no `@` get no finding from the attribute checks. -/
theorem no_attribute_finding {env : Env} {mgr : Manager} {mins : Dict (Str × Str) Int}
    {f : H5File} (h : (validateOpen env mgr mins f).res = .ok ()) {it : Item}
    (hit : it ∈ (catalog env f).log) (ha : ∀ a, it.addr = some a → '@' ∉ a) :
    attrFindings (validateOpen env mgr mins f).log it.oid = [] := by
  obtain ⟨_, e⟩ := attrFindings_run h hit
  rw [attrFindings, e, attributeVerify]
  cases hadr : it.addr with
  | none => rfl
  | some a =>
    have := ha a hadr
    rw [← hasAt_iff] at this
    simp only [this, Bool.false_eq_true, if_false]
    rfl

end Punx

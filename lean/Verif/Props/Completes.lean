import Verif.Props.AttributeTotal
import Verif.Props.DefaultPlot
import Verif.Spec.Completes

/-!
# C77: when the name and attribute checks raise no exception
-/

namespace Punx
open Spec

/-- Values that `decode_byte_string` accepts. -/
theorem decode_ok_iff (env : Env) (v : Val) :
    (∃ d, decodeByteString env v = .ok d) ↔ classReadable env (some v) :=
  decode_class_ok_iff env [(s%"NX_class", v)]

theorem text_readable {env : Env} {v : Val} {s : Str} (h : TextOf env v s) :
    classReadable env (some v) := (decode_ok_iff env v).1 ⟨_, decode_of_text h⟩

/-- A step that decodes a value and needs text. -/
theorem lift_text {β : Type} (env : Env) (v : Val) (F : Val → W Eff β) (b : β)
    (hF : ∀ d, (∀ s, d ≠ .str s) → (F d).res ≠ .ok b) :
    (W.lift (decodeByteString env v) >>= F : W Eff β).res = .ok b ↔
      ∃ s, TextOf env v s ∧ (F (.str s)).res = .ok b := by
  rw [W.bind_ok_iff]
  constructor
  · rintro ⟨d, hd, h⟩
    rw [W.lift_res] at hd
    by_cases hs : ∃ s, d = .str s
    · obtain ⟨s, rfl⟩ := hs
      exact ⟨s, decode_text hd, h⟩
    · exact absurd h (hF d (fun s e => hs ⟨s, e⟩))
  · rintro ⟨s, hs, h⟩
    exact ⟨.str s, decode_of_text hs, h⟩

theorem nxclassHandler_ok_iff {ctx : Ctx} {it : Item} {v : Val} (hobj : it.obj = .val v) :
    (nxclassHandler ctx it).res = .ok () ↔ ∃ s, TextOf ctx.env v s := by
  simp only [nxclassHandler, hobj]
  rw [lift_text _ _ _ _ (by
    intro d hd
    cases d with
    | str s => exact absurd rfl (hd s)
    | _ => intro h; cases h)]
  constructor
  · rintro ⟨s, h, _⟩; exact ⟨s, h⟩
  · rintro ⟨s, h⟩
    refine ⟨s, h, ?_⟩
    simp only []
    split
    · rfl
    · split <;> rfl

theorem targetHandler_ok_iff {ctx : Ctx} {it : Item} {v : Val} (hobj : it.obj = .val v) :
    (targetHandler ctx it).res = .ok () ↔ ∃ s, TextOf ctx.env v s := by
  simp only [targetHandler, hobj]
  rw [lift_text _ _ _ _ (by
    intro d hd
    cases d with
    | str s => exact absurd rfl (hd s)
    | _ => intro h; cases h)]
  constructor
  · rintro ⟨s, h, _⟩; exact ⟨s, h⟩
  · rintro ⟨s, h⟩
    refine ⟨s, h, ?_⟩
    simp only []
    split
    · obtain ⟨b, hb⟩ := targetLoop_total ctx it [] (split '/' (s.drop 1))
      rw [W.bind_ok_iff]
      refine ⟨b, hb, ?_⟩
      split
      · split <;> rfl
      · rfl
    · rfl

theorem fieldSignal_iff (env : Env) (v : Val) :
    (∃ d, decodeByteString env v = .ok d ∧
      (env.isdigit (pyStr env d) = true → ∃ n, pyInt env d = .ok n)) ↔ FieldSignalOk env v := by
  have other : ∀ d : Val, (∀ n, pyInt env d ≠ .ok n) → pyStr env d = env.str d →
      ((env.isdigit (pyStr env d) = true → ∃ n, pyInt env d = .ok n) ↔
        env.isdigit (env.str d) = false) := by
    intro d h1 h2
    rw [h2]
    constructor
    · intro h
      by_contra hc
      obtain ⟨n, hn⟩ := h (by simpa using hc)
      exact h1 n hn
    · intro h h'
      rw [h] at h'; cases h'
  have num : ∀ s : Str, (∃ n, pyInt env (.num s) = .ok n) ↔ ∃ n, env.int s = some n := by
    intro s
    rw [pyInt]
    cases env.int s <;> simp
  have str : ∀ s : Str, (∃ n, pyInt env (.str s) = .ok n) ↔ ∃ n, env.int s = some n := num
  unfold FieldSignalOk
  cases v with
  | str s =>
    simp only [decodeByteString, Except.ok.injEq, exists_eq_left', pyStr, str]
    simp [TextOf]
  | bytes b =>
    rw [decodeByteString]
    cases hb : env.dec b with
    | none => simp [TextOf, hb]
    | some s =>
      simp only [Except.ok.injEq, exists_eq_left', pyStr, str]
      simp [TextOf, hb]
  | int n =>
    simp only [decodeByteString, Except.ok.injEq, exists_eq_left', pyStr, pyInt]
    simp
  | num s =>
    simp only [decodeByteString, Except.ok.injEq, exists_eq_left', pyStr, num]
    simp [TextOf]
  | none =>
    simp only [decodeByteString, Except.ok.injEq, exists_eq_left']
    rw [other _ (by intro n h; cases h) rfl]
    simp [TextOf]
  | empty =>
    simp only [decodeByteString, Except.ok.injEq, exists_eq_left']
    rw [other _ (by intro n h; cases h) rfl]
    simp [TextOf]
  | arrNum xs =>
    simp only [decodeByteString, Except.ok.injEq, exists_eq_left']
    rw [other _ (by intro n h; cases h) rfl]
    simp [TextOf]
  | list xs =>
    simp only [decodeByteString, Except.ok.injEq, exists_eq_left']
    rw [other _ (by intro n h; cases h) rfl]
    simp [TextOf]
  | arrO xs =>
    rw [decodeByteString]
    cases xs with
    | nil =>
      simp only [List.length_nil, gt_iff_lt, Nat.lt_irrefl, if_false, Except.ok.injEq,
        exists_eq_left']
      rw [other _ (by intro n h; cases h) rfl]
      simp [TextOf]
    | cons x xs =>
      simp only [List.length_cons, gt_iff_lt, Nat.zero_lt_succ, if_true, Except.ok.injEq,
        exists_eq_left']
      rw [other _ (by intro n h; cases h) rfl]
      simp [TextOf]
  | arrS bs =>
    rw [decodeByteString]
    cases bs with
    | nil =>
      simp only [List.length_nil, gt_iff_lt, Nat.lt_irrefl, if_false, Except.ok.injEq,
        exists_eq_left']
      rw [other _ (by intro n h; cases h) rfl]
      constructor
      · intro h
        exact .inr (.inr (.inr (.inl ⟨[], [], rfl, rfl, h⟩)))
      · rintro (⟨s, h | h, _⟩ | ⟨n, h⟩ | ⟨xs, h, _⟩ | ⟨bs, ss, h, _, h2⟩ | ⟨h, _⟩)
        · simp [TextOf] at h
        · cases h
        · cases h
        · cases h
        · injection h with h; subst h; exact h2
        · simp at h
    | cons b bs =>
      simp only [List.length_cons, gt_iff_lt, Nat.zero_lt_succ, if_true]
      constructor
      · rintro ⟨d, hd, h⟩
        cases hds : decodeAll asciiDecode (b :: bs) with
        | none => rw [hds] at hd; cases hd
        | some ss =>
          rw [hds] at hd
          injection hd with hd
          subst hd
          rw [other _ (by intro n h; cases h) rfl] at h
          exact .inr (.inr (.inr (.inl ⟨b :: bs, ss, rfl, decodeAll_some hds, h⟩)))
      · rintro (⟨s, h | h, _⟩ | ⟨n, h⟩ | ⟨xs, h, _⟩ | ⟨bs, ss, h, h1, h2⟩ | ⟨h, _⟩)
        · simp [TextOf] at h
        · cases h
        · cases h
        · cases h
        · injection h with h; subst h
          refine ⟨.list ss, by rw [decodeAll_of_map h1], ?_⟩
          rw [other _ (by intro n h; cases h) rfl]
          exact h2
        · simp at h

theorem fieldSignal_readable {env : Env} {v : Val} (h : FieldSignalOk env v) :
    classReadable env (some v) := by
  obtain ⟨d, hd, _⟩ := (fieldSignal_iff env v).2 h
  exact (decode_ok_iff env v).1 ⟨d, hd⟩

theorem signalHandler_ok_iff {ctx : Ctx} {it par : Item} {v : Val} (hobj : it.obj = .val v) :
    (signalHandler ctx it par).res = .ok () ↔
      ((∃ n a d, par.obj = .node (.dataset n a d)) → FieldSignalOk ctx.env v) ∧
      ((∃ n a ks, par.obj = .node (.group n a ks)) → ∃ s, TextOf ctx.env v s) ∧
      classReadable ctx.env (some v) := by
  simp only [signalHandler, hobj]
  by_cases hd : isHdf5Dataset par.obj = true
  · have hds := isHdf5Dataset_iff.1 hd
    have hng : ¬ ∃ n a ks, par.obj = .node (.group n a ks) := by
      rintro ⟨n, a, ks, h⟩
      rw [h] at hd; cases hd
    simp only [if_pos hd]
    rw [W.bind_ok_iff]
    constructor
    · rintro ⟨d, h1, h2⟩
      rw [W.lift_res] at h1
      rw [W.bind_ok_iff] at h2
      obtain ⟨b, h2, _⟩ := h2
      rw [W.lift_res] at h2
      have : FieldSignalOk ctx.env v := by
        refine (fieldSignal_iff _ _).1 ⟨d, h1, ?_⟩
        intro hdig
        rw [if_pos hdig] at h2
        cases hp : pyInt ctx.env d with
        | error e => rw [hp] at h2; cases h2
        | ok n => exact ⟨n, rfl⟩
      exact ⟨fun _ => this, fun h => absurd h hng, fieldSignal_readable this⟩
    · rintro ⟨h, _, _⟩
      obtain ⟨d, h1, h2⟩ := (fieldSignal_iff _ _).2 (h hds)
      refine ⟨d, h1, ?_⟩
      rw [W.bind_ok_iff]
      by_cases hdig : ctx.env.isdigit (pyStr ctx.env d) = true
      · obtain ⟨n, hn⟩ := h2 hdig
        refine ⟨n == 1, ?_, ?_⟩
        · rw [W.lift_res, if_pos hdig, hn]; rfl
        · split <;> rfl
      · refine ⟨false, ?_, rfl⟩
        rw [W.lift_res, if_neg hdig]
  · have hnd : ¬ ∃ n a d, par.obj = .node (.dataset n a d) := fun h => hd (isHdf5Dataset_iff.2 h)
    simp only [if_neg hd]
    by_cases hg : ∃ n a ks, par.obj = .node (.group n a ks)
    · have hg' := hg
      obtain ⟨n, a, ks, hg'⟩ := hg'
      simp only [hg']
      rw [lift_text _ _ _ _ (by
        intro d hd
        cases d with
        | str s => exact absurd rfl (hd s)
        | _ => intro h; cases h)]
      constructor
      · rintro ⟨s, hs, _⟩
        exact ⟨fun h => absurd (hg' ▸ h) hnd, fun _ => ⟨s, hs⟩, text_readable hs⟩
      · rintro ⟨_, h, _⟩
        obtain ⟨s, hs⟩ := h ⟨n, a, ks, rfl⟩
        refine ⟨s, hs, ?_⟩
        simp only [record_bind_res]
        split <;> rfl
    · rw [W.bind_ok_iff]
      have : ∀ d : Val, (match par.obj with
          | .node (.group n a k) =>
            match d with
            | .str s => (do
              let (st, c) := nameVerdict (matchKey ctx s)
              record it (s%"valid name @signal=" ++ s) st c
              if h5contains ctx.file (.group n a k) s then
                record it tAttributeValue .ok (s%"found: @signal=" ++ s)
              else
                record it tAttributeValue .error (s%"not found: @signal=" ++ s))
            | _ => W.fail .typeError
          | _ => genericHandler it : W Eff Unit).res = .ok () := by
        intro d
        split
        · rename_i n a k h
          exact absurd ⟨n, a, k, h⟩ hg
        · rfl
      constructor
      · rintro ⟨d, h1, _⟩
        exact ⟨fun h => absurd h hnd, fun h => absurd h hg, (decode_ok_iff _ _).1 ⟨d, h1⟩⟩
      · rintro ⟨_, _, h⟩
        obtain ⟨d, h1⟩ := (decode_ok_iff _ _).2 h
        exact ⟨d, h1, this d⟩

theorem axisCheck_ok_iff {ctx : Ctx} {it : Item} {owner : H5Obj} {x : Val} :
    (axisCheck ctx it owner x).res = .ok () ↔
      ∃ s, x = .str s ∧ s ≠ [] ∧ ∃ g, owner.asGroup = some g := by
  constructor
  · intro h
    rw [axisCheck, W.bind_ok_iff] at h
    obtain ⟨k, _, h⟩ := h
    cases x with
    | str s =>
      simp only [record_bind_res] at h
      rw [W.bind_ok_iff] at h
      obtain ⟨o, ho, _⟩ := h
      rw [W.lift_res, objGet] at ho
      cases hg : owner.asGroup with
      | none => rw [hg] at ho; cases ho
      | some g =>
        refine ⟨s, rfl, ?_, g, rfl⟩
        rintro rfl
        rw [hg] at ho
        simp [h5get] at ho
    | _ => cases h
  · rintro ⟨s, rfl, hs, g, hg⟩
    exact axisCheck_total ctx it hg hs

theorem axesHandler_ok_iff {ctx : Ctx} {it par : Item} {v : Val} (hobj : it.obj = .val v) :
    (axesHandler ctx it par).res = .ok () ↔
      ∃ names, AxesOf ctx.env v names ∧
        (names = [] ∨ (∃ g, par.obj.asGroup = some g) ∧ [] ∉ names) := by
  simp only [axesHandler, hobj]
  rw [W.bind_ok_iff]
  constructor
  · rintro ⟨d, hd, h⟩
    rw [W.lift_res] at hd
    rw [W.bind_ok_iff] at h
    obtain ⟨_, h, _⟩ := h
    rw [W.forEach_ok_iff] at h
    have : ∃ names : List Str, axesList d = names.map .str := by
      have : ∀ l : List Val, (∀ x ∈ l, (axisCheck ctx it par.obj x).res = .ok ()) →
          ∃ names : List Str, l = names.map .str := by
        intro l
        induction l with
        | nil => intro _; exact ⟨[], rfl⟩
        | cons x l ih =>
          intro h
          obtain ⟨s, rfl, _⟩ := axisCheck_ok_iff.1 (h x (by simp))
          obtain ⟨names, rfl⟩ := ih (fun y hy => h y (by simp [hy]))
          exact ⟨s :: names, rfl⟩
      exact this _ h
    obtain ⟨names, hn⟩ := this
    refine ⟨names, axes_of_decoded hd hn, ?_⟩
    cases names with
    | nil => exact .inl rfl
    | cons s names =>
      right
      rw [hn] at h
      obtain ⟨_, _, _, hg⟩ := axisCheck_ok_iff.1 (h (.str s) (by simp))
      refine ⟨hg, ?_⟩
      intro hm
      obtain ⟨t, ht, hne, _⟩ := axisCheck_ok_iff.1 (h (.str []) (List.mem_map.2 ⟨[], hm, rfl⟩))
      injection ht with ht
      exact hne ht.symm
  · rintro ⟨names, hn, h⟩
    obtain ⟨d, hd, hx⟩ := axes_decoded hn
    refine ⟨d, hd, ?_⟩
    rw [W.bind_ok_iff]
    refine ⟨(), ?_, rfl⟩
    rw [hx, W.forEach_ok_iff]
    intro x hxm
    obtain ⟨s, hs, rfl⟩ := List.mem_map.1 hxm
    rcases h with rfl | ⟨hg, hne⟩
    · cases hs
    · exact axisCheck_ok_iff.2 ⟨s, rfl, fun e => hne (e ▸ hs), hg⟩

/-! ## the items of attributes -/

theorem mem_attrItemsOf_mk {v : Item} {ka : Str × Val} : ∀ {l : List (Str × Val)} (j : Nat), ka ∈ l →
    ∃ i, attrItem v i ka ∈ attrItemsOf v j l
  | [], _, h => by cases h
  | kb :: l, j, h => by
    rw [attrItemsOf]
    rcases List.mem_cons.1 h with rfl | h
    · exact ⟨j, by simp⟩
    · obtain ⟨i, hi⟩ := mem_attrItemsOf_mk (l := l) (j + 1) h
      exact ⟨i, List.mem_cons_of_mem _ hi⟩

theorem attrs_here {v v' : Item} {L : List Item} {attrs attrs' : List (Str × Val)}
    (hv : v.obj.attrs? = some attrs)
    (h : v' ∈ v :: attrItemsOf v 0 (sortAttrs attrs)) (hL : ∀ x ∈ attrItemsOf v 0 (sortAttrs attrs), x ∈ L)
    (ha : v'.obj.attrs? = some attrs') {ka : Str × Val} (hk : ka ∈ attrs') :
    ∃ j, attrItem v' j ka ∈ L := by
  rcases List.mem_cons.1 h with rfl | h
  · rw [hv] at ha
    injection ha with ha
    subst ha
    obtain ⟨i, hi⟩ := mem_attrItemsOf_mk (v := v') 0 ((sortBy_perm attrs).mem_iff.2 hk)
    exact ⟨i, hL _ hi⟩
  · obtain ⟨i, kb, _, _, _, rfl⟩ := mem_attrItemsOf h
    rw [attrItem_obj] at ha; cases ha

mutual
theorem nodeItems_attrs (env : Env) (parent : Item) (oid : List Nat) {v : Item}
    {attrs : List (Str × Val)} (ha : v.obj.attrs? = some attrs) {ka : Str × Val} (hk : ka ∈ attrs) :
    (n : Node) → v ∈ nodeItems env parent oid n → ∃ j, attrItem v j ka ∈ nodeItems env parent oid n
  | .group n a kids, h => by
    rw [nodeItems] at h ⊢
    rcases List.mem_append.1 h with h | h
    · exact attrs_here (by rfl) h (fun x hx => List.mem_append_left _ (List.mem_cons_of_mem _ hx)) ha hk
    · obtain ⟨j, hj⟩ := kidsItems_attrs env _ oid 0 ha hk kids h
      exact ⟨j, List.mem_append_right _ hj⟩
  | .dataset n a d, h => by
    rw [nodeItems] at h ⊢
    exact attrs_here (by rfl) h (fun x hx => List.mem_cons_of_mem _ hx) ha hk
  | .datatype n a, h => by
    rw [nodeItems] at h ⊢
    exact attrs_here (by rfl) h (fun x hx => List.mem_cons_of_mem _ hx) ha hk
theorem kidsItems_attrs (env : Env) (parent : Item) (oid : List Nat) (i : Nat) {v : Item}
    {attrs : List (Str × Val)} (ha : v.obj.attrs? = some attrs) {ka : Str × Val} (hk : ka ∈ attrs) :
    (ks : Kids) → v ∈ kidsItems env parent oid i ks →
      ∃ j, attrItem v j ka ∈ kidsItems env parent oid i ks
  | .nil, h => by simp [kidsItems] at h
  | .cons l k n rest, h => by
    rw [kidsItems] at h ⊢
    rcases List.mem_append.1 h with h | h
    · obtain ⟨j, hj⟩ := nodeItems_attrs env parent _ ha hk n h
      exact ⟨j, List.mem_append_left _ hj⟩
    · obtain ⟨j, hj⟩ := kidsItems_attrs env parent oid (i + 1) ha hk rest h
      exact ⟨j, List.mem_append_right _ hj⟩
  | .broken l k rest, h => by simp [kidsItems] at h
end

/-- Every attribute of a catalogued object is catalogued. -/
theorem attrs_catalogued {env : Env} {f : H5File} (h : (catalog env f).res = .ok ()) {v : Item}
    (hv : v ∈ (catalog env f).log) {attrs : List (Str × Val)} (ha : v.obj.attrs? = some attrs)
    {ka : Str × Val} (hk : ka ∈ attrs) : ∃ j, attrItem v j ka ∈ (catalog env f).log := by
  rw [catalog_log h, fileItems] at hv ⊢
  rcases List.mem_append.1 hv with hv | hv
  · exact attrs_here (by rfl) hv (fun x hx => List.mem_append_left _ (List.mem_cons_of_mem _ hx)) ha hk
  · obtain ⟨j, hj⟩ := kidsItems_attrs env _ [] 0 ha hk f.kids hv
    exact ⟨j, List.mem_append_right _ hj⟩

/-! ## one attribute -/

theorem attributeVerify_ok_iff {ctx : Ctx} {it owner : Item} {v : Val} (hobj : it.obj = .val v)
    {oa : Str} (ha : it.addr = some (oa ++ '@' :: it.name)) (hp : it.parent = some owner) :
    (attributeVerify ctx it).res = .ok () ↔
      (it.name = s%"NX_class" ∨ it.name = s%"target" → ∃ s, TextOf ctx.env v s) ∧
      (it.name = s%"signal" →
        ((∃ n a d, owner.obj = .node (.dataset n a d)) → FieldSignalOk ctx.env v) ∧
        ((∃ n a ks, owner.obj = .node (.group n a ks)) → ∃ s, TextOf ctx.env v s) ∧
        classReadable ctx.env (some v)) ∧
      (it.name = s%"axes" → ∃ names, AxesOf ctx.env v names ∧
        (names = [] ∨ (∃ g, owner.obj.asGroup = some g) ∧ [] ∉ names)) := by
  rw [attributeVerify, ha]
  have hat : hasAt (oa ++ '@' :: it.name) = true := by rw [hasAt_iff]; simp
  simp only [hat, if_true, hp]
  by_cases h1 : it.name = s%"NX_class"
  · rw [if_pos h1, nxclassHandler_ok_iff hobj, h1]; simp
  by_cases h2 : it.name = s%"target"
  · rw [if_neg h1, if_pos h2, targetHandler_ok_iff hobj, h2]; simp
  by_cases h3 : it.name = s%"signal"
  · rw [if_neg h1, if_neg h2, if_pos h3, signalHandler_ok_iff hobj, h3]
    simp only [List.cons.injEq, Char.reduceEq, and_false, or_self, reduceCtorEq,
      true_implies, false_implies, and_true, true_and]
  by_cases h4 : it.name = s%"axes"
  · rw [if_neg h1, if_neg h2, if_neg h3, if_pos h4, axesHandler_ok_iff hobj, h4]
    simp only [List.cons.injEq, Char.reduceEq, and_false, or_self, reduceCtorEq,
      true_implies, false_implies, true_and]
  · rw [if_neg h1, if_neg h2, if_neg h3, if_neg h4]
    simp only [h1, h2, h3, h4, or_self, false_implies, and_true, iff_true]
    rfl

theorem handleNXClass_ok_iff {ctx : Ctx} (hm : HasClassPattern ctx.mgr) {it : Item} {v : Val}
    (hobj : it.obj = .val v) :
    (handleNXClass ctx it).res = .ok () ↔ ∃ s, TextOf ctx.env v s := by
  obtain ⟨p, ps, hpat⟩ := hm
  simp only [handleNXClass, hpat, hobj]
  rw [lift_text _ _ _ _ (by
    intro d hd
    cases d with
    | str s => exact absurd rfl (hd s)
    | _ => intro h; cases h)]
  constructor
  · rintro ⟨s, h, _⟩; exact ⟨s, h⟩
  · rintro ⟨s, h⟩; exact ⟨s, h, rfl⟩

/-- `@NX_class` at the end of the address of an attribute. -/
theorem ends_class_iff {oa k : Str} :
    s%"@NX_class" <:+ oa ++ '@' :: k ↔ k = s%"NX_class" ∨ s%"@NX_class" <:+ k := by
  constructor
  · intro h
    have h2 : '@' :: k <:+ oa ++ '@' :: k := ⟨oa, rfl⟩
    rcases List.suffix_or_suffix_of_suffix h h2 with h3 | h3
    · rcases List.suffix_cons_iff.1 h3 with h4 | h4
      · injection h4 with _ h4; exact .inl h4.symm
      · exact .inr h4
    · left
      obtain ⟨x, hx⟩ := h3
      cases x with
      | nil => simpa using hx
      | cons c x =>
        exfalso
        rw [List.cons_append, List.cons.injEq] at hx
        have : '@' ∈ s%"NX_class" := by rw [← hx.2]; simp
        revert this
        decide
  · rintro (rfl | h)
    · exact ⟨oa, rfl⟩
    · exact h.trans ⟨oa ++ ['@'], by simp⟩

theorem attrCheckable_iff {env : Env} {owner : H5Obj} {k : Str} {v : Val} :
    AttrCheckable env owner k v ↔
      (k = s%"NX_class" ∨ k = s%"target" ∨ s%"@NX_class" <:+ k → ∃ s, TextOf env v s) ∧
      (k = s%"signal" → ((∃ n a d, owner = .node (.dataset n a d)) → FieldSignalOk env v) ∧
        ((∃ n a ks, owner = .node (.group n a ks)) → ∃ s, TextOf env v s) ∧
        classReadable env (some v)) ∧
      (k = s%"axes" → ∃ names, AxesOf env v names ∧
        (names = [] ∨ (∃ g, owner.asGroup = some g) ∧ [] ∉ names)) :=
  ⟨fun h => ⟨h.text, fun e => ⟨h.fieldSignal e, h.groupSignal e, h.otherSignal e⟩, h.axes⟩,
    fun ⟨h1, h2, h3⟩ => ⟨h1, fun e => (h2 e).1, fun e => (h2 e).2.1, fun e => (h2 e).2.2, h3⟩⟩

/-- An attribute is checked without exception exactly if it is of the expected kind, provided that
the link target of its object can be read. -/
theorem nameAndAttribute_attr_iff {ctx : Ctx} {it owner : Item}
    (hm : it.name = s%"NX_class" ∨ s%"@NX_class" <:+ it.name → HasClassPattern ctx.mgr)
    {v : Val} (hobj : it.obj = .val v) {oa : Str} {attrs : List (Str × Val)}
    (ha : it.addr = some (oa ++ '@' :: it.name)) (hp : it.parent = some owner)
    (hattrs : owner.obj.attrs? = some attrs)
    (ht : ∀ ka ∈ attrs, ka.1 = s%"target" → ∃ s, TextOf ctx.env ka.2 s)
    (hcp : '@' ∈ it.classpath) :
    (nameAndAttribute ctx [] it).res = .ok () ↔ AttrCheckable ctx.env owner.obj it.name v := by
  have hname : (itemNameVerify ctx [] it).res = .ok () ↔
      (it.name = s%"NX_class" ∨ s%"@NX_class" <:+ it.name → ∃ s, TextOf ctx.env v s) := by
    rw [itemNameVerify, hp]
    simp only [List.not_mem_nil, if_false, ha, Option.map_some, Option.getD_some]
    by_cases he : endsWith (oa ++ '@' :: it.name) s%"@NX_class" = true
    · have := ends_class_iff.1 (endsWith_iff.1 he)
      rw [if_pos he, handleNXClass_ok_iff (hm this) hobj]
      exact ⟨fun h _ => h, fun h => h this⟩
    · have hne : ¬ (it.name = s%"NX_class" ∨ s%"@NX_class" <:+ it.name) :=
        fun h => he (endsWith_iff.2 (ends_class_iff.2 h))
      rw [if_neg he, if_pos ((hasAt_iff _).2 hcp)]
      obtain ⟨b, hb⟩ := linkTarget_ok hattrs ht
      rw [hb, W.lift_ok_bind]
      refine ⟨fun _ h => absurd h hne, fun _ => ?_⟩
      split
      · rfl
      · exact handleAnyAttribute_ok ctx it
  rw [nameAndAttribute, W.bind_ok_iff, attrCheckable_iff]
  have hattr := attributeVerify_ok_iff (ctx := ctx) hobj ha hp
  constructor
  · rintro ⟨⟨⟩, h1, h2⟩
    obtain ⟨h3, h4, h5⟩ := hattr.1 h2
    refine ⟨?_, h4, h5⟩
    rintro (h | h | h)
    · exact h3 (.inl h)
    · exact h3 (.inr h)
    · exact hname.1 h1 (.inr h)
  · rintro ⟨h1, h2, h3⟩
    refine ⟨(), hname.2 ?_, hattr.2 ⟨?_, h2, h3⟩⟩
    · rintro (h | h)
      · exact h1 (.inl h)
      · exact h1 (.inr (.inr h))
    · rintro (h | h)
      · exact h1 (.inl h)
      · exact h1 (.inr (.inl h))

/-! ## all items -/

theorem node_name_noAt {env : Env} {f : H5File} (hc : (catalog env f).res = .ok ())
    (hw : WellNamedFile f) {it : Item} (hit : it ∈ (catalog env f).log) {n : Node}
    (hn : it.obj = .node n) : '@' ∉ n.name :=
  catalog_all hc (wellNamedKids_noAt [] (by simp) f.kids hw.2.2) hit hn

/-- Step 1 raises no exception exactly if all attributes of NeXus objects are of the expected
kinds; if there are classes, the definitions must have a pattern for their names. -/
theorem names_completes_of {env : Env} {mgr : Manager} {mins : Dict (Str × Str) Int} {f : H5File}
    (hm : ClassesMatched mgr (catalog env f).log) (hc : (catalog env f).res = .ok ()) (hw : WellNamedFile f) :
    (∀ it ∈ (catalog env f).log, (nameAndAttribute (mkCtx env mgr mins f) [] it).res = .ok ()) ↔
      NamesCheckable env (catalog env f).log := by
  have key : ∀ owner ∈ (catalog env f).log, owner.classpath ≠ nonNeXus →
      ∀ attrs, owner.obj.attrs? = some attrs →
      (∀ it ∈ (catalog env f).log, (nameAndAttribute (mkCtx env mgr mins f) [] it).res = .ok ()) →
      ∀ ka ∈ attrs, ka.1 = s%"target" → ∃ s, TextOf env ka.2 s := by
    intro owner ho hcl attrs ha h ka hka hk
    obtain ⟨j, hj⟩ := attrs_catalogued hc ho ha hka
    have hr := h _ hj
    rw [nameAndAttribute, W.bind_ok_iff] at hr
    obtain ⟨_, _, hr⟩ := hr
    have e : attrItem owner j ka = ⟨⟨(2 * j + 1) :: owner.oid, .val ka.2, ka.1,
        some ((owner.addr.getD s%"None") ++ '@' :: ka.1), owner.classpath ++ '@' :: ka.1, none⟩,
        owner.chain⟩ := by
      rw [attrItem, if_neg hcl]
    have h1 := (attributeVerify_ok_iff (ctx := mkCtx env mgr mins f) (it := attrItem owner j ka)
      (owner := owner) (v := ka.2) (oa := owner.addr.getD s%"None") (attrItem_obj _ _ _)
      (by rw [e]) (attrItem_parent _ _ _)).1 hr
    have hn : (attrItem owner j ka).name = ka.1 := by rw [e]
    rw [hn] at h1
    exact h1.1 (.inr hk)
  constructor
  · intro h owner ho hcl attrs ha ka hka
    have ht := key owner ho hcl attrs ha h
    obtain ⟨j, hj⟩ := attrs_catalogued hc ho ha hka
    have hr := h _ hj
    have hcl' : owner.classpath ≠ nonNeXus := hcl
    have e : attrItem owner j ka = ⟨⟨(2 * j + 1) :: owner.oid, .val ka.2, ka.1,
        some ((owner.addr.getD s%"None") ++ '@' :: ka.1), owner.classpath ++ '@' :: ka.1, none⟩,
        owner.chain⟩ := by
      rw [attrItem, if_neg hcl']
    have hn : (attrItem owner j ka).name = ka.1 := by rw [e]
    have := (nameAndAttribute_attr_iff (ctx := mkCtx env mgr mins f) (it := attrItem owner j ka)
      (hm := fun hk => hm owner ho hcl attrs ha ka hka (by rw [hn] at hk; exact hk))
      (owner := owner) (v := ka.2) (oa := owner.addr.getD s%"None") (attrItem_obj _ _ _)
      (by rw [e]) (attrItem_parent _ _ _) ha ht (by rw [e]; simp)).1 hr
    rw [hn] at this
    exact this
  · intro h it hit
    have ht : ∀ owner ∈ (catalog env f).log, owner.classpath ≠ nonNeXus →
        ∀ attrs, owner.obj.attrs? = some attrs →
        ∀ ka ∈ attrs, ka.1 = s%"target" → ∃ s, TextOf env ka.2 s :=
      fun owner ho hcl attrs ha ka hka hk => (h owner ho hcl attrs ha ka hka).text (.inr (.inl hk))
    have hcat := catalogued hc hit
    cases hobj : it.obj with
    | file g =>
      cases hcat with
      | root => rfl
      | attr j => rw [attrItem_obj] at hobj; cases hobj
      | node _ _ => cases hobj
    | none =>
      cases hcat with
      | root => cases hobj
      | attr j => rw [attrItem_obj] at hobj; cases hobj
      | node _ _ => cases hobj
    | val v =>
      cases ha : it.addr with
      | none =>
        rw [nameAndAttribute, W.bind_ok_iff]
        refine ⟨(), ?_, by rw [attributeVerify, ha]; rfl⟩
        cases hcat with
        | root => cases ha
        | node _ _ => cases hobj
        | @attr owner attrs ka j h1 h2 h3 h4 =>
          have hcl : owner.classpath = nonNeXus := by
            by_contra hn
            rw [attrItem, if_neg hn] at ha
            cases ha
          have e : attrItem owner j ka = ⟨⟨(2 * j + 1) :: owner.oid, .val ka.2, ka.1, none, nonNeXus,
            none⟩, owner.chain⟩ := by rw [attrItem, if_pos hcl]
          rw [itemNameVerify, attrItem_parent]
          rw [e]
          rfl
      | some a =>
        obtain ⟨owner, attrs, oa, h1, h2, h3, h4, h5, h6, h7, h8, h9, h10⟩ :=
          attr_shape hcat hobj ha
        exact (nameAndAttribute_attr_iff (ctx := mkCtx env mgr mins f)
          (fun hk => hm owner h1 h8 attrs h3 _ h4 hk) hobj (by rw [ha, h7]) h2 h3
          (ht owner h1 h8 attrs h3) (by rw [h9]; simp)).2 (h owner h1 h8 attrs h3 _ h4)
    | node n =>
      have hno : '@' ∉ n.name := node_name_noAt hc hw hit hobj
      cases hcat with
      | root => cases hobj
      | attr j => rw [attrItem_obj] at hobj; cases hobj
      | @node p m oid h1 h2 =>
        injection hobj with hobj
        subst hobj
        have haddr : (objItem env (some p) (.node m) m.name oid).addr = some m.name := rfl
        have hat : hasAt m.name = false := by
          rw [Bool.eq_false_iff, ne_eq, hasAt_iff]; exact hno
        rw [nameAndAttribute, W.bind_ok_iff]
        refine ⟨(), ?_, ?_⟩
        · rw [itemNameVerify, objItem_parent]
          simp only [List.not_mem_nil, if_false, haddr, Option.map_some, Option.getD_some]
          have hends : endsWith m.name s%"@NX_class" = false := by
            rw [Bool.eq_false_iff, ne_eq, endsWith_iff]
            rintro ⟨x, hx⟩
            exact hno (by rw [← hx]; simp)
          rw [hends]
          simp only [Bool.false_eq_true, if_false]
          split
          · rename_i hcp
            by_cases h2' : p.classpath = nonNeXus
            · exfalso
              rw [hasAt_iff] at hcp
              have : (objItem env (some p) (.node m) m.name oid).classpath =
                  (cpOf env (some p) (.node m) m.name).1 := rfl
              rw [this, cpOf, determineClasspath] at hcp
              split at hcp
              · exact absurd hcp (by simp [Except.toOption])
              · revert hcp
                show '@' ∉ nonNeXus
                decide
            · have hob : IsObject f p := h2.resolve_right h2'
              obtain ⟨attrs, h3⟩ := hob.attrs
              obtain ⟨b, hb⟩ := linkTarget_ok (env := env) h3 (ht p h1 h2' attrs h3)
              have : isNeXusLinkTarget (mkCtx env mgr mins f).env p = .ok b := hb
              rw [this, W.lift_ok_bind]
              split
              · rfl
              · exact handleAnyAttribute_ok _ _
          · have : (isHdf5Dataset (objItem env (some p) (.node m) m.name oid).obj ||
                isHdf5Group (objItem env (some p) (.node m) m.name oid).obj ||
                isHdf5Link (objItem env (some p) (.node m) m.name oid).obj) = true := by
              have : isHdf5Link (objItem env (some p) (.node m) m.name oid).obj = true := rfl
              rw [this, Bool.or_true]
            rw [if_pos this]
            exact handleGroupsAndFields_ok _ _
        · rw [attributeVerify, haddr]
          simp only [hat, Bool.false_eq_true, if_false]
          rfl

/-- Names and attributes are checked to the end exactly if all attributes of NeXus objects are of the
expected kinds and the definitions have a pattern for the names of their classes. -/
theorem names_completes_iff {env : Env} {mgr : Manager} {mins : Dict (Str × Str) Int} {f : H5File}
    (hc : (catalog env f).res = .ok ()) (hw : WellNamedFile f) :
    (∀ it ∈ (catalog env f).log, (nameAndAttribute (mkCtx env mgr mins f) [] it).res = .ok ()) ↔
      NamesCheckable env (catalog env f).log ∧ ClassesMatched mgr (catalog env f).log := by
  constructor
  · intro h
    have hm : ClassesMatched mgr (catalog env f).log := by
      intro owner ho hcl attrs ha ka hka hk
      obtain ⟨j, hj⟩ := attrs_catalogued hc ho ha hka
      have hr := h _ hj
      rw [nameAndAttribute, W.bind_ok_iff] at hr
      obtain ⟨_, hr, _⟩ := hr
      have hcl' : owner.classpath ≠ nonNeXus := hcl
      have e : attrItem owner j ka = ⟨⟨(2 * j + 1) :: owner.oid, .val ka.2, ka.1,
          some ((owner.addr.getD s%"None") ++ '@' :: ka.1), owner.classpath ++ '@' :: ka.1, none⟩,
          owner.chain⟩ := by
        rw [attrItem, if_neg hcl']
      have haddr : (attrItem owner j ka).addr = some ((owner.addr.getD s%"None") ++ '@' :: ka.1) := by
        rw [e]
      rw [itemNameVerify, attrItem_parent] at hr
      simp only [List.not_mem_nil, if_false, haddr, Option.map_some, Option.getD_some] at hr
      rw [if_pos (endsWith_iff.2 (ends_class_iff.2 hk)), handleNXClass] at hr
      cases hp : (mkCtx env mgr mins f).mgr.classPats with
      | none => rw [hp] at hr; cases hr
      | some l =>
        cases l with
        | nil => rw [hp] at hr; cases hr
        | cons p ps => exact ⟨p, ps, hp⟩
    exact ⟨(names_completes_of hm hc hw).1 h, hm⟩
  · rintro ⟨h, hm⟩
    exact (names_completes_of hm hc hw).2 h

end Punx

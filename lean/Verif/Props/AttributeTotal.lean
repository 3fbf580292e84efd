import Verif.Props.Attribute3

/-!
# C20: name and attribute checks do not stop on ordinary files
-/

namespace Punx
open Spec

theorem takeWhile_at {w : Str} (h : '@' ∉ w) (x : Str) :
    ((x ++ '@' :: w).reverse).takeWhile (· ≠ '@') = w.reverse := by
  rw [List.reverse_append, List.reverse_cons, List.append_assoc]
  rw [List.takeWhile_append_of_pos (by
    intro c hc
    have : c ∈ w := List.mem_reverse.1 hc
    simp only [ne_eq, decide_not, Bool.not_eq_eq_eq_not, Bool.not_true, decide_eq_false_iff_not]
    rintro rfl
    exact h this)]
  simp

theorem ends_class {oa k : Str} (hk : '@' ∉ k) (h : s%"@NX_class" <:+ oa ++ '@' :: k) :
    k = s%"NX_class" := by
  obtain ⟨x, hx⟩ := h
  have h1 := takeWhile_at hk oa
  rw [← hx] at h1
  have h2 := takeWhile_at (w := s%"NX_class") (by decide) x
  rw [h1] at h2
  exact List.reverse_injective h2

theorem attrGet_mem {attrs : List (Str × Val)} {k : Str} {v : Val} (h : attrGet attrs k = some v) :
    (k, v) ∈ attrs := by
  induction attrs with
  | nil => simp [attrGet] at h
  | cons ka l ih =>
    rw [attrGet, List.lookup_cons] at h
    split at h
    · rename_i hk
      injection h with h
      rw [beq_iff_eq] at hk
      subst hk
      subst h
      exact List.mem_cons_self
    · exact List.mem_cons_of_mem _ (ih h)

theorem linkTarget_ok {env : Env} {p : Item} {attrs : List (Str × Val)}
    (ha : p.obj.attrs? = some attrs)
    (ht : ∀ ka ∈ attrs, ka.1 = s%"target" → ∃ s, TextOf env ka.2 s) :
    ∃ b, isNeXusLinkTarget env p = .ok b := by
  rw [isNeXusLinkTarget, ha]
  simp only
  cases hg : attrGet attrs s%"target" with
  | none => exact ⟨false, rfl⟩
  | some v =>
    obtain ⟨s, hs⟩ := ht (_, v) (attrGet_mem hg) rfl
    simp only [decode_of_text hs, bind, Except.bind, valNe]
    exact ⟨_, rfl⟩

theorem handleAnyAttribute_ok (ctx : Ctx) (it : Item) :
    (handleAnyAttribute ctx it).res = .ok () := by
  rw [handleAnyAttribute]; split <;> rfl

theorem handleGroupsAndFields_ok (ctx : Ctx) (it : Item) :
    (handleGroupsAndFields ctx it).res = .ok () := by
  rw [handleGroupsAndFields]
  split
  · rfl
  · split
    · rfl
    · split <;> rfl

theorem targetLoop_total (ctx : Ctx) (it : Item) (addr : Str) (ps : List Str) :
    ∃ b, (targetLoop ctx it addr ps).res = .ok b := by
  induction ps generalizing addr with
  | nil => exact ⟨true, rfl⟩
  | cons p ps ih =>
    rw [targetLoop]
    cases matchKey ctx p with
    | none => exact ⟨false, rfl⟩
    | some k =>
      simp only
      split
      · exact ih _
      · exact ⟨false, rfl⟩

theorem map_some_inj {α : Type} {xs ys : List α} (h : xs.map some = ys.map some) : xs = ys :=
  (List.map_inj_right (fun a b h => by injection h)).1 h

theorem decodeAll_of_map {g : List UInt8 → Option Str} : ∀ {xs : List (List UInt8)} {ss : List Str},
    xs.map g = ss.map some → decodeAll g xs = some ss
  | [], [], _ => rfl
  | [], s :: ss, h => by simp at h
  | x :: xs, [], h => by simp at h
  | x :: xs, s :: ss, h => by
    simp only [List.map_cons, List.cons.injEq] at h
    simp only [decodeAll, h.1, decodeAll_of_map h.2]

/-- The loop over the listed axes does not stop. -/
theorem axes_decoded {env : Env} {v : Val} {names : List Str} (h : AxesOf env v names) :
    ∃ d, decodeByteString env v = .ok d ∧ axesList d = names.map .str := by
  rcases h with ⟨s, hs, rfl⟩ | ⟨hne, rfl⟩ | ⟨bs, rfl, hne, hm⟩ | rfl | ⟨rfl, rfl⟩
  · exact ⟨.str s, decode_of_text hs, rfl⟩
  · refine ⟨.list names, ?_, rfl⟩
    simp only [decodeByteString]
    rw [if_pos (by cases names <;> simp at hne ⊢)]
  · refine ⟨.list names, ?_, rfl⟩
    simp only [decodeByteString]
    rw [if_pos (by cases bs <;> simp at hne ⊢), decodeAll_of_map hm]
  · exact ⟨_, rfl, rfl⟩
  · exact ⟨_, rfl, rfl⟩

theorem axisCheck_total (ctx : Ctx) (it : Item) {owner : H5Obj} {g : Node}
    (hg : owner.asGroup = some g) {s : Str} (hs : s ≠ []) :
    (axisCheck ctx it owner (.str s)).res = .ok () := by
  rw [axisCheck]
  have : matchKeyVal ctx (.str s) = .ok (matchKey ctx s) := rfl
  rw [this, W.lift_ok_bind]
  simp only [record_bind_res]
  rw [objGet, hg]
  simp only [h5get, if_neg hs, W.lift_ok_bind]
  split <;> rfl

theorem attribute_total {ctx : Ctx} {it owner : Item} {v : Val} (hobj : it.obj = .val v) {a : Str}
    (ha : it.addr = some a) (hp : it.parent = some owner)
    (ho : OrdinaryAttr ctx.env owner.obj it.name v) : (attributeVerify ctx it).res = .ok () := by
  rw [attributeVerify, ha]
  simp only []
  split
  · rw [hp]
    simp only []
    split
    · rename_i hn
      obtain ⟨s, hs⟩ := ho.text (.inl hn)
      simp only [nxclassHandler, hobj, decode_of_text hs, W.lift_ok_bind]
      split
      · rfl
      · split <;> rfl
    · split
      · rename_i hn
        obtain ⟨s, hs⟩ := ho.text (.inr hn)
        simp only [targetHandler, hobj, decode_of_text hs, W.lift_ok_bind]
        split
        · obtain ⟨b, hb⟩ := targetLoop_total ctx it [] (split '/' (s.drop 1))
          rw [W.bind_ok_iff]
          refine ⟨b, hb, ?_⟩
          split
          · split <;> rfl
          · rfl
        · rfl
      · split
        · rename_i hn
          simp only [signalHandler, hobj]
          rcases ho.signal hn with ⟨s, hs, hd⟩ | ⟨hd, n, rfl⟩
          · rw [decode_of_text hs, W.lift_ok_bind]
            split
            · rename_i hds
              have : ∃ b, (if ctx.env.isdigit (pyStr ctx.env (.str s)) = true then
                  (do let n ← pyInt ctx.env (.str s); Except.ok (n == 1)) else .ok false :
                  Except PyErr Bool) = .ok b := by
                rw [pyStr]
                split
                · rename_i hdig
                  obtain ⟨n, hn⟩ := hd hds hdig
                  simp only [pyInt, hn, bind, Except.bind]
                  exact ⟨_, rfl⟩
                · exact ⟨_, rfl⟩
              obtain ⟨b, hb⟩ := this
              rw [hb, W.lift_ok_bind]
              split <;> rfl
            · split
              · simp only [record_bind_res]
                split <;> rfl
              · rfl
          · have e : decodeByteString ctx.env (.int n) = .ok (.int n) := rfl
            rw [e, W.lift_ok_bind, if_pos hd]
            have : ∃ b, (if ctx.env.isdigit (pyStr ctx.env (.int n)) = true then
                (do let n ← pyInt ctx.env (.int n); Except.ok (n == 1)) else .ok false :
                Except PyErr Bool) = .ok b := by
              split
              · simp only [pyInt, bind, Except.bind]
                exact ⟨_, rfl⟩
              · exact ⟨_, rfl⟩
            obtain ⟨b, hb⟩ := this
            rw [hb, W.lift_ok_bind]
            split <;> rfl
        · split
          · rename_i hn
            obtain ⟨⟨g, hg⟩, names, hnames, hne⟩ := ho.axes hn
            obtain ⟨d, hd, hx⟩ := axes_decoded hnames
            simp only [axesHandler, hobj, hd, W.lift_ok_bind, hx]
            rw [W.bind_ok_iff]
            refine ⟨(), ?_, rfl⟩
            rw [W.forEach_ok_iff]
            intro x hxm
            obtain ⟨s, hs, rfl⟩ := List.mem_map.1 hxm
            exact axisCheck_total ctx it hg (fun e => hne (e ▸ hs))
          · rfl
  · rfl

theorem name_of_attribute_total {ctx : Ctx} (hm : HasClassPattern ctx.mgr) {it owner : Item}
    {v : Val} (hobj : it.obj = .val v) {oa : Str} {attrs : List (Str × Val)}
    (ha : it.addr = some (oa ++ '@' :: it.name)) (hp : it.parent = some owner)
    (hattrs : owner.obj.attrs? = some attrs)
    (hall : ∀ ka ∈ attrs, OrdinaryAttr ctx.env owner.obj ka.1 ka.2)
    (hmem : (it.name, v) ∈ attrs) (hcp : '@' ∈ it.classpath) :
    (itemNameVerify ctx [] it).res = .ok () := by
  have ho := hall _ hmem
  rw [itemNameVerify, hp]
  simp only [List.not_mem_nil, if_false, ha, Option.map_some, Option.getD_some]
  split
  · rename_i he
    obtain ⟨s, hs⟩ := ho.text (.inl (ends_class ho.name (endsWith_iff.1 he)))
    obtain ⟨p, ps, hpat⟩ := hm
    rw [handleNXClass, hpat]
    simp only [hobj, decode_of_text hs, W.lift_ok_bind]
    rfl
  · rw [if_pos ((hasAt_iff _).2 hcp)]
    obtain ⟨b, hb⟩ := linkTarget_ok hattrs (fun ka hka hk => (hall ka hka).text (.inr hk))
    rw [hb, W.lift_ok_bind]
    split
    · rfl
    · exact handleAnyAttribute_ok ctx it

/-- C20 (`_partial`): for a catalogued file in which all names and attributes are ordinary, the
name and attribute checks of every item finish without exception.  Missing from the full claim:
`signal` of a field as text of digits that `int()` refuses, see `signal_digit_stops`. -/
theorem names_attributes_total_partial {env : Env} {mgr : Manager} {mins : Dict (Str × Str) Int}
    {f : H5File} (hm : HasClassPattern mgr) (hc : (catalog env f).res = .ok ())
    (hf : OrdinaryFile env f) :
    (step1 (mkCtx env mgr mins f) []
      (Dict.values (mkCtx env mgr mins f).classpaths).flatten).res = .ok () := by
  rw [show (Dict.values (mkCtx env mgr mins f).classpaths).flatten =
    step1Items (catalog env f).log from rfl, step1_run hc, W.forEach_ok_iff]
  intro it hit
  rw [mem_step1Items] at hit
  have hattrs : ∀ p ∈ (catalog env f).log, IsObject f p → ∃ attrs, p.obj.attrs? = some attrs ∧
      ∀ ka ∈ attrs, OrdinaryAttr env p.obj ka.1 ka.2 := by
    intro p hp ho
    rcases ho with rfl | ⟨e, q, n, oid, rfl⟩
    · exact ⟨f.attrs, rfl, hf.1⟩
    · exact ⟨n.attrs, rfl, (catalog_all hc hf.2 hp rfl).2⟩
  have hcat := catalogued hc hit
  rw [nameAndAttribute, W.bind_ok_iff]
  cases hobj : it.obj with
  | file g =>
    cases hcat with
    | root => exact ⟨(), rfl, rfl⟩
    | attr j => rw [attrItem_obj] at hobj; cases hobj
    | node _ _ => cases hobj
  | none =>
    cases hcat with
    | root => cases hobj
    | attr j => rw [attrItem_obj] at hobj; cases hobj
    | node _ _ => cases hobj
  | val v =>
    cases ha : it.addr with
    | none =>
      refine ⟨(), ?_, by rw [attributeVerify, ha]; rfl⟩
      cases hcat with
      | root => cases ha
      | node _ _ => cases hobj
      | @attr owner attrs ka j h1 h2 h3 h4 =>
        have hcl : owner.classpath = nonNeXus := by
          by_contra hn
          rw [attrItem, if_neg hn] at ha
          cases ha
        have e : attrItem owner j ka = ⟨⟨(2 * j + 1) :: owner.oid, .val ka.2, ka.1, none, nonNeXus,
          none⟩, owner.chain⟩ := by rw [attrItem, if_pos hcl]
        rw [itemNameVerify, attrItem_parent]
        rw [e]
        rfl
    | some a =>
      obtain ⟨owner, attrs, oa, h1, h2, h3, h4, h5, h6, h7, h8, h9, h10⟩ :=
        attr_shape hcat hobj ha
      obtain ⟨attrs', h3', hall⟩ := hattrs owner h1 h10
      rw [h3] at h3'
      injection h3' with h3'
      subst h3'
      refine ⟨(), ?_, ?_⟩
      · exact name_of_attribute_total (ctx := mkCtx env mgr mins f) hm hobj (by rw [ha, h7]) h2 h3
          hall h4 (by rw [h9]; simp)
      · exact attribute_total (ctx := mkCtx env mgr mins f) hobj ha h2 (hall _ h4)
  | node n =>
    have hno : '@' ∉ n.name := (catalog_all hc hf.2 hit hobj).1
    cases hcat with
    | root => cases hobj
    | attr j => rw [attrItem_obj] at hobj; cases hobj
    | @node p m oid h1 h2 =>
      injection hobj with hobj
      subst hobj
      have haddr : (objItem env (some p) (.node m) m.name oid).addr = some m.name := rfl
      have hat : hasAt m.name = false := by
        rw [Bool.eq_false_iff, ne_eq, hasAt_iff]; exact hno
      refine ⟨(), ?_, ?_⟩
      · rw [itemNameVerify, objItem_parent]
        simp only [List.not_mem_nil, if_false, haddr, Option.map_some, Option.getD_some]
        have hends : endsWith m.name s%"@NX_class" = false := by
          rw [Bool.eq_false_iff, ne_eq, endsWith_iff]
          rintro ⟨x, hx⟩
          exact hno (by rw [← hx]; simp)
        rw [hends]
        simp only [Bool.false_eq_true, if_false]
        split
        · rename_i hcp
          rcases h2 with h2 | h2
          · obtain ⟨attrs, h3, hall⟩ := hattrs p h1 h2
            obtain ⟨b, hb⟩ := linkTarget_ok (env := env) h3
              (fun ka hka hk => (hall ka hka).text (.inr hk))
            have : isNeXusLinkTarget (mkCtx env mgr mins f).env p = .ok b := hb
            rw [this, W.lift_ok_bind]
            split
            · rfl
            · exact handleAnyAttribute_ok _ _
          · exfalso
            rw [hasAt_iff] at hcp
            have : (objItem env (some p) (.node m) m.name oid).classpath =
                (cpOf env (some p) (.node m) m.name).1 := rfl
            rw [this, cpOf, determineClasspath] at hcp
            split at hcp
            · exact absurd hcp (by simp [Except.toOption])
            · revert hcp
              show '@' ∉ nonNeXus
              decide
        · have : (isHdf5Dataset (objItem env (some p) (.node m) m.name oid).obj ||
              isHdf5Group (objItem env (some p) (.node m) m.name oid).obj ||
              isHdf5Link (objItem env (some p) (.node m) m.name oid).obj) = true := by
            have : isHdf5Link (objItem env (some p) (.node m) m.name oid).obj = true := rfl
            rw [this, Bool.or_true]
          rw [if_pos this]
          exact handleGroupsAndFields_ok _ _
      · rw [attributeVerify, haddr]
        simp only [hat, Bool.false_eq_true, if_false]
        rfl

theorem sampleMgr_hasClassPattern : HasClassPattern sampleMgr := ⟨_, _, rfl⟩

theorem nameFile_ordinary : OrdinaryFile sampleEnv nameFile := by
  have none : ∀ o : H5Obj, ∀ ka ∈ ([] : List (Str × Val)), OrdinaryAttr sampleEnv o ka.1 ka.2 := by
    intro o ka h; simp at h
  have cls : ∀ (o : H5Obj) (c : Str), OrdinaryAttr sampleEnv o s%"NX_class" (.str c) := by
    intro o c
    exact ⟨by decide, fun _ => ⟨c, .inl rfl⟩, by intro h; simp at h, by intro h; simp at h⟩
  have units : ∀ (o : H5Obj) (c : Str), OrdinaryAttr sampleEnv o s%"units" (.str c) := by
    intro o c
    exact ⟨by decide, fun _ => ⟨c, .inl rfl⟩, by intro h; simp at h, by intro h; simp at h⟩
  refine ⟨none _, ?_⟩
  simp only [nameFile, entryFile, fieldIn, AllKids, AllNodes, OrdinaryNode, Node.name, Node.attrs,
    List.forall_mem_cons, List.not_mem_nil, false_implies, implies_true, and_true]
  refine ⟨⟨by decide, cls _ _⟩, ⟨by decide, units _ _⟩, by decide, by decide,
    ⟨by decide, cls _ _⟩, by decide⟩

/-- C20 holds of the example with a field, an attribute and a collection. -/
example : (step1 (mkCtx sampleEnv sampleMgr [] nameFile) []
    (Dict.values (mkCtx sampleEnv sampleMgr [] nameFile).classpaths).flatten).res = .ok () :=
  names_attributes_total_partial sampleMgr_hasClassPattern (by rfl) nameFile_ordinary

/-- A run time in which "²" counts as digit (as in Python) but `int("²")` fails. -/
def superEnv : Env := { sampleEnv with
  isdigit := fun s => s == s%"²" || sampleEnv.isdigit s
  int := fun s => if s = s%"²" then none else sampleEnv.int s }

/-- C20 is violated: a field with the text "²" as `signal` stops the validation. -/
theorem signal_digit_stops :
    (validateOpen superEnv sampleMgr []
      (entryFile (fieldIn s%"x" [(s%"signal", .str s%"²")] .nil))).res = .error .valueError := by
  rfl

end Punx

import Verif.Props.Attribute3
import Verif.Spec.Groups

/-!
# C21–C25: group checks
-/

namespace Punx
open Spec

/-! ## C21 -/

/-- C21: which names are usable as a base class: base classes, and contributed definitions
unless they consist of exactly one group (then the check stops); application definitions and
unknown names are not. -/
theorem usedAsBaseClass_spec (mgr : Manager) (c : Str) :
    (usedAsBaseClass mgr c = .ok true ↔ ∃ d, Dict.get? mgr.classes c = some d ∧
      (d.category = .baseClasses ∨ (d.category = .contributed ∧
        ¬ (d.fields = [] ∧ d.links = [] ∧ d.groups.length = 1)))) ∧
    (usedAsBaseClass mgr c = .ok false ↔ ∀ d, Dict.get? mgr.classes c = some d →
      d.category = .applications) ∧
    (usedAsBaseClass mgr c = .error .typeError ↔ ∃ d, Dict.get? mgr.classes c = some d ∧
      d.category = .contributed ∧ d.fields = [] ∧ d.links = [] ∧ d.groups.length = 1) := by
  rw [usedAsBaseClass]
  cases hd : Dict.get? mgr.classes c with
  | none => simp
  | some d =>
    cases hc : d.category with
    | applications => simp [hc]
    | baseClasses => simp [hc]
    | contributed =>
      by_cases hg : d.fields = [] ∧ d.links = [] ∧ d.groups.length = 1
      · simp [hc, hg]
      · have : ¬ (d.fields.length = 0 ∧ d.links.length = 0 ∧ d.groups.length = 1) := by
          simpa using hg
        simp only [this, if_false]
        simp [hc]
        simpa using hg

/-! ## the findings of one group check -/

/-- The lines of a computation. -/
def lines {α : Type} (w : W Eff α) : List Line := (findings w.log).map lineOf

theorem lines_bind {α β : Type} {x : W Eff α} {r : α} (h : x.res = .ok r) (k : α → W Eff β) :
    lines (x >>= k) = lines x ++ lines (k r) := by
  simp [lines, W.bind_log_of_ok h, findings_append]

theorem lines_record (it : Item) (k : Str) (st : Status) (c : Str) :
    lines (record it k st c) = [(it.addr, k, st)] := by
  simp [lines, findings_record, lineOf]

theorem lines_record_bind {β : Type} (it : Item) (k : Str) (st : Status) (c : Str)
    (m : Unit → W Eff β) :
    lines (record it k st c >>= m) = (it.addr, k, st) :: lines (m ()) := by
  simp [lines, findings_record_bind, lineOf]

theorem lines_pure {α : Type} (r : α) : lines (pure r : W Eff α) = [] := rfl

theorem lines_forEach {γ : Type} {l : List γ} {m : γ → W Eff Unit}
    (h : (W.forEach l m).res = .ok ()) : lines (W.forEach l m) = l.flatMap (fun x => lines (m x)) := by
  have h' := W.forEach_ok_iff.1 h
  rw [lines, W.forEach_log h']
  clear h h'
  induction l with
  | nil => rfl
  | cons x l ih => simp [findings_append, lines] at ih ⊢; rw [ih]

/-- The address table finds items by their address. -/
def AddrOk (ctx : Ctx) : Prop :=
  ∀ x i, Dict.get? ctx.addresses (some x) = some i → i.addr = some x

theorem mkCtx_addrOk (env : Env) (mgr : Manager) (mins : Dict (Str × Str) Int) (f : H5File) :
    AddrOk (mkCtx env mgr mins f) := by
  intro x i h
  rw [show (mkCtx env mgr mins f).addresses = addressTable (catalog env f).log from rfl,
    addressTable_last] at h
  have := List.mem_of_getLast? h
  simpa using (List.mem_filter.1 this).2

theorem okIf_pos {P : Prop} (h : P) (no : Status) : okIf P no = .ok := by simp [okIf, h]
theorem okIf_neg {P : Prop} (h : ¬ P) (no : Status) : okIf P no = no := by simp [okIf, h]

theorem enumCheck_lines {env : Env} {spec : AttrSpec} {v v' : Val} {aIt : Item}
    (hd : decodeByteString env v = .ok v') (h : (enumCheck spec v' aIt).res = .ok ()) :
    lines (enumCheck spec v' aIt) = if spec.enums = [] then [] else
      [(aIt.addr, s%"attribute value enumeration", okIf (Enumerated env spec.enums v) .error)] := by
  unfold enumCheck at h ⊢
  by_cases he : spec.enums = []
  · simp [he, lines_pure]
  · have hl : spec.enums.length > 0 := List.length_pos_iff.2 he
    rw [if_pos hl] at h ⊢
    rw [if_neg he]
    cases v' with
    | str s =>
      have ht : TextOf env v s := decode_text hd
      by_cases hs : s ∈ spec.enums
      · simp only [hs, if_true, lines_record]
        rw [okIf_pos ⟨s, ht, hs⟩]
      · simp only [hs, if_false, lines_record]
        rw [okIf_neg]
        rintro ⟨t, h1, h2⟩
        exact hs (textOf_unique ht h1 ▸ h2)
    | _ => simp at h

theorem childExists_lines {ctx : Ctx} {test : Str} {v v' : Val} {it aIt : Item} {g : Node}
    (hg : it.obj.asGroup = some g)
    (hd : decodeByteString ctx.env v = .ok v') (h : (childExists ctx test v' it aIt).res = .ok ()) :
    lines (childExists ctx test v' it aIt) =
      [(aIt.addr, test, okIf (NamesMember ctx.env ctx.file g v) .error)] := by
  rw [childExists] at h ⊢
  cases v' with
  | str s =>
    have ht : TextOf ctx.env v s := decode_text hd
    simp only [objContains, hg, W.lift_ok_bind] at h ⊢
    rw [W.bind_ok_iff] at h
    obtain ⟨b, hb, _⟩ := h
    rw [W.lift_res] at hb
    rw [hb, W.lift_ok_bind]
    by_cases hs : h5contains ctx.file g s = true
    · simp only [hs, if_true, lines_record]
      rw [okIf_pos ⟨s, ht, hs⟩]
    · simp only [hs]
      rw [okIf_neg]
      · rfl
      · rintro ⟨t, h1, h2⟩
        exact hs (textOf_unique ht h1 ▸ h2)
  | _ => simp [objContains] at h

theorem groupAttrCheck_lines {ctx : Ctx} (hA : AddrOk ctx) {it : Item} {a : Str} {g : Node}
    {cls : ClassDef} {ka : Str × Val} (ha : it.addr = some a) (hg : it.obj.asGroup = some g)
    (h : (groupAttrCheck ctx it cls ka).res = .ok ()) :
    lines (groupAttrCheck ctx it cls ka) =
      attrLines ctx.env ctx.file g a it.classpath cls ka := by
  rw [groupAttrCheck] at h ⊢
  rw [W.bind_ok_iff] at h
  obtain ⟨v', hv', h⟩ := h
  rw [W.lift_res] at hv'
  rw [hv', W.lift_ok_bind]
  simp only [addrStr, ha, W.lift_ok_bind] at h ⊢
  rw [attrLines]
  cases hai : Dict.get? ctx.addresses (some (a ++ s%"@" ++ ka.1)) with
  | none => rw [hai] at h; simp at h
  | some aIt =>
    rw [hai] at h
    have haa : aIt.addr = some (a ++ '@' :: ka.1) := by rw [hA _ _ hai]; simp
    simp only [record_bind_res] at h
    simp only [lines_record_bind, haa]
    congr 1
    cases hs : Dict.get? cls.attrs ka.1 with
    | none => simp [lines_pure]
    | some spec =>
      simp only [hs] at h ⊢
      rw [W.bind_ok_iff] at h
      obtain ⟨⟨⟩, h1, h⟩ := h
      rw [lines_bind h1, enumCheck_lines hv' h1, haa]
      congr 1
      by_cases k1 : ka.1 = s%"default" ∧ it.classpath ∈ defaultClasspaths
      · rw [if_pos k1] at h ⊢
        have hp : PointsInside it.classpath ka.1 := by
          right; refine ⟨k1.1, ?_⟩
          simpa [defaultClasspaths, DefaultMatters] using k1.2
        have hx : ka.1 ≠ s%"axes" := by rw [k1.1]; decide
        rw [childExists_lines hg hv' h, if_neg hx, if_pos hp, haa, k1.1]
        rfl
      · rw [if_neg k1] at h ⊢
        by_cases k2 : ka.1 = s%"signal"
        · rw [if_pos k2] at h ⊢
          have hp : PointsInside it.classpath ka.1 := .inl k2
          have hx : ka.1 ≠ s%"axes" := by rw [k2]; decide
          rw [childExists_lines hg hv' h, if_neg hx, if_pos hp, haa, k2]
          rfl
        · have hp : ¬ PointsInside it.classpath ka.1 := by
            rintro (e | ⟨e1, e2⟩)
            · exact k2 e
            · exact k1 ⟨e1, by simpa [defaultClasspaths, DefaultMatters] using e2⟩
          rw [if_neg k2] at h ⊢
          by_cases k3 : ka.1 = s%"target"
          · rw [if_pos k3] at h; simp at h
          · rw [if_neg k3] at h ⊢
            by_cases k4 : ka.1 = s%"axes"
            · rw [if_pos k4, if_pos k4]; rfl
            · rw [if_neg k4, if_neg k4, if_neg hp, lines_record, haa]

theorem childCheck_lines {ctx : Ctx} (hA : AddrOk ctx) {cls : ClassDef} {kid : Str × Option Node}
    (h : (childCheck ctx cls kid).res = .ok ()) :
    ∃ n, kid.2 = some n ∧ lines (childCheck ctx cls kid) = [memberLine n] := by
  rw [childCheck] at h ⊢
  cases hk : kid.2 with
  | none => rw [hk] at h; simp at h
  | some n =>
    refine ⟨n, rfl, ?_⟩
    rw [hk] at h
    simp only at h ⊢
    cases hs : Dict.get? ctx.addresses (some n.name) with
    | none => rw [hs] at h; simp at h
    | some sub =>
      have := hA _ _ hs
      cases n <;> simp only [lines_record, memberLine, this] <;> rfl

theorem groupChildren_lines {ctx : Ctx} (hA : AddrOk ctx) {cls : ClassDef}
    {l : List (Str × Option Node)} (h : (W.forEach l (childCheck ctx cls)).res = .ok ()) :
    lines (W.forEach l (childCheck ctx cls)) = (l.filterMap (·.2)).map memberLine := by
  rw [lines_forEach h]
  have h' := W.forEach_ok_iff.1 h
  clear h
  induction l with
  | nil => rfl
  | cons kid l ih =>
    obtain ⟨n, hn, e⟩ := childCheck_lines hA (h' kid (by simp))
    rw [List.flatMap_cons, ih (fun x hx => h' x (by simp [hx])), e, List.filterMap_cons, hn]
    rfl

theorem baseField_lines {ctx : Ctx} {it : Item} {a : Str} {g : Node} (ha : it.addr = some a)
    (hg : it.obj.asGroup = some g) (fld : Str × FieldSpec) :
    lines (baseFieldCheck ctx it fld) = [(some a, s%"NXDL field in data file",
      okIf (h5contains ctx.file g fld.1 = true) .optional)] := by
  rw [baseFieldCheck]
  simp only [objContains, hg, addrStr, ha, W.lift_ok_bind]
  by_cases hs : h5contains ctx.file g fld.1 = true
  · simp only [hs, if_true, lines_record, ha, okIf]
  · simp only [hs, okIf, Bool.false_eq_true, if_false, lines_record, ha]

theorem baseGroup_lines {ctx : Ctx} {it : Item} {a c : Str} {g : Node} (ha : it.addr = some a)
    (hg : it.obj.asGroup = some g) {grp : Str × GroupSpec}
    (h : (baseGroupCheck ctx it c grp).res = .ok ()) :
    lines (baseGroupCheck ctx it c grp) = [(some a, s%"NXDL group in data file",
      okIf (h5contains ctx.file g grp.1 = true) .optional)] := by
  rw [baseGroupCheck] at h ⊢
  simp only [objContains, hg, addrStr, ha, W.lift_ok_bind] at h ⊢
  by_cases hs : h5contains ctx.file g grp.1 = true
  · simp only [hs, if_true] at h ⊢
    rw [W.bind_ok_iff] at h
    obtain ⟨⟨⟩, h1, h⟩ := h
    rw [W.bind_ok_iff] at h
    obtain ⟨n, h2, h⟩ := h
    rw [W.lift_res] at h2
    rw [lines_record_bind, h2, W.lift_ok_bind, ha]
    simp [lines, findings, okIf]
  · simp only [hs, Bool.false_eq_true, if_false] at h ⊢
    rw [W.bind_ok_iff] at h
    obtain ⟨⟨⟩, h1, h⟩ := h
    rw [W.bind_ok_iff] at h
    obtain ⟨n, h2, h⟩ := h
    rw [W.lift_res] at h2
    rw [lines_record_bind, h2, W.lift_ok_bind, ha]
    simp [lines, findings, okIf]

theorem flatMap_singleton' {α β : Type} (l : List α) (k : α → β) :
    l.flatMap (fun x => [k x]) = l.map k := by
  induction l with
  | nil => rfl
  | cons x l ih => simp [ih]

theorem sortKeys_names {β : Type} (d : Dict Str β) :
    (sortKeys d).map (·.1) = sortNames (d.map (·.1)) :=
  sortBy_map (·.1) (fun _ _ => rfl) d

theorem baseItems_lines {ctx : Ctx} {it : Item} {a c : Str} {g : Node} {cls : ClassDef}
    (ha : it.addr = some a) (hg : it.obj.asGroup = some g)
    (h : (baseItems ctx it c cls).res = .ok ()) :
    lines (baseItems ctx it c cls) =
      definedLines ctx.file g a s%"NXDL field in data file" (cls.fields.map (·.1)) ++
      definedLines ctx.file g a s%"NXDL group in data file" (cls.groups.map (·.1)) := by
  rw [baseItems, W.bind_ok_iff] at h
  obtain ⟨⟨⟩, h1, h2⟩ := h
  rw [baseItems, lines_bind h1, lines_forEach h1, lines_forEach h2]
  congr 1
  · simp only [baseField_lines ha hg]
    rw [flatMap_singleton', definedLines, ← sortKeys_names, List.map_map]
    rfl
  · have h2' := W.forEach_ok_iff.1 h2
    rw [definedLines, ← sortKeys_names, List.map_map]
    clear h1 h2
    generalize sortKeys cls.groups = l at h2' ⊢
    induction l with
    | nil => rfl
    | cons x l ih =>
      rw [List.flatMap_cons, baseGroup_lines ha hg (h2' x (by simp)),
        ih (fun y hy => h2' y (by simp [hy]))]
      rfl

/-- The members listed by h5py are those of the group node. -/
theorem groupKids_members {o : H5Obj} {g : Node} (hg : o.asGroup = some g) :
    (groupKids o).filterMap (·.2) = members g ∧ o.attrs? = some g.attrs := by
  cases o with
  | file f => simp only [H5Obj.asGroup, Option.some.injEq] at hg; subst hg; exact ⟨rfl, rfl⟩
  | node n =>
    cases n with
    | group n a k => simp only [H5Obj.asGroup, Option.some.injEq] at hg; subst hg; exact ⟨rfl, rfl⟩
    | _ => simp [H5Obj.asGroup] at hg
  | _ => simp [H5Obj.asGroup] at hg

/-- The class that the code looks up. -/
def CheckedClass (it : Item) (c : Str) : Prop :=
  (it.classpath = [] ∧ c = s%"NXroot") ∨ (it.classpath ≠ [] ∧ it.nxClass = some c)

theorem nxClassAttribute_lines {ctx : Ctx} {it : Item} {a c : Str} (ha : it.addr = some a)
    (h : (nxClassAttribute ctx it c).res = .ok ()) :
    lines (nxClassAttribute ctx it c) =
      match Dict.get? ctx.mgr.classes c with
      | none => [(some a, s%"known NXDL", .error)]
      | some d => [(some a, s%"known NXDL", .ok),
          (some a, s%"NeXus base class", okIf (d.category ≠ .applications) .error)] := by
  rw [nxClassAttribute] at h ⊢
  simp only [record_bind_res] at h
  simp only [lines_record_bind, ha]
  cases hd : Dict.get? ctx.mgr.classes c with
  | none => simp [lines_pure, tfResult]
  | some d =>
    simp only [hd] at h ⊢
    rw [W.bind_ok_iff] at h
    obtain ⟨b, hb, _⟩ := h
    rw [W.lift_res] at hb
    rw [hb, W.lift_ok_bind, lines_record, ha]
    rw [usedAsBaseClass, hd] at hb
    simp only [Option.isSome_some, tfResult]
    congr 3
    cases hc : d.category with
    | applications => simp [hc] at hb; subst hb; simp [okIf]
    | baseClasses => simp [hc] at hb; subst hb; simp [okIf]
    | contributed =>
      simp only [hc] at hb
      split at hb
      · cases hb
      · injection hb with hb; subst hb; simp [okIf]

/-- The whole report on one NeXus group. -/
theorem validateGroup_lines {ctx : Ctx} (hA : AddrOk ctx) {it : Item} {a : Str} {g : Node}
    (ha : it.addr = some a) (hg : it.obj.asGroup = some g) (hn : it.classpath ≠ nonNeXus)
    (h : (validateGroup ctx it).res = .ok ()) :
    ∃ c, CheckedClass it c ∧
      lines (validateGroup ctx it) =
        groupLines ctx.env ctx.file ctx.mgr.classes g a it.classpath c := by
  rw [validateGroup, if_neg hn] at h
  rw [validateGroup, if_neg hn]
  rw [W.bind_ok_iff] at h
  obtain ⟨c, hc, h⟩ := h
  rw [W.lift_res] at hc
  rw [hc, W.lift_ok_bind]
  refine ⟨c, ?_, ?_⟩
  · by_cases h1 : startsWith it.classpath s%"/NX" = true
    · rw [if_pos h1] at hc
      cases hx : it.nxClass with
      | none => rw [hx] at hc; cases hc
      | some c' =>
        rw [hx] at hc
        injection hc with hc
        subst hc
        refine .inr ⟨?_, hx⟩
        intro e
        rw [e] at h1
        simp [startsWith] at h1
    · rw [if_neg h1] at hc
      by_cases h2 : it.classpath = []
      · rw [if_pos h2] at hc
        injection hc with hc
        exact .inl ⟨h2, hc.symm⟩
      · rw [if_neg h2] at hc; cases hc
  · clear hc
    rw [W.bind_ok_iff] at h
    obtain ⟨⟨⟩, h1, h⟩ := h
    rw [lines_bind h1, nxClassAttribute_lines ha h1, groupLines]
    cases hd : Dict.get? ctx.mgr.classes c with
    | none => simp [lines_record, ha]
    | some d =>
      simp only [hd] at h ⊢
      obtain ⟨e1, e2⟩ := groupKids_members hg
      rw [W.bind_ok_iff] at h
      obtain ⟨⟨⟩, h2, h⟩ := h
      rw [W.bind_ok_iff] at h
      obtain ⟨⟨⟩, h3, h⟩ := h
      rw [W.bind_ok_iff] at h
      obtain ⟨⟨⟩, h4, h⟩ := h
      rw [lines_bind h2, lines_bind h3, lines_bind h4, lines_record, ha,
        baseItems_lines ha hg h4]
      rw [groupAttributes, e2] at h2 ⊢
      rw [groupChildren] at h3 ⊢
      rw [groupChildren_lines hA h3, e1]
      have h2' := W.forEach_ok_iff.1 h2
      rw [lines_forEach h2]
      have : (sortAttrs g.attrs).flatMap (fun x => lines (groupAttrCheck ctx it d x)) =
          (sortByName g.attrs).flatMap (attrLines ctx.env ctx.file g a it.classpath d) := by
        rw [show sortByName g.attrs = sortAttrs g.attrs from rfl]
        clear h2 h3 h4 h
        generalize sortAttrs g.attrs = l at h2' ⊢
        induction l with
        | nil => rfl
        | cons x l ih =>
          rw [List.flatMap_cons, List.flatMap_cons, ih (fun y hy => h2' y (by simp [hy])),
            groupAttrCheck_lines hA ha hg (h2' x (by simp))]
      rw [this]
      simp

end Punx

import Verif.Props.Group3

/-!
# C23, C35: undefined content, non-NeXus content; examples for the group checks
-/

namespace Punx
open Spec

/-- A finding of a group test is a line of the report on some group. -/
theorem finding_of_group {env : Env} {mgr : Manager} {mins : Dict (Str × Str) Int} {f : H5File}
    (h : (validateOpen env mgr mins f).res = .ok ()) {x : Finding}
    (hx : x ∈ findings (validateOpen env mgr mins f).log) (hg : GroupTest x.test)
    (hk : x.test ≠ s%"known NXDL") :
    ∃ it ∈ (addressed env f).filter Item.isGroup, ∃ ls, ReportOn env mgr f it ls ∧ lineOf x ∈ ls := by
  obtain ⟨A, S, B, e, hA, hB, parts, hS, hparts⟩ := group_findings_run h
  rw [e, List.mem_append, List.mem_append] at hx
  rcases hx with (hx | hx) | hx
  · exact absurd hg (hA x hx)
  · have : lineOf x ∈ parts.flatten := hS ▸ List.mem_map.2 ⟨x, hx, rfl⟩
    obtain ⟨ls, h1, h2⟩ := List.mem_flatten.1 this
    clear e hA hB hS this
    generalize (addressed env f).filter Item.isGroup = its at hparts
    induction hparts with
    | nil => simp at h1
    | @cons i ls' its parts hr _ ih =>
      rcases List.mem_cons.1 h1 with rfl | h1
      · exact ⟨i, by simp, ls, hr, h2⟩
      · obtain ⟨i, hi, r⟩ := ih h1
        exact ⟨i, by simp [hi], r⟩
  · exact absurd (hB x hx hg) hk

/-- C23: whatever the file contains, the checks of attributes, fields and groups against the
base class only give OK: something undefined is never reported as ERROR or WARN. -/
theorem undefined_never_error {env : Env} {mgr : Manager} {mins : Dict (Str × Str) Int} {f : H5File}
    (h : (validateOpen env mgr mins f).res = .ok ()) {x : Finding}
    (hx : x ∈ findings (validateOpen env mgr mins f).log)
    (ht : x.test = s%"known attribute" ∨ x.test = s%"field in base class" ∨
      x.test = s%"group in base class") : x.status = .ok := by
  have hg : GroupTest x.test := by rcases ht with ht | ht | ht <;> rw [ht] <;> constructor
  have hk : x.test ≠ s%"known NXDL" := by rcases ht with ht | ht | ht <;> rw [ht] <;> decide
  obtain ⟨it, _, ls, hr, hl⟩ := finding_of_group h hx hg hk
  have hl1 : (lineOf x).2.1 = x.test := rfl
  have goal : (lineOf x).2.2 = .ok := by
    rcases hr with ⟨_, rfl⟩ | ⟨_, g, a, c, _, _, _, rfl⟩
    · simp at hl; rw [hl]
    · rw [← hl1] at ht
      generalize lineOf x = l at hl ht
      rw [groupLines] at hl
      split at hl
      · simp at hl; rcases hl with rfl | rfl <;> simp at ht
      · simp only [List.mem_append] at hl
        rcases hl with ((((hl | hl) | hl) | hl) | hl) | hl
        · simp at hl; rcases hl with rfl | rfl <;> simp at ht
        · obtain ⟨ka, _, hl⟩ := List.mem_flatMap.1 hl
          rw [attrLines] at hl
          rcases List.mem_cons.1 hl with rfl | hl
          · rfl
          · exfalso
            split at hl
            · simp at hl
            · rcases List.mem_append.1 hl with hl | hl
              · split at hl
                · simp at hl
                · simp at hl; subst hl; simp at ht
              · split at hl
                · simp at hl
                · split at hl <;> (simp at hl; subst hl; simp at ht)
        · obtain ⟨n, _, rfl⟩ := List.mem_map.1 hl
          cases n <;> first | rfl | simp [memberLine] at ht
        · obtain ⟨n, _, rfl⟩ := List.mem_map.1 hl
          simp at ht
        · obtain ⟨n, _, rfl⟩ := List.mem_map.1 hl
          simp at ht
        · simp at hl; subst hl; simp at ht
  exact goal

/-- C23: members of a NeXus group with a known class are reported one by one, in order and
together, OK as field or group of the class (a named datatype gives TODO). -/
theorem members_reported {env : Env} {mgr : Manager} {mins : Dict (Str × Str) Int} {f : H5File}
    (h : (validateOpen env mgr mins f).res = .ok ()) (hw : WellNamedFile f) {it : Item}
    (hit : it ∈ (catalog env f).log) (hn : it.classpath ≠ s%"non-NeXus content") {g : Node}
    (hg : it.obj.asGroup = some g) {c : Str} (hc : GroupClass env it.classpath g.attrs c)
    {d : ClassDef} (hd : Dict.get? mgr.classes c = some d) :
    (members g).map memberLine <:+: (findings (validateOpen env mgr mins f).log).map lineOf := by
  have cc := completed h
  obtain ⟨A, S, B, e, hA, hB, parts, hS, hparts⟩ := group_findings_run h
  rw [addressed_groups cc.catalog hw] at hparts
  have hmem : it ∈ (catalog env f).log.filter Item.isGroup :=
    List.mem_filter.2 ⟨hit, Item.isGroup_iff.2 ⟨g, hg⟩⟩
  have : ∃ ls ∈ parts, ReportOn env mgr f it ls := by
    clear e hA hB hS
    generalize (catalog env f).log.filter Item.isGroup = l at hparts hmem
    induction hparts with
    | nil => simp at hmem
    | @cons i ls its parts hr _ ih =>
      rcases List.mem_cons.1 hmem with rfl | hmem
      · exact ⟨ls, by simp, hr⟩
      · obtain ⟨ls', h1, h2⟩ := ih hmem
        exact ⟨ls', by simp [h1], h2⟩
  obtain ⟨ls, hls, hr⟩ := this
  rcases hr with ⟨h1, _⟩ | ⟨_, g2, a2, c2, hg2, ha2, hc2, rfl⟩
  · exact absurd h1 hn
  · rw [hg] at hg2
    injection hg2 with hg2
    subst hg2
    rw [← groupClass_unique hc hc2] at hls
    have i1 : (members g).map memberLine <:+:
        groupLines env f mgr.classes g a2 it.classpath c := by
      rw [groupLines, hd]
      simp only [List.append_assoc]
      refine List.IsInfix.trans ?_ (List.suffix_append _ _).isInfix
      refine List.IsInfix.trans ?_ (List.suffix_append _ _).isInfix
      exact (List.prefix_append _ _).isInfix
    have i2 : groupLines env f mgr.classes g a2 it.classpath c <:+: parts.flatten :=
      List.infix_of_mem_flatten hls
    rw [e, List.map_append, List.map_append, hS]
    exact i1.trans (i2.trans ⟨_, _, rfl⟩)

/-! ## the comments -/

theorem mem_findings {x : Finding} {effs : List Eff} (h : x ∈ findings effs) :
    ∃ o k, Eff.found o k x ∈ effs := by
  rw [findings, List.mem_filterMap] at h
  obtain ⟨e, he, hx⟩ := h
  cases e with
  | found o k y => simp only [Option.some.injEq] at hx; subst hx; exact ⟨o, k, he⟩
  | setMin c g n => cases hx

theorem emits_mem {α : Type} {w : W Eff α} {R : Item → Str → Status → Prop} (h : Emits R w)
    {o : List Nat} {k : Str} {x : Finding} (hx : Eff.found o k x ∈ w.log) :
    ∃ i, R i x.test x.status := by
  rcases h _ hx with ⟨i, k', st, c, e, hr⟩ | ⟨c, g, n, e⟩
  · injection e with e1 e2 e3
    subst e3
    exact ⟨i, hr⟩
  · cases e

/-- Where a finding about a member of a group comes from. -/
theorem member_finding_source {ctx : Ctx} {it : Item} {o : List Nat} {k : Str} {x : Finding}
    (h : Eff.found o k x ∈ (validateGroup ctx it).log)
    (ht : x.test = s%"field in base class" ∨ x.test = s%"group in base class") :
    ∃ c d kid, CheckedClass it c ∧ Dict.get? ctx.mgr.classes c = some d ∧
      kid ∈ groupKids it.obj ∧ Eff.found o k x ∈ (childCheck ctx d kid).log := by
  have no : ∀ {α : Type} {w : W Eff α} {R : Item → Str → Status → Prop}, Emits R w →
      (∀ i t st, R i t st → t ≠ s%"field in base class" ∧ t ≠ s%"group in base class") →
      Eff.found o k x ∉ w.log := by
    intro α w R hE hR hm
    obtain ⟨i, hr⟩ := emits_mem hE hm
    have := hR _ _ _ hr
    rcases ht with ht | ht
    · exact this.1 ht
    · exact this.2 ht
  have e1 : ∀ c, Emits (fun i t _ => t = s%"known NXDL" ∨ t = s%"NeXus base class")
      (nxClassAttribute ctx it c) := by
    intro c
    unfold nxClassAttribute
    emits
    · exact .inl rfl
    · exact .inr rfl
  have e2 : ∀ d, Emits (fun i t _ => t = s%"known attribute" ∨
      t = s%"attribute value enumeration" ∨ ∃ l, t = s%"value of @" ++ l) (groupAttributes ctx it d) := by
    intro d
    unfold groupAttributes groupAttrCheck enumCheck childExists
    emits
    all_goals first
      | exact .inl rfl
      | exact .inr (.inl rfl)
      | exact .inr (.inr ⟨_, rfl⟩)
  have e3 : ∀ c d, Emits (fun i t _ => t = s%"NXDL field in data file" ∨
      t = s%"NXDL group in data file") (baseItems ctx it c d) := by
    intro c d
    unfold baseItems baseFieldCheck baseGroupCheck
    emits
    all_goals first
      | exact .inl rfl
      | exact .inr rfl
  rw [validateGroup] at h
  split at h
  · exfalso
    refine no (R := fun _ t _ => t = s%"NeXus_group") ?_ ?_ h
    · emits; rfl
    · rintro i t st rfl; decide
  · rename_i hn
    rw [W.mem_bind_log] at h
    rcases h with h | ⟨c, hc, h⟩
    · simp at h
    · rw [W.lift_res] at hc
      have hcc : CheckedClass it c := by
        by_cases h1 : startsWith it.classpath s%"/NX" = true
        · rw [if_pos h1] at hc
          cases hx : it.nxClass with
          | none => rw [hx] at hc; cases hc
          | some c' =>
            rw [hx] at hc
            injection hc with hc
            subst hc
            refine .inr ⟨?_, hx⟩
            intro e
            rw [e] at h1
            simp [startsWith] at h1
        · rw [if_neg h1] at hc
          by_cases h2 : it.classpath = []
          · rw [if_pos h2] at hc
            injection hc with hc
            exact .inl ⟨h2, hc.symm⟩
          · rw [if_neg h2] at hc; cases hc
      rw [W.mem_bind_log] at h
      rcases h with h | ⟨_, _, h⟩
      · refine absurd h (no (e1 c) ?_)
        rintro i t st (rfl | rfl) <;> decide
      · cases hd : Dict.get? ctx.mgr.classes c with
        | none =>
          rw [hd] at h
          refine absurd h (no (R := fun _ t _ => t = s%"NeXus base class") ?_ ?_)
          · emits; rfl
          · rintro i t st rfl; decide
        | some d =>
          simp only [hd] at h
          refine ⟨c, d, ?_⟩
          rw [W.mem_bind_log] at h
          rcases h with h | ⟨_, _, h⟩
          · refine absurd h (no (e2 d) ?_)
            rintro i t st (rfl | rfl | ⟨l, rfl⟩) <;> simp
          · rw [W.mem_bind_log] at h
            rcases h with h | ⟨_, _, h⟩
            · rw [groupChildren] at h
              obtain ⟨kid, h1, h2⟩ := W.mem_forEach_log h
              exact ⟨kid, hcc, hd, h1, h2⟩
            · rw [W.mem_bind_log] at h
              rcases h with h | ⟨_, _, h⟩
              · refine absurd h (no (e3 c d) ?_)
                rintro i t st (rfl | rfl) <;> decide
              · refine absurd h (no (R := fun _ t _ => t = s%"NeXus base class") ?_ ?_)
                · emits; rfl
                · rintro i t st rfl; decide

/-- The links of a group. -/
def Spec.linksOf : Node → List (Str × Option Node)
  | .group _ _ ks => ks.toList
  | _ => []

theorem groupKids_links {o : H5Obj} {g : Node} (hg : o.asGroup = some g) :
    groupKids o = linksOf g := by
  cases o with
  | file f => simp only [H5Obj.asGroup, Option.some.injEq] at hg; subst hg; rfl
  | node n =>
    cases n with
    | group n a k => simp only [H5Obj.asGroup, Option.some.injEq] at hg; subst hg; rfl
    | _ => simp [H5Obj.asGroup] at hg
  | _ => simp [H5Obj.asGroup] at hg

/-- C23: what the findings on members say.  Each one is about a dataset or a group linked in a
catalogued NeXus group whose class is known, and says "defined" exactly if the class lists a
field (or group) with the name of the link. -/
theorem member_comment {env : Env} {mgr : Manager} {mins : Dict (Str × Str) Int} {f : H5File}
    (h : (validateOpen env mgr mins f).res = .ok ()) {x : Finding}
    (hx : x ∈ findings (validateOpen env mgr mins f).log)
    (ht : x.test = s%"field in base class" ∨ x.test = s%"group in base class") :
    ∃ it ∈ (catalog env f).log, ∃ g c d l n,
      it.obj.asGroup = some g ∧ GroupClass env it.classpath g.attrs c ∧
      Dict.get? mgr.classes c = some d ∧ (l, some n) ∈ linksOf g ∧
      x.addr = some n.name ∧ x.status = .ok ∧
      ((∃ a b e, n = .dataset a b e ∧ x.test = s%"field in base class" ∧
        x.comment = (if l ∈ d.fields.map (·.1) then s%"defined: " else s%"not defined: ") ++
          d.title ++ s%"/" ++ l) ∨
       (∃ a b e, n = .group a b e ∧ x.test = s%"group in base class" ∧
        x.comment = (if l ∈ d.groups.map (·.1) then s%"defined: " else s%"not defined: ") ++
          d.title ++ s%"/" ++ l)) := by
  have c := completed h
  have hgt : GroupTest x.test := by rcases ht with ht | ht <;> rw [ht] <;> constructor
  have hnk : x.test ≠ s%"known NXDL" := by rcases ht with ht | ht <;> rw [ht] <;> decide
  obtain ⟨m, hlog, _, _⟩ := c.log
  rw [hlog, findings_append, findings_append, findings_append] at hx
  simp only [List.mem_append] at hx
  have hx2 : x ∈ findings (step2 (mkCtx env mgr mins f)).log := by
    rcases hx with ((hx | hx) | hx) | hx
    · exfalso
      rw [findings_flatMap, List.mem_flatMap] at hx
      obtain ⟨it, _, hx⟩ := hx
      obtain ⟨i, _, hk | hk⟩ := emits_findings (emits_nameAndAttribute _ [] it) hx
      · exact name_not_group (hk ▸ hgt)
      · exact hk.not_group hgt
    · exact hx
    · exfalso
      obtain ⟨i, hk⟩ := emits_findings (emits_step3 _) hx
      exact hnk (hk.group hgt)
    · exfalso
      obtain ⟨i, hk⟩ := emits_findings (emits_defaultPlot _ _) hx
      exact hk.2.not_group hgt
  obtain ⟨o, k, he⟩ := mem_findings hx2
  obtain ⟨it, hit, he⟩ := W.mem_forEach_log he
  have hitc : it ∈ (catalog env f).log := mem_addressed hit
  split at he
  · rename_i hgr
    obtain ⟨g, hg⟩ := Item.isGroup_iff.1 (show it.isGroup = true from hgr)
    obtain ⟨cc, d, kid, h1, h2, h3, h4⟩ := member_finding_source he ht
    have hcl := (catalogued_group c.catalog hitc hg).2 cc h1
    rw [groupKids_links hg] at h3
    obtain ⟨l, nd⟩ := kid
    rw [childCheck] at h4
    cases nd with
    | none => simp at h4
    | some n =>
      refine ⟨it, hitc, g, cc, d, l, n, hg, hcl, h2, h3, ?_⟩
      simp only at h4
      cases hs : Dict.get? (mkCtx env mgr mins f).addresses (some n.name) with
      | none => rw [hs] at h4; simp at h4
      | some sub =>
        have haddr := mkCtx_addrOk env mgr mins f _ _ hs
        rw [hs] at h4
        cases n with
        | dataset a b e =>
          simp only [record, W.tell_log, List.mem_singleton, Eff.found.injEq] at h4
          obtain ⟨_, _, rfl⟩ := h4
          refine ⟨haddr, rfl, .inl ⟨a, b, e, rfl, rfl, ?_⟩⟩
          have : (Dict.has d.fields l = true) = (l ∈ d.fields.map (·.1)) := by
            rw [Dict.has_iff]; rfl
          simp only [this]
        | group a b e =>
          simp only [record, W.tell_log, List.mem_singleton, Eff.found.injEq] at h4
          obtain ⟨_, _, rfl⟩ := h4
          refine ⟨haddr, rfl, .inr ⟨a, b, e, rfl, rfl, ?_⟩⟩
          have : (Dict.has d.groups l = true) = (l ∈ d.groups.map (·.1)) := by
            rw [Dict.has_iff]; rfl
          simp only [this]
        | datatype a b =>
          simp only [record, W.tell_log, List.mem_singleton, Eff.found.injEq] at h4
          obtain ⟨_, _, rfl⟩ := h4
          rcases ht with ht | ht <;> simp at ht
  · simp at he

/-! ## examples -/

/-- `/` with `default`, an entry with `default`, a field of the class, an undefined field, a data
group with `signal`, a group of unknown class, an application definition used as class, and a
group without class. -/
def groupFile : H5File where
  attrs := [(s%"NX_class", .str s%"NXroot"), (s%"default", .str s%"e")]
  kids := .cons s%"e" .hard (.group s%"/e"
    [(s%"NX_class", .str s%"NXentry"), (s%"default", .str s%"zz"), (s%"note", .str s%"n")]
    (fieldIn s%"title" [] (fieldIn s%"mine" []
    (.cons s%"d" .hard (.group s%"/e/d" [(s%"NX_class", .str s%"NXdata"), (s%"signal", .str s%"y")]
      (.cons s%"y" .hard (.dataset s%"/e/d/y" [] (.ofVal (.int 1))) .nil))
    (.cons s%"u" .hard (.group s%"/e/u" [(s%"NX_class", .str s%"NXwhat")] .nil)
    (.cons s%"a" .hard (.group s%"/e/a" [(s%"NX_class", .str s%"NXsas")] .nil)
    (.cons s%"p" .hard (.group s%"/e/p" [(s%"q", .int 1)] .nil) .nil))))))) .nil

theorem groupFile_ok : (validateOpen sampleEnv sampleMgr [] groupFile).res = .ok () := by rfl

theorem groupFile_named : WellNamedFile groupFile := by
  refine ⟨by decide, by decide, ?_⟩
  simp [groupFile, WellNamedKids, WellNamed, fieldIn, Kids.toList]

/-- The report on the groups of the example, by address and test. -/
example : reportAt (validateOpen sampleEnv sampleMgr [] groupFile).log s%"/e/u" s%"NeXus base class" =
      [.error] ∧
    reportAt (validateOpen sampleEnv sampleMgr [] groupFile).log s%"/e/a" s%"NeXus base class" =
      [.error, .todo] ∧
    reportAt (validateOpen sampleEnv sampleMgr [] groupFile).log s%"/e" s%"NeXus base class" =
      [.ok, .todo] ∧
    reportAt (validateOpen sampleEnv sampleMgr [] groupFile).log s%"/e" s%"known NXDL" = [.ok] ∧
    reportAt (validateOpen sampleEnv sampleMgr [] groupFile).log s%"/e/p" s%"NeXus_group" = [.ok] ∧
    reportAt (validateOpen sampleEnv sampleMgr [] groupFile).log s%"/e"
      s%"NXDL field in data file" = [.optional, .ok] ∧
    reportAt (validateOpen sampleEnv sampleMgr [] groupFile).log s%"/e"
      s%"NXDL group in data file" = [.optional] ∧
    reportAt (validateOpen sampleEnv sampleMgr [] groupFile).log s%"/e@default"
      s%"value of @default" = [.error] ∧
    reportAt (validateOpen sampleEnv sampleMgr [] groupFile).log s%"/@default"
      s%"value of @default" = [.ok] ∧
    reportAt (validateOpen sampleEnv sampleMgr [] groupFile).log s%"/@NX_class"
      s%"attribute value enumeration" = [.ok] ∧
    reportAt (validateOpen sampleEnv sampleMgr [] groupFile).log s%"/e@note"
      s%"known attribute" = [.ok] := by
  refine ⟨?_, ?_, ?_, ?_, ?_, ?_, ?_, ?_, ?_, ?_, ?_⟩ <;> rfl

/-- The hypotheses of the theorems on groups hold for `/e`, whose class is a base class, and its
attribute `default`, defined by the class. -/
example : ∃ it ∈ (catalog sampleEnv groupFile).log, ∃ g d,
    it.classpath ≠ s%"non-NeXus content" ∧ it.obj.asGroup = some g ∧ g.name = s%"/e" ∧
    GroupClass sampleEnv it.classpath g.attrs s%"NXentry" ∧
    Dict.get? sampleMgr.classes s%"NXentry" = some d ∧
    (s%"default", Val.str s%"zz") ∈ g.attrs ∧ (Dict.get? d.attrs s%"default").isSome = true ∧
    PointsInside it.classpath s%"default" ∧ ¬ NamesMember sampleEnv groupFile g (.str s%"zz") ∧
    (members g).length = 6 := by
  refine ⟨(catalog sampleEnv groupFile).log[3], List.getElem_mem _, _, _, ?_, rfl, rfl,
    .inr ⟨?_, rfl⟩, rfl, ?_, rfl, .inr ⟨rfl, .inr (.inl rfl)⟩, ?_, rfl⟩
  · intro h; exact absurd (congrArg List.length h) (by decide)
  · intro h; exact absurd (congrArg List.length h) (by decide)
  · simp [Node.attrs]
  · rintro ⟨s, (h | ⟨b, h, _⟩), h2⟩
    · injection h with h
      subst h
      exact absurd h2 (by decide)
    · cases h

end Punx

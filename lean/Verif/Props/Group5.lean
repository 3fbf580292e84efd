import Verif.Props.Group4

/-!
# C23: what is said about attributes
-/

namespace Punx
open Spec

/-- Where a finding "known attribute" comes from. -/
theorem attr_finding_source {ctx : Ctx} {it : Item} {o : List Nat} {k : Str} {x : Finding}
    (h : Eff.found o k x ∈ (validateGroup ctx it).log) (ht : x.test = s%"known attribute") :
    ∃ c d, CheckedClass it c ∧ Dict.get? ctx.mgr.classes c = some d ∧
      Eff.found o k x ∈ (groupAttributes ctx it d).log := by
  have no : ∀ {α : Type} {w : W Eff α} {R : Item → Str → Status → Prop}, Emits R w →
      (∀ i t st, R i t st → t ≠ s%"known attribute") → Eff.found o k x ∉ w.log := by
    intro α w R hE hR hm
    obtain ⟨i, hr⟩ := emits_mem hE hm
    exact hR _ _ _ hr ht
  have e1 : ∀ c, Emits (fun i t _ => t = s%"known NXDL" ∨ t = s%"NeXus base class")
      (nxClassAttribute ctx it c) := by
    intro c
    unfold nxClassAttribute
    emits
    · exact .inl rfl
    · exact .inr rfl
  have e2 : ∀ d, Emits (fun i t _ => t = s%"field in base class" ∨ t = s%"group in base class" ∨
      t = s%"unhandled: group_items_in_base_class") (groupChildren ctx it d) := by
    intro d
    unfold groupChildren childCheck
    emits
    all_goals first
      | exact .inl rfl
      | exact .inr (.inl rfl)
      | exact .inr (.inr rfl)
  have e3 : ∀ c d, Emits (fun i t _ => t = s%"NXDL field in data file" ∨
      t = s%"NXDL group in data file") (baseItems ctx it c d) := by
    intro c d
    unfold baseItems baseFieldCheck baseGroupCheck
    emits
    all_goals first
      | exact .inl rfl
      | exact .inr rfl
  rw [validateGroup] at h
  split at h
  · exfalso
    refine no (R := fun _ t _ => t = s%"NeXus_group") ?_ ?_ h
    · emits; rfl
    · rintro i t st rfl; decide
  · rename_i hn
    rw [W.mem_bind_log] at h
    rcases h with h | ⟨c, hc, h⟩
    · simp at h
    · rw [W.lift_res] at hc
      have hcc : CheckedClass it c := by
        by_cases h1 : startsWith it.classpath s%"/NX" = true
        · rw [if_pos h1] at hc
          cases hx : it.nxClass with
          | none => rw [hx] at hc; cases hc
          | some c' =>
            rw [hx] at hc
            injection hc with hc
            subst hc
            refine .inr ⟨?_, hx⟩
            intro e
            rw [e] at h1
            simp [startsWith] at h1
        · rw [if_neg h1] at hc
          by_cases h2 : it.classpath = []
          · rw [if_pos h2] at hc
            injection hc with hc
            exact .inl ⟨h2, hc.symm⟩
          · rw [if_neg h2] at hc; cases hc
      rw [W.mem_bind_log] at h
      rcases h with h | ⟨_, _, h⟩
      · refine absurd h (no (e1 c) ?_)
        rintro i t st (rfl | rfl) <;> decide
      · cases hd : Dict.get? ctx.mgr.classes c with
        | none =>
          rw [hd] at h
          refine absurd h (no (R := fun _ t _ => t = s%"NeXus base class") ?_ ?_)
          · emits; rfl
          · rintro i t st rfl; decide
        | some d =>
          simp only [hd] at h
          refine ⟨c, d, hcc, hd, ?_⟩
          rw [W.mem_bind_log] at h
          rcases h with h | ⟨_, _, h⟩
          · exact h
          · exfalso
            rw [W.mem_bind_log] at h
            rcases h with h | ⟨_, _, h⟩
            · refine absurd h (no (e2 d) ?_)
              rintro i t st (rfl | rfl | rfl) <;> decide
            · rw [W.mem_bind_log] at h
              rcases h with h | ⟨_, _, h⟩
              · refine absurd h (no (e3 c d) ?_)
                rintro i t st (rfl | rfl) <;> decide
              · refine absurd h (no (R := fun _ t _ => t = s%"NeXus base class") ?_ ?_)
                · emits; rfl
                · rintro i t st rfl; decide

/-- What is said about one attribute. -/
theorem attr_finding_text {ctx : Ctx} (hA : AddrOk ctx) {it : Item} {d : ClassDef}
    {ka : Str × Val} {o : List Nat} {k : Str} {x : Finding} (ht : x.test = s%"known attribute")
    (h : Eff.found o k x ∈ (groupAttrCheck ctx it d ka).log) :
    ∃ a, it.addr = some a ∧ x.addr = some (a ++ '@' :: ka.1) ∧ x.status = .ok ∧
      x.comment = (if ka.1 ∈ d.attrs.map (·.1) ∨ ka.1 = s%"NX_class" then s%"known"
        else s%"unknown") ++ s%": " ++ d.title ++ s%"@" ++ ka.1 := by
  rw [groupAttrCheck] at h
  rw [W.mem_bind_log] at h
  rcases h with h | ⟨v, _, h⟩
  · simp at h
  · rw [W.mem_bind_log] at h
    rcases h with h | ⟨a, ha, h⟩
    · simp at h
    · have ha : it.addr = some a := by
        rw [W.lift_res, addrStr] at ha
        cases hi : it.addr with
        | none => rw [hi] at ha; cases ha
        | some b => rw [hi] at ha; injection ha with ha; rw [ha]
      refine ⟨a, ha, ?_⟩
      cases hai : Dict.get? ctx.addresses (some (a ++ s%"@" ++ ka.1)) with
      | none => rw [hai] at h; simp at h
      | some aIt =>
        have haa : aIt.addr = some (a ++ '@' :: ka.1) := by rw [hA _ _ hai]; simp
        rw [hai] at h
        simp only [] at h
        rw [W.mem_bind_log] at h
        rcases h with h | ⟨_, _, h⟩
        · simp only [record, W.tell_log, List.mem_singleton, Eff.found.injEq] at h
          obtain ⟨_, _, rfl⟩ := h
          refine ⟨haa, rfl, ?_⟩
          have hm : ((Dict.get? d.attrs ka.1).isNone = true) = (ka.1 ∉ d.attrs.map (·.1)) := by
            rw [Option.isNone_iff_eq_none, Dict.get?_eq_none]; rfl
          have : ((Dict.get? d.attrs ka.1).isNone = true ∧ ka.1 ≠ s%"NX_class") =
              ¬ (ka.1 ∈ d.attrs.map (·.1) ∨ ka.1 = s%"NX_class") := by
            rw [hm, not_or]
          simp only [this, ite_not]
        · exfalso
          have hE : Emits (fun i t _ => t = s%"attribute value enumeration" ∨
              ∃ l, t = s%"value of @" ++ l)
              (match Dict.get? d.attrs ka.1 with
              | none => pure ()
              | some spec => do
                enumCheck spec v aIt
                if ka.1 = s%"default" ∧ it.classpath ∈ defaultClasspaths then
                  childExists ctx s%"value of @default" v it aIt
                else if ka.1 = s%"signal" then
                  childExists ctx s%"value of @signal" v it aIt
                else if ka.1 = s%"target" then
                  W.fail .attributeError
                else if ka.1 = s%"axes" then pure ()
                else
                  record aIt (s%"value of @" ++ ka.1) .todo
                    (s%"TODO: need to validate: @" ++ ka.1 ++ s%" = " ++ pyStr ctx.env v)) := by
            unfold enumCheck childExists
            emits
            all_goals first
              | exact .inl rfl
              | exact .inr ⟨_, rfl⟩
          obtain ⟨i, hr⟩ := emits_mem hE h
          rcases hr with hr | ⟨l, hr⟩
          · rw [ht] at hr; exact absurd hr (by decide)
          · rw [ht] at hr; simp at hr

/-- C23: what the findings "known attribute" say.  Each one is OK, is about an attribute of a
catalogued NeXus group whose class is known, and says "known" exactly if the class lists the
attribute or it is `NX_class`. -/
theorem attribute_comment {env : Env} {mgr : Manager} {mins : Dict (Str × Str) Int} {f : H5File}
    (h : (validateOpen env mgr mins f).res = .ok ()) {x : Finding}
    (hx : x ∈ findings (validateOpen env mgr mins f).log) (ht : x.test = s%"known attribute") :
    ∃ it ∈ (catalog env f).log, ∃ g c d k v,
      it.obj.asGroup = some g ∧ GroupClass env it.classpath g.attrs c ∧
      Dict.get? mgr.classes c = some d ∧ (k, v) ∈ g.attrs ∧
      x.addr = some (g.name ++ '@' :: k) ∧ x.status = .ok ∧
      x.comment = (if k ∈ d.attrs.map (·.1) ∨ k = s%"NX_class" then s%"known" else s%"unknown") ++
        s%": " ++ d.title ++ s%"@" ++ k := by
  have c := completed h
  have hgt : GroupTest x.test := by rw [ht]; constructor
  have hnk : x.test ≠ s%"known NXDL" := by rw [ht]; decide
  obtain ⟨m, hlog, _, _⟩ := c.log
  rw [hlog, findings_append, findings_append, findings_append] at hx
  simp only [List.mem_append] at hx
  have hx2 : x ∈ findings (step2 (mkCtx env mgr mins f)).log := by
    rcases hx with ((hx | hx) | hx) | hx
    · exfalso
      rw [findings_flatMap, List.mem_flatMap] at hx
      obtain ⟨it, _, hx⟩ := hx
      obtain ⟨i, _, hk | hk⟩ := emits_findings (emits_nameAndAttribute _ [] it) hx
      · exact name_not_group (hk ▸ hgt)
      · exact hk.not_group hgt
    · exact hx
    · exfalso
      obtain ⟨i, hk⟩ := emits_findings (emits_step3 _) hx
      exact hnk (hk.group hgt)
    · exfalso
      obtain ⟨i, hk⟩ := emits_findings (emits_defaultPlot _ _) hx
      exact hk.2.not_group hgt
  obtain ⟨o, k, he⟩ := mem_findings hx2
  obtain ⟨it, hit, he⟩ := W.mem_forEach_log he
  have hitc : it ∈ (catalog env f).log := mem_addressed hit
  split at he
  · rename_i hgr
    obtain ⟨g, hg⟩ := Item.isGroup_iff.1 (show it.isGroup = true from hgr)
    obtain ⟨cc, d, h1, h2, h3⟩ := attr_finding_source he ht
    obtain ⟨hadr, hcl⟩ := catalogued_group c.catalog hitc hg
    have hcl := hcl cc h1
    rw [groupAttributes] at h3
    cases hat : it.obj.attrs? with
    | none => rw [hat] at h3; simp at h3
    | some attrs =>
      rw [hat] at h3
      obtain ⟨ka, hka, h4⟩ := W.mem_forEach_log h3
      have hga : attrs = g.attrs := by
        cases ho : it.obj with
        | file f' =>
          rw [ho] at hg hat
          simp only [H5Obj.asGroup, Option.some.injEq] at hg
          simp only [H5Obj.attrs?, Option.some.injEq] at hat
          rw [← hg, ← hat]; rfl
        | node n =>
          rw [ho] at hg hat
          cases n with
          | group n a k =>
            simp only [H5Obj.asGroup, Option.some.injEq] at hg
            simp only [H5Obj.attrs?, Option.some.injEq] at hat
            rw [← hg, ← hat]
          | _ => simp [H5Obj.asGroup] at hg
        | _ => rw [ho] at hg; simp [H5Obj.asGroup] at hg
      obtain ⟨a, ha, h5, h6, h7⟩ := attr_finding_text (mkCtx_addrOk env mgr mins f) ht h4
      refine ⟨it, hitc, g, cc, d, ka.1, ka.2, hg, hcl, h2, ?_, ?_, h6, h7⟩
      · rw [← hga]; exact mem_sortBy.1 hka
      · rw [hadr] at ha
        injection ha with ha
        rw [h5, ha]
  · simp at he

/-- The example file has such findings. -/
example : ((findings (validateOpen sampleEnv sampleMgr [] groupFile).log).filter
    (·.test = s%"known attribute")).length > 5 := by decide +kernel

end Punx

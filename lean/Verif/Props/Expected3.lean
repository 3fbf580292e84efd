import Verif.Props.Expected2

/-!
# C100: what is reported as ERROR
-/

namespace Punx
open Spec

theorem okIf_error {P : Prop} : okIf P .error = .error ↔ ¬ P := by
  by_cases h : P
  · rw [okIf_pos h]; simp [h]
  · rw [okIf_neg h]; simp [h]

theorem okIf_not_error {P : Prop} {no : Status} (h : no ≠ .error) : okIf P no ≠ .error := by
  by_cases hP : P
  · rw [okIf_pos hP]; exact fun e => by cases e
  · rw [okIf_neg hP]; exact h

theorem NameRule.error_iff {cp n : Str} {r : Prop} :
    NameRule cp n r .error ↔ ¬ s%"NXcollection" <:+: cp ∧ ¬ (OrNewline StrictName n ∨ r) := by
  constructor
  · rintro ⟨h1, h2⟩
    refine ⟨fun hc => ?_, ?_⟩
    · cases h1 hc
    · have hc : ¬ s%"NXcollection" <:+: cp := fun hc => by cases h1 hc
      obtain ⟨h3, h4, _⟩ := h2 hc
      rintro (hs | hr)
      · cases h3 hs
      · by_cases hs : OrNewline StrictName n
        · cases h3 hs
        · cases h4 hs hr
  · rintro ⟨hc, hn⟩
    rw [not_or] at hn
    exact ⟨fun h => absurd h hc, fun _ => ⟨fun h => absurd h hn.1, fun _ h => absurd h hn.2,
      fun _ _ => rfl⟩⟩

theorem ValueNameRule.error_iff {n : Str} {r : Prop} :
    ValueNameRule n r .error ↔ ¬ (OrNewline StrictName n ∨ r) := by
  constructor
  · rintro ⟨h3, h4, _⟩
    rintro (hs | hr)
    · cases h3 hs
    · by_cases hs : OrNewline StrictName n
      · cases h3 hs
      · cases h4 hs hr
  · intro hn
    rw [not_or] at hn
    exact ⟨fun h => absurd h hn.1, fun _ h => absurd h hn.2, fun _ _ => rfl⟩

theorem AttrNameRule.error_iff {w : Char → Bool} {mgr : Manager} {n : Str} :
    AttrNameRule w mgr n .error ↔ ¬ (OrNewline StrictName n ∨ RelaxedBy w mgr n) := by
  constructor
  · rintro ⟨h1, _⟩ h
    cases h1 h
  · intro hn
    have hn' := hn
    rw [not_or] at hn
    exact ⟨fun h => absurd h hn', fun _ _ => rfl⟩

/-! ## groups -/

theorem attrLines_error {env : Env} {f : H5File} {g : Node} {a cp : Str} {d : ClassDef}
    {ka : Str × Val} {ad : Option Str} {t : Str} :
    (ad, t, Status.error) ∈ attrLines env f g a cp d ka ↔
      ad = some (a ++ '@' :: ka.1) ∧ ∃ spec, Dict.get? d.attrs ka.1 = some spec ∧
        ((spec.enums ≠ [] ∧ ¬ Enumerated env spec.enums ka.2 ∧
            t = s%"attribute value enumeration") ∨
         (PointsInside cp ka.1 ∧ ¬ NamesMember env f g ka.2 ∧ t = s%"value of @" ++ ka.1)) := by
  rw [attrLines]
  have hax : ka.1 = s%"axes" → ¬ PointsInside cp ka.1 := by
    rintro e (h | ⟨h, _⟩) <;> rw [e] at h <;> simp at h
  cases hs : Dict.get? d.attrs ka.1 with
  | none => simp
  | some spec =>
    simp only [List.mem_cons, List.mem_append, Prod.mk.injEq, reduceCtorEq, and_false, false_or]
    constructor
    · rintro (h | h)
      · split at h
        · simp at h
        · rename_i he
          rw [List.mem_singleton] at h
          injection h with h1 h2
          injection h2 with h2 h3
          exact ⟨h1, spec, rfl, .inl ⟨he, okIf_error.1 h3.symm, h2⟩⟩
      · split at h
        · simp at h
        · split at h
          · rename_i hp
            rw [List.mem_singleton] at h
            injection h with h1 h2
            injection h2 with h2 h3
            exact ⟨h1, spec, rfl, .inr ⟨hp, okIf_error.1 h3.symm, h2⟩⟩
          · simp at h
    · rintro ⟨rfl, spec', e, ⟨he, hno, rfl⟩ | ⟨hp, hno, rfl⟩⟩
      · cases e
        left
        rw [if_neg he, okIf_neg hno]
        simp
      · cases e
        right
        rw [if_neg (fun e => hax e hp), if_pos hp, okIf_neg hno]
        simp

theorem groupLines_error {env : Env} {f : H5File} {classes : Dict Str ClassDef} {g : Node}
    {a cp c : Str} {ad : Option Str} {t : Str} :
    (ad, t, Status.error) ∈ groupLines env f classes g a cp c ↔
      (Dict.get? classes c = none ∧ ad = some a ∧
        (t = s%"known NXDL" ∨ t = s%"NeXus base class")) ∨
      ∃ d, Dict.get? classes c = some d ∧
        ((d.category = .applications ∧ ad = some a ∧ t = s%"NeXus base class") ∨
         ∃ ka ∈ g.attrs, (ad, t, Status.error) ∈ attrLines env f g a cp d ka) := by
  rw [groupLines]
  cases hd : Dict.get? classes c with
  | none =>
    simp only [List.mem_cons, Prod.mk.injEq, List.not_mem_nil, or_false, and_true, reduceCtorEq,
      false_and, exists_false, true_and]
    rw [and_or_left]
  | some d =>
    simp only [List.mem_append, List.mem_cons, List.not_mem_nil, or_false, Prod.mk.injEq,
      reduceCtorEq, and_false, false_or, false_and, List.mem_flatMap, Option.some.injEq,
      exists_eq_left']
    constructor
    · rintro ((((⟨h1, h2, h3⟩ | ⟨ka, hka, h⟩) | h) | h) | h)
      · left
        refine ⟨?_, h1, h2⟩
        have := okIf_error.1 h3.symm
        simpa using this
      · exact .inr ⟨ka, mem_sortBy.1 hka, h⟩
      · exfalso
        obtain ⟨n, _, h⟩ := List.mem_map.1 h
        cases n <;> (rw [memberLine] at h; injection h with h1 h2; injection h2 with h2 h3; cases h3)
      all_goals
        exfalso
        rw [definedLines] at h
        obtain ⟨n, _, h⟩ := List.mem_map.1 h
        injection h with h1 h2
        injection h2 with h2 h3
        exact okIf_not_error (by decide) h3
    · rintro (⟨h1, rfl, rfl⟩ | ⟨ka, hka, h⟩)
      · refine .inl (.inl (.inl (.inl ⟨rfl, rfl, ?_⟩)))
        rw [okIf_neg]
        simpa using h1
      · exact .inl (.inl (.inl (.inr ⟨ka, mem_sortBy.2 hka, h⟩)))

/-! ## plot -/

theorem dataLines_error {env : Env} {f : H5File} {items l : List Item} {ad : Option Str} {t : Str} :
    (ad, t, Status.error) ∈ dataLines env f items l ↔
      t = s%"NeXus default plot v3, NXdata@signal" ∧ ∃ before it after, l = before ++ it :: after ∧
        (∀ i ∈ before, ¬ SignalMissing env f items i) ∧ SignalMissing env f items it ∧
        ad = it.addr := by
  induction l with
  | nil => simp [dataLines]
  | cons i l ih =>
    rw [dataLines]
    by_cases hm : SignalMissing env f items i
    · rw [if_pos hm, List.mem_singleton]
      simp only [Prod.mk.injEq, and_true]
      constructor
      · rintro ⟨rfl, rfl⟩
        exact ⟨rfl, [], i, l, rfl, by simp, hm, rfl⟩
      · rintro ⟨rfl, before, it, after, e, hb, _, rfl⟩
        cases before with
        | nil => cases e; exact ⟨rfl, rfl⟩
        | cons b before => cases e; exact absurd hm (hb _ (by simp))
    · have key : (ad, t, Status.error) ∈ dataLines env f items l ↔
          t = s%"NeXus default plot v3, NXdata@signal" ∧ ∃ before it after,
            i :: l = before ++ it :: after ∧ (∀ i ∈ before, ¬ SignalMissing env f items i) ∧
            SignalMissing env f items it ∧ ad = it.addr := by
        rw [ih]
        refine and_congr_right (fun _ => ⟨?_, ?_⟩)
        · rintro ⟨before, it, after, rfl, hb, h1, h2⟩
          refine ⟨i :: before, it, after, rfl, ?_, h1, h2⟩
          intro j hj
          rcases List.mem_cons.1 hj with rfl | hj
          · exact hm
          · exact hb j hj
        · rintro ⟨before, it, after, e, hb, h1, h2⟩
          cases before with
          | nil => cases e; exact absurd h1 hm
          | cons b before =>
            cases e
            exact ⟨before, it, after, rfl, fun j hj => hb j (by simp [hj]), h1, h2⟩
      rw [if_neg hm]
      split
      · rw [List.mem_cons, key]
        simp
      · exact key

theorem marksIn_pos {env : Env} {items : List Item} {g : Option Str} :
    g ∈ markedGroups env items ↔ 0 < (marksIn env items g).length := by
  rw [markedGroups, List.mem_eraseDups, List.length_pos_iff_exists_mem, List.mem_map]
  simp [marksIn]

theorem searchLines_error {env : Env} {f : H5File} {items : List Item} {ad : Option Str} {t : Str} :
    (ad, t, Status.error) ∈ searchLines env f items ↔
      (t = s%"NeXus default plot v3, NXdata@signal" ∧ ∃ before it after,
        dataSignals items = before ++ it :: after ∧
        (∀ i ∈ before, ¬ SignalMissing env f items i) ∧ SignalMissing env f items it ∧
        ad = it.addr) ∨
      ((¬ ∃ a, AttributePlot env f items a) ∧ 1 < (marksIn env items ad).length ∧
        t = s%"NeXus default plot v2, multiple @signal=1") := by
  rw [searchLines, List.mem_append, List.mem_append, dataLines_error]
  have hni : (ad, t, Status.error) ∉ niacLines env f items := by
    rw [niacLines]
    split
    · simp
    · split <;> simp
  have hno : ∀ i, (ad, t, Status.error) ∉ signalLines env i := by
    intro i
    rw [signalLines]
    split
    · simp
    · split <;> simp
  constructor
  · rintro ((h | h) | h)
    · exact .inl h
    · exact absurd h hni
    · split at h
      · simp at h
      · rename_i hA
        rw [List.mem_append, List.mem_flatMap, List.mem_map] at h
        rcases h with ⟨i, _, h⟩ | ⟨g, hg, h⟩
        · exact absurd h (hno i)
        · rw [groupLine] at h
          split at h
          · simp at h
          · rename_i hn
            injection h with h1 h2
            injection h2 with h2 _
            subst h1
            refine .inr ⟨hA, ?_, h2.symm⟩
            have hpos := marksIn_pos.1 hg
            rcases hm : marksIn env items g with _ | ⟨x, _ | ⟨y, r⟩⟩
            · rw [hm] at hpos; simp at hpos
            · exact absurd hm (hn x)
            · simp
  · rintro (h | ⟨hA, hl, rfl⟩)
    · exact .inl (.inl h)
    · right
      rw [if_neg hA, List.mem_append]
      right
      refine List.mem_map.2 ⟨ad, marksIn_pos.2 (by omega), ?_⟩
      rw [groupLine]
      split
      · rename_i hm
        rw [hm] at hl; simp at hl
      · rfl

/-! ## the theorem -/

theorem expected_error_iff {env : Env} {mgr : Manager} {mins : Dict (Str × Str) Int} {f : H5File}
    {items : List Item} {a : Option Str} {t : Str} :
    Expected env mgr mins f items (a, t, .error) ↔ Fault env mgr mins f items a t := by
  constructor
  · rintro (h | h | h | h | h)
    · generalize hl : (a, t, Status.error) = l at h
      cases h with
      | @object it n st hit hobj hat hst =>
        cases hl
        obtain ⟨h1, h2⟩ := NameRule.error_iff.1 hst
        exact .objectName hit hobj hat h1 h2
      | @member it p n st hit hobj hat hp hlk hst =>
        cases hl
        exact .memberName hit hobj hat hp hlk (AttrNameRule.error_iff.1 hst)
      | attr hA hk hlk hst =>
        cases hl
        exact .attrName hA hk hlk (AttrNameRule.error_iff.1 hst)
      | cls hA hk hs =>
        injection hl with h1 h2
        injection h2 with h2 h3
        subst h1; subst h2
        exact .className hA hk hs (okIf_error.1 h3.symm)
    · generalize hl : (a, t, Status.error) = l at h
      cases h with
      | cls hA hs =>
        injection hl with h1 h2
        injection h2 with h2 h3
        subst h1; subst h2
        exact .unusable hA hs (okIf_error.1 h3.symm)
      | target hA hs =>
        injection hl with h1 h2
        injection h2 with h2 h3
        subst h1; subst h2
        exact .target hA hs (okIf_error.1 h3.symm)
      | signalName hA hg hs hst =>
        cases hl
        exact .signalName hA hg hs (ValueNameRule.error_iff.1 hst)
      | signal hA ho hg hs =>
        injection hl with h1 h2
        injection h2 with h2 h3
        subst h1; subst h2
        exact .signal hA ho hg hs (false_of_not (okIf_error.1 h3.symm))
      | fieldSignal hA hd =>
        injection hl with h1 h2
        injection h2 with h2 h3
        exact absurd h3.symm (okIf_not_error (by decide))
      | otherSignal => cases hl
      | axisName hA hns hn hst =>
        cases hl
        exact .axisName hA hns hn (ValueNameRule.error_iff.1 hst)
      | axis hA hns hn hg =>
        injection hl with h1 h2
        injection h2 with h2 h3
        subst h1; subst h2
        exact .axis hA hns hn hg (okIf_error.1 h3.symm)
      | axes => cases hl
      | other => cases hl
    · generalize hl : (a, t, Status.error) = l at h
      cases h with
      | nonNexus => cases hl
      | @nexus it g c l hit hg hn hc hm =>
        subst hl
        rcases groupLines_error.1 hm with ⟨hno, rfl, ht⟩ | ⟨d, hd, ⟨hcat, rfl, rfl⟩ | ⟨ka, hka, h⟩⟩
        · exact .unknownClass hit hg hn hc hno ht
        · exact .application hit hg hn hc hd hcat
        · obtain ⟨rfl, spec, hs, ⟨he, hno, rfl⟩ | ⟨hp, hno, rfl⟩⟩ := attrLines_error.1 h
          · exact .enumeration hit hg hn hc hd hka hs he hno
          · exact .pointer hit hg hn hc hd hka hs hp hno
    · generalize hl : (a, t, Status.error) = l at h
      cases h with
      | @known g name hD =>
        injection hl with h1 h2
        injection h2 with h2 h3
        subst h1; subst h2
        refine .unknownDefinition hD ?_
        have := okIf_error.1 h3.symm
        cases hc : Dict.get? mgr.classes name with
        | none => rfl
        | some ad => exact absurd ⟨ad, hc⟩ this
      | @category g name ad hD had =>
        injection hl with h1 h2
        injection h2 with h2 h3
        subst h1; subst h2
        refine .noApplication hD had ?_
        have := okIf_error.1 h3.symm
        cases hc : ad.category
        · rfl
        · exact absurd (.inl hc) this
        · exact absurd (.inr hc) this
      | todo => cases hl
      | there => cases hl
      | missing hR hn => cases hl; exact .missingField hR hn
      | value hR hn he =>
        injection hl with h1 h2
        injection h2 with h2 h3
        subst h1; subst h2
        exact .wrongValue hR hn he (okIf_error.1 h3.symm)
    · generalize hl : (a, t, Status.error) = l at h
      cases h with
      | search h =>
        subst hl
        rcases searchLines_error.1 h with ⟨rfl, before, it, after, e, hb, hm, rfl⟩ | ⟨hA, hm, rfl⟩
        · exact .plotSignal e hb hm
        · exact .plotMarks hA hm
      | verdict hv =>
        cases hl
        cases hv with
        | required h1 h2 h3 => exact .noPlot h1 h2 h3
  · intro h
    cases h with
    | objectName hit hobj hat hcol hno =>
      exact .inl (.object hit hobj hat (NameRule.error_iff.2 ⟨hcol, hno⟩))
    | memberName hit hobj hat hp hlk hno =>
      exact .inl (.member hit hobj hat hp hlk (AttrNameRule.error_iff.2 hno))
    | attrName hA hk hlk hno => exact .inl (.attr hA hk hlk (AttrNameRule.error_iff.2 hno))
    | className hA hk hs hno =>
      left
      have := NameLine.cls (mgr := mgr) hA hk hs
      rwa [okIf_neg hno] at this
    | unusable hA hs hno =>
      right; left
      have := ValueLine.cls (mgr := mgr) (f := f) hA hs
      rwa [okIf_neg hno] at this
    | target hA hs hno =>
      right; left
      have := ValueLine.target (mgr := mgr) (f := f) hA hs
      rwa [okIf_neg hno] at this
    | signalName hA hg hs hno =>
      exact .inr (.inl (.signalName hA hg hs (ValueNameRule.error_iff.2 hno)))
    | signal hA ho hg hs hno =>
      right; left
      have := ValueLine.signal (mgr := mgr) (f := f) hA ho hg hs
      rwa [okIf_neg (by rw [hno]; simp)] at this
    | axisName hA hns hn hno =>
      exact .inr (.inl (.axisName hA hns hn (ValueNameRule.error_iff.2 hno)))
    | axis hA hns hn hg hno =>
      right; left
      have := ValueLine.axis (mgr := mgr) (f := f) hA hns hn hg
      rwa [okIf_neg hno] at this
    | unknownClass hit hg hn hc hno ht =>
      exact .inr (.inr (.inl (.nexus hit hg hn hc (groupLines_error.2 (.inl ⟨hno, rfl, ht⟩)))))
    | application hit hg hn hc hd hcat =>
      exact .inr (.inr (.inl (.nexus hit hg hn hc
        (groupLines_error.2 (.inr ⟨_, hd, .inl ⟨hcat, rfl, rfl⟩⟩)))))
    | enumeration hit hg hn hc hd hka hs he hno =>
      exact .inr (.inr (.inl (.nexus hit hg hn hc (groupLines_error.2 (.inr ⟨_, hd, .inr
        ⟨_, hka, attrLines_error.2 ⟨rfl, _, hs, .inl ⟨he, hno, rfl⟩⟩⟩⟩)))))
    | pointer hit hg hn hc hd hka hs hp hno =>
      exact .inr (.inr (.inl (.nexus hit hg hn hc (groupLines_error.2 (.inr ⟨_, hd, .inr
        ⟨_, hka, attrLines_error.2 ⟨rfl, _, hs, .inr ⟨hp, hno, rfl⟩⟩⟩⟩)))))
    | unknownDefinition hD hno =>
      right; right; right; left
      have := DefinitionLine.known (mgr := mgr) hD
      rwa [okIf_neg (by rw [hno]; simp)] at this
    | noApplication hD had hcat =>
      right; right; right; left
      have := DefinitionLine.category (mgr := mgr) hD had
      rwa [okIf_neg (by rw [hcat]; simp)] at this
    | missingField hR hn => exact .inr (.inr (.inr (.inl (.missing hR hn))))
    | wrongValue hR hn he hno =>
      right; right; right; left
      have := DefinitionLine.value hR hn he
      rwa [okIf_neg hno] at this
    | plotSignal e hb hm =>
      exact .inr (.inr (.inr (.inr (.search (searchLines_error.2
        (.inl ⟨rfl, _, _, _, e, hb, hm, rfl⟩))))))
    | plotMarks hA hm =>
      exact .inr (.inr (.inr (.inr (.search (searchLines_error.2 (.inr ⟨hA, hm, rfl⟩))))))
    | noPlot h1 h2 h3 => exact .inr (.inr (.inr (.inr (.verdict (.required h1 h2 h3)))))

/-- **C100.** An ERROR is reported at an address under a test if and only if the file has a fault
that belongs there. -/
theorem error_iff {env : Env} {mgr : Manager} {mins : Dict (Str × Str) Int} {f : H5File}
    (hdig : env.isdigit s%"1" = true) (hw : WellNamedFile f)
    (hnd : ∀ d, Dict.get? mgr.classes s%"NXentry" = some d → (Dict.keys d.groups).Nodup)
    (h : (validateOpen env mgr mins f).res = .ok ()) (a : Option Str) (t : Str) :
    (∃ x ∈ findings (validateOpen env mgr mins f).log,
      x.addr = a ∧ x.test = t ∧ x.status = .error) ↔
    Fault env mgr mins f (contents env f) a t := by
  rw [← expected_error_iff, ← report_iff hdig hw hnd h, report, List.mem_map]
  simp only [lineOf, Prod.mk.injEq]

/-- **C100.** The report has no ERROR if and only if the file has no fault. -/
theorem no_error_iff {env : Env} {mgr : Manager} {mins : Dict (Str × Str) Int} {f : H5File}
    (hdig : env.isdigit s%"1" = true) (hw : WellNamedFile f)
    (hnd : ∀ d, Dict.get? mgr.classes s%"NXentry" = some d → (Dict.keys d.groups).Nodup)
    (h : (validateOpen env mgr mins f).res = .ok ()) :
    (∀ x ∈ findings (validateOpen env mgr mins f).log, x.status ≠ .error) ↔
    ∀ a t, ¬ Fault env mgr mins f (contents env f) a t := by
  constructor
  · intro hno a t hf
    obtain ⟨x, hx, _, _, he⟩ := (error_iff hdig hw hnd h a t).2 hf
    exact hno x hx he
  · intro hno x hx he
    exact hno _ _ ((error_iff hdig hw hnd h x.addr x.test).1 ⟨x, hx, rfl, rfl, he⟩)

end Punx

import Verif.Lemmas.GroupTable
import Verif.Props.Group2

/-!
# C29: the default plot by `signal=1`
-/

namespace Punx
open Spec

theorem natStr_inj {n m : Nat} (h : natStr n = natStr m) : n = m := by
  have h1 := Nat.ofDigitChars_ten_toDigits (n := n)
  have h2 := Nat.ofDigitChars_ten_toDigits (n := m)
  rw [natStr, natStr] at h
  rw [← h1, ← h2, h]

theorem intStr_eq_one {n : Int} : intStr n = s%"1" ↔ n = 1 := by
  constructor
  · intro h
    cases n with
    | ofNat k =>
      have : k = 1 := natStr_inj (h.trans (by rfl))
      subst this; rfl
    | negSucc k =>
      rw [intStr] at h
      simp only [List.cons.injEq] at h
      exact absurd h.1 (by decide)
  · rintro rfl; rfl

theorem readsOne_iff (env : Env) (v : Val) : pyStr env v = s%"1" ↔ ReadsOne env v := by
  cases v <;> simp only [pyStr, ReadsOne]
  exact intStr_eq_one

theorem isHdf5Dataset_iff {o : H5Obj} : isHdf5Dataset o = true ↔ ∃ n a v, o = .node (.dataset n a v) := by
  constructor
  · intro h
    unfold isHdf5Dataset at h
    split at h
    · exact ⟨_, _, _, rfl⟩
    · cases h
  · rintro ⟨n, a, v, rfl⟩; rfl

open Classical in
theorem v2Item_spec {ctx : Ctx} {rev rev' : Review} {it : Item}
    (hk : s%"@signal" <:+ it.classpath) (h : (v2Item ctx rev it).res = .ok rev') :
    rev' = (if Mark ctx.env it then addTo groupOf rev it else rev) ∧
      lines (v2Item ctx rev it) = signalLines ctx.env it := by
  rw [v2Item] at h ⊢
  cases hp : it.parent with
  | none => rw [hp] at h; simp at h
  | some par =>
    rw [hp] at h
    simp only [] at h ⊢
    by_cases hd : isHdf5Dataset par.obj = true
    · have hfs : FieldSignal it := ⟨hk, par, hp, isHdf5Dataset_iff.1 hd⟩
      rw [if_pos hd] at h ⊢
      cases ho : it.obj with
      | val v =>
        cases ha : it.addr with
        | none => rw [ho, ha] at h; simp at h
        | some a =>
          rw [ho, ha] at h
          simp only [] at h ⊢
          have hiff : Mark ctx.env it ↔ pyStr ctx.env v = s%"1" := by
            rw [readsOne_iff]
            constructor
            · rintro ⟨_, w, hw, h1⟩
              rw [ho] at hw; cases hw; exact h1
            · exact fun h1 => ⟨hfs, v, ho, h1⟩
          by_cases hv : pyStr ctx.env v = s%"1"
          · have hm := hiff.2 hv
            rw [if_pos hv] at h ⊢
            rw [signalLines, if_pos hm, if_pos hm]
            cases hg : par.parent with
            | none => rw [hg] at h; simp [record_bind_res] at h
            | some g =>
              rw [hg] at h
              rw [record_bind_res] at h
              simp only [W.pure_res, Except.ok.injEq] at h
              refine ⟨?_, ?_⟩
              · rw [← h, addTo]
                have : groupOf it = g.addr := by simp [groupOf, hp, hg]
                rw [this]
              · rw [lines_record_bind, lines_pure, ha]
          · have hm := fun h => hv (hiff.1 h)
            rw [if_neg hv] at h ⊢
            rw [signalLines, if_neg hm, if_neg hm, if_pos hfs]
            rw [record_bind_res] at h
            simp only [W.pure_res, Except.ok.injEq] at h
            exact ⟨h.symm, by rw [lines_record_bind, lines_pure, ha]⟩
      | file f => rw [ho] at h; simp at h
      | node n => rw [ho] at h; simp at h
      | none => rw [ho] at h; simp at h
    · have hfs : ¬ FieldSignal it := by
        rintro ⟨_, d, h1, h2⟩
        rw [hp] at h1; cases h1
        exact hd (isHdf5Dataset_iff.2 h2)
      have hm : ¬ Mark ctx.env it := fun h => hfs h.1
      rw [if_neg hd] at h ⊢
      rw [signalLines, if_neg hm, if_neg hm, if_neg hfs]
      simp only [W.pure_res, Except.ok.injEq] at h
      exact ⟨h.symm, rfl⟩

open Classical in
theorem v2Items_spec {ctx : Ctx} {rev rev' : Review} {l : List Item}
    (hk : ∀ it ∈ l, s%"@signal" <:+ it.classpath) (h : (v2Items ctx rev l).res = .ok rev') :
    rev' = (l.filter (fun i => Mark ctx.env i)).foldl (addTo groupOf) rev ∧
      lines (v2Items ctx rev l) = l.flatMap (signalLines ctx.env) := by
  induction l generalizing rev with
  | nil =>
    simp only [v2Items, W.pure_res, Except.ok.injEq] at h
    exact ⟨h.symm, rfl⟩
  | cons it l ih =>
    rw [v2Items, W.bind_ok_iff] at h
    obtain ⟨r1, h1, h2⟩ := h
    obtain ⟨e1, l1⟩ := v2Item_spec (hk it (by simp)) h1
    obtain ⟨e2, l2⟩ := ih (fun i hi => hk i (by simp [hi])) h2
    refine ⟨?_, ?_⟩
    · rw [e2, e1, List.filter_cons]
      by_cases hm : Mark ctx.env it
      · simp [hm]
      · simp [hm]
    · rw [v2Items, lines_bind h1, l1, l2, List.flatMap_cons]

open Classical in
theorem v2Scan_spec {ctx : Ctx} {rev rev' : Review} {d : Dict Str (List Item)}
    (hd : ∀ k its, (k, its) ∈ d → ∀ i ∈ its, i.classpath = k)
    (h : (v2Scan ctx rev d).res = .ok rev') :
    rev' = ((Dict.values d).flatten.filter (fun i => Mark ctx.env i)).foldl (addTo groupOf) rev ∧
      lines (v2Scan ctx rev d) = (Dict.values d).flatten.flatMap (signalLines ctx.env) := by
  induction d generalizing rev with
  | nil =>
    simp only [v2Scan, W.pure_res, Except.ok.injEq] at h
    exact ⟨h.symm, rfl⟩
  | cons q d ih =>
    obtain ⟨k, its⟩ := q
    have hq := hd k its (by simp)
    have ih := fun r hr => ih (rev := r) (fun k' its' hm => hd k' its' (by simp [hm])) hr
    rw [v2Scan] at h ⊢
    simp only [Dict.values, List.map_cons, List.flatten_cons, List.filter_append,
      List.foldl_append, List.flatMap_append] at ih ⊢
    by_cases hk : endsWith k s%"@signal" = true
    · rw [if_pos hk] at h ⊢
      rw [W.bind_ok_iff] at h
      obtain ⟨r1, h1, h2⟩ := h
      obtain ⟨e1, l1⟩ := v2Items_spec (fun i hi => by rw [hq i hi]; exact endsWith_iff.1 hk) h1
      obtain ⟨e2, l2⟩ := ih _ h2
      exact ⟨by rw [e2, e1], by rw [lines_bind h1, l1, l2]⟩
    · rw [if_neg hk] at h ⊢
      obtain ⟨e2, l2⟩ := ih _ h
      have hno : ∀ i ∈ its, ¬ FieldSignal i := fun i hi hf =>
        hk (endsWith_iff.2 (by rw [← hq i hi]; exact hf.1))
      have hn1 : its.filter (fun i => Mark ctx.env i) = [] := by
        rw [List.filter_eq_nil_iff]
        intro i hi hm
        exact hno i hi (by simpa using hm : Mark ctx.env i).1
      have hn2 : its.flatMap (signalLines ctx.env) = [] := by
        rw [List.flatMap_eq_nil_iff]
        intro i hi
        have := hno i hi
        rw [signalLines, if_neg (fun h => this h.1), if_neg this]
      rw [hn1, hn2]
      exact ⟨e2, l2⟩

/-- The last group with a single item decides. -/
theorem v2Pick_spec {a r : Option Str} {rev : Review}
    (hne : ∀ g its, (g, its) ∈ rev → its ≠ [] ∧ ∀ i ∈ its, groupOf i = g)
    (h : (v2Pick a rev).res = .ok r) :
    (r = a ∧ (∀ g its, (g, its) ∈ rev → its.length ≠ 1) ∨
      ∃ before g it after d, rev = before ++ (g, [it]) :: after ∧ it.parent = some d ∧ r = d.addr ∧
        ∀ g its, (g, its) ∈ after → its.length ≠ 1) ∧
    lines (v2Pick a rev) = rev.map (fun p => match p.2 with
      | [it] => (it.addr, s%"NeXus default plot v2", .ok)
      | _ => (p.1, s%"NeXus default plot v2, multiple @signal=1", .error)) := by
  induction rev generalizing a with
  | nil =>
    simp only [v2Pick, W.pure_res, Except.ok.injEq] at h
    exact ⟨.inl ⟨h.symm, by simp⟩, rfl⟩
  | cons q rev ih =>
    obtain ⟨g, its⟩ := q
    have hq := hne g its (by simp)
    have ih := fun b hb => ih (a := b) (fun g its hm => hne g its (by simp [hm])) hb
    match its, hq with
    | [], hq => exact absurd rfl hq.1
    | [it], hq =>
      rw [v2Pick] at h ⊢
      cases hp : it.parent with
      | none => rw [hp] at h; simp at h
      | some par =>
        cases ha : it.addr with
        | none => rw [hp, ha] at h; simp at h
        | some ad =>
          rw [hp, ha] at h
          simp only [] at h ⊢
          rw [record_bind_res] at h
          obtain ⟨h1, h2⟩ := ih _ h
          refine ⟨.inr ?_, ?_⟩
          · rcases h1 with ⟨h1, h3⟩ | ⟨before, g', it', after, d, h1, h3, h4, h5⟩
            · exact ⟨[], g, it, rev, par, rfl, hp, h1, h3⟩
            · exact ⟨(g, [it]) :: before, g', it', after, d, by rw [h1]; rfl, h3, h4, h5⟩
          · rw [lines_record_bind, h2, List.map_cons]
    | it :: it2 :: more, hq =>
      unfold v2Pick at h ⊢
      simp only [] at h ⊢
      cases hp : it.parent.bind Item.parent with
      | none => rw [hp] at h; simp at h
      | some gr =>
        have hga : gr.addr = g := by
          have := hq.2 it (by simp)
          rw [groupOf, hp] at this
          exact this
        cases g with
        | none => rw [hp] at h; simp at h
        | some gname =>
          rw [hp] at h
          simp only [] at h ⊢
          rw [record_bind_res] at h
          obtain ⟨h1, h2⟩ := ih _ h
          refine ⟨?_, ?_⟩
          · rcases h1 with ⟨h1, h3⟩ | ⟨before, g', it', after, d, h1, h3, h4, h5⟩
            · refine .inl ⟨h1, ?_⟩
              intro g its hm
              rcases List.mem_cons.1 hm with hm | hm
              · cases hm; simp
              · exact h3 g its hm
            · exact .inr ⟨(some gname, it :: it2 :: more) :: before, g', it', after, d,
                by rw [h1]; rfl, h3, h4, h5⟩
          · rw [lines_record_bind, h2, List.map_cons]
            simp only [hga]

/-- The dataset of a mark has an address. -/
theorem mark_parent {env : Env} {f : H5File} (h : (catalog env f).res = .ok ()) {it d : Item}
    (hit : it ∈ (catalog env f).log) (hp : it.parent = some d) (hc : it.classpath ≠ nonNeXus)
    (hv : ∃ v, it.obj = .val v) :
    ∃ a, d.addr = some a := by
  cases catalogued h hit with
  | root => cases hp
  | @attr v attrs ka j h1 h2 h3 h4 =>
    rw [attrItem_parent] at hp
    cases hp
    obtain ⟨a, ha, _⟩ := h2.addr
    exact ⟨a, ha⟩
  | @node q n oid h1 h2 => obtain ⟨v, hv⟩ := hv; cases hv

theorem mem_byClasspath {items : List Item} {it : Item} : it ∈ byClasspath items ↔ it ∈ items := by
  rw [← step1Items_eq]; exact mem_step1Items

/-- The method `default_plot_v2`: what it finds, and what it reports. -/
theorem v2_exact {env : Env} {mgr : Manager} {mins : Dict (Str × Str) Int} {f : H5File}
    (hc : (catalog env f).res = .ok ()) {r : Option Str}
    (h : (defaultPlotV2 (mkCtx env mgr mins f)).res = .ok r) :
    (∀ a, r = some a ↔ SignalPlot env (catalog env f).log a) ∧
    lines (defaultPlotV2 (mkCtx env mgr mins f)) =
      (byClasspath (catalog env f).log).flatMap (signalLines env) ++
      (markedGroups env (catalog env f).log).map (groupLine env (catalog env f).log) := by
  classical
  rw [defaultPlotV2, W.bind_ok_iff] at h
  obtain ⟨rev, h1, h2⟩ := h
  have hs := v2Scan_spec (d := (mkCtx env mgr mins f).classpaths) (fun k its hm i hi => by
    rw [mem_classpathTable hm] at hi
    simpa using (List.mem_filter.1 hi).2) h1
  have hval : (Dict.values (mkCtx env mgr mins f).classpaths).flatten =
    byClasspath (catalog env f).log := step1Items_eq _
  rw [hval] at hs
  obtain ⟨e1, l1⟩ := hs
  have e1 : rev = (markedGroups env (catalog env f).log).map
      (fun g => (g, marksIn env (catalog env f).log g)) := by
    rw [e1]
    exact foldl_addTo groupOf (marks env (catalog env f).log)
  have hp := v2Pick_spec (rev := rev) (fun g its hm => by
    rw [e1, List.mem_map] at hm
    obtain ⟨g', hg', e⟩ := hm
    cases e
    rw [markedGroups, List.mem_eraseDups, List.mem_map] at hg'
    obtain ⟨i, hi, hig⟩ := hg'
    refine ⟨List.ne_nil_of_mem (a := i) (List.mem_filter.2 ⟨hi, by simpa using hig⟩), ?_⟩
    intro j hj
    simpa using (List.mem_filter.1 hj).2) h2
  obtain ⟨p1, p2⟩ := hp
  have hpar : ∀ g it, marksIn env (catalog env f).log g = [it] → ∀ d, it.parent = some d →
      ∃ a, d.addr = some a := by
    intro g it hg d hd
    have : it ∈ marksIn env (catalog env f).log g := by rw [hg]; simp
    have := (List.mem_filter.1 this).1
    rw [marks, List.mem_filter] at this
    have hm : Mark env it := by simpa using this.2
    refine mark_parent hc (mem_byClasspath.1 this.1) hd ?_ ⟨_, hm.2.choose_spec.1⟩
    intro hn
    have := hm.1.1
    rw [hn] at this
    exact absurd this (by decide)
  refine ⟨fun a => ?_, ?_⟩
  · constructor
    · rintro rfl
      rcases p1 with ⟨h3, _⟩ | ⟨before, g, it, after, d, h3, h4, h5, h6⟩
      · cases h3
      · rw [e1] at h3
        rw [List.map_eq_append_iff] at h3
        obtain ⟨l₁, l₂, e2, e3, e4⟩ := h3
        rw [List.map_eq_cons_iff] at e4
        obtain ⟨g', l₃, e5, e6, e7⟩ := e4
        rw [Prod.mk.injEq] at e6
        obtain ⟨e6, e8⟩ := e6
        subst e5 e6
        refine ⟨l₁, g', l₃, it, d, e2, e8, h4, h5.symm, ?_⟩
        intro g'' hg''
        exact h6 g'' _ (by rw [← e7]; exact List.mem_map.2 ⟨g'', hg'', rfl⟩)
    · rintro ⟨before, g, after, it, d, h3, h4, h5, h6, h7⟩
      have hrev : rev = before.map (fun g => (g, marksIn env (catalog env f).log g)) ++
          (g, [it]) :: after.map (fun g => (g, marksIn env (catalog env f).log g)) := by
        rw [e1, h3]
        simp [h4]
      rcases p1 with ⟨_, h9⟩ | ⟨before', g', it', after', d', h9, h10, h11, h12⟩
      · exact absurd rfl (h9 g [it] (by rw [hrev]; simp))
      · rw [hrev] at h9
        rw [List.append_eq_append_iff] at h9
        rcases h9 with ⟨m, e2, e3⟩ | ⟨m, e2, e3⟩
        · cases m with
          | nil =>
            simp only [List.nil_append, List.cons.injEq] at e3
            cases e3.1
            rw [h5] at h10; cases h10
            rw [h11, h6]
          | cons x m =>
            exfalso
            simp only [List.cons_append, List.cons.injEq] at e3
            have hm : (g', [it']) ∈ after.map (fun g => (g, marksIn env (catalog env f).log g)) := by
              rw [e3.2]; simp
            rw [List.mem_map] at hm
            obtain ⟨g'', hg'', e⟩ := hm
            have := h7 g'' hg''
            rw [Prod.mk.injEq] at e
            rw [e.2] at this
            simp at this
        · cases m with
          | nil =>
            simp only [List.nil_append, List.cons.injEq] at e3
            cases e3.1
            rw [h5] at h10; cases h10
            rw [h11, h6]
          | cons x m =>
            exfalso
            simp only [List.cons_append, List.cons.injEq] at e3
            exact absurd rfl (h12 g [it] (by rw [e3.2]; simp))
  · rw [defaultPlotV2, lines_bind h1, l1, p2, e1, List.map_map]
    rfl

end Punx

import Verif.Props.DefaultPlotV2
import Verif.Props.NonNexus

/-!
# C28: the default plot by `default` and `signal` attributes
-/

namespace Punx
open Spec

/-! ## addresses of attributes in groups -/

theorem firstComp_split {c : Char} {s w : Str} {ws : List Str} (h : split c s = w :: ws) :
    firstComp c s = w := by
  induction s generalizing w ws with
  | nil => simp [split] at h; simp [firstComp, h.1]
  | cons a s ih =>
    by_cases ha : a = c
    · subst ha
      rw [split_cons_sep] at h
      simp only [List.cons.injEq] at h
      simp [firstComp, h.1]
    · obtain ⟨x, xs, h1, h2⟩ := split_cons_ne ha s
      rw [h2] at h
      simp only [List.cons.injEq] at h
      have := ih h1
      rw [firstComp] at this ⊢
      rw [List.takeWhile_cons, this]
      simp [ha, h.1]

theorem firstComp_spec (c : Char) (s : Str) : ∃ rest, s = firstComp c s ++ rest ∧
    c ∉ firstComp c s ∧ (rest = [] ∨ ∃ x, rest = c :: x) := by
  induction s with
  | nil => exact ⟨[], by simp [firstComp]⟩
  | cons a s ih =>
    obtain ⟨rest, h1, h2, h3⟩ := ih
    by_cases ha : a = c
    · subst ha
      refine ⟨a :: s, ?_, ?_, .inr ⟨s, rfl⟩⟩
      · simp [firstComp]
      · simp [firstComp]
    · have e2 : firstComp c (a :: s) = a :: firstComp c s := by
        simp [firstComp, ha]
      refine ⟨rest, ?_, ?_, h3⟩
      · rw [e2, List.cons_append, ← h1]
      · rw [e2]
        simp only [List.mem_cons, not_or]
        exact ⟨fun e => ha e.symm, h2⟩

theorem firstComp_eq {c : Char} {w rest : Str} (hw : c ∉ w) (hr : rest = [] ∨ ∃ x, rest = c :: x) :
    firstComp c (w ++ rest) = w := by
  rcases hr with rfl | ⟨x, rfl⟩
  · rw [List.append_nil]
    exact firstComp_split (split_noSep hw)
  · exact firstComp_split (split_append_sep hw x)

theorem split_three {c : Char} {s r e d : Str} (h : split c s = [r, e, d]) :
    s = r ++ c :: e ++ c :: d ∧ c ∉ r ∧ c ∉ e ∧ c ∉ d := by
  have hr : c ∉ r := sep_notMem_split (s := s) (by rw [h]; simp)
  have he : c ∉ e := sep_notMem_split (s := s) (by rw [h]; simp)
  have hd : c ∉ d := sep_notMem_split (s := s) (by rw [h]; simp)
  refine ⟨?_, hr, he, hd⟩
  obtain ⟨rest, h1, h2, h3⟩ := firstComp_spec c s
  have hf : firstComp c s = r := firstComp_split h
  rw [hf] at h1 h2
  rcases h3 with rfl | ⟨x, rfl⟩
  · rw [h1, List.append_nil, split_noSep hr] at h; simp at h
  rw [h1, split_append_sep hr] at h
  simp only [List.cons.injEq, true_and] at h
  obtain ⟨rest', h4, h5, h6⟩ := firstComp_spec c x
  have hf' : firstComp c x = e := firstComp_split h
  rw [hf'] at h4 h5
  rcases h6 with rfl | ⟨y, rfl⟩
  · rw [h4, List.append_nil, split_noSep he] at h; simp at h
  rw [h4, split_append_sep he] at h
  simp only [List.cons.injEq, true_and] at h
  have h7 : y = d := by
    obtain ⟨rest'', h7, h8, h9⟩ := firstComp_spec c y
    have hf'' : firstComp c y = d := firstComp_split h
    rw [hf''] at h7
    rcases h9 with rfl | ⟨z, rfl⟩
    · simpa using h7
    · rw [h7, split_append_sep hd] at h
      simp only [List.cons.injEq, true_and] at h
      exact absurd h (split_ne_nil _ _)
  rw [h1, h4, h7]
  simp

theorem entryAndData_ok {it : Item} {e d : Str} (h : entryAndData it = .ok (e, d)) :
    ∃ r rest, it.addr = some (r ++ '/' :: e ++ '/' :: d ++ rest) ∧
    ('/' ∉ r ∧ '/' ∉ e ∧ '/' ∉ d) ∧ ('@' ∉ r ∧ '@' ∉ e ∧ '@' ∉ d) ∧
    (rest = [] ∨ ∃ x, rest = '@' :: x) := by
  rw [entryAndData] at h
  cases ha : it.addr with
  | none => rw [ha] at h; cases h
  | some a =>
    rw [ha] at h
    simp only [] at h
    split at h
    · rename_i r e' d' hs
      cases h
      obtain ⟨rest, h1, h2, h3⟩ := firstComp_spec '@' a
      obtain ⟨h4, h5, h6, h7⟩ := split_three hs
      rw [h4] at h1 h2
      refine ⟨r, rest, by rw [← h1], ⟨h5, h6, h7⟩, ?_, h3⟩
      simp only [List.mem_append, List.mem_cons, not_or] at h2
      exact ⟨h2.1.1, h2.1.2.2, h2.2.2⟩
    · cases h

theorem entryAndData_eq {it : Item} {r e d rest : Str}
    (h1 : it.addr = some (r ++ '/' :: e ++ '/' :: d ++ rest))
    (h2 : '/' ∉ r ∧ '/' ∉ e ∧ '/' ∉ d) (h3 : '@' ∉ r ∧ '@' ∉ e ∧ '@' ∉ d)
    (h4 : rest = [] ∨ ∃ x, rest = '@' :: x) : entryAndData it = .ok (e, d) := by
  rw [entryAndData, h1]
  simp only []
  rw [firstComp_eq ?_ h4]
  · rw [List.append_assoc, List.cons_append, split_append_sep h2.1, split_append_sep h2.2.1,
      split_noSep h2.2.2]
  · simp [h3]

theorem inGroups_unique {items : List Item} {it D E R D' E' R' : Item}
    (h : InGroups items it D E R) (h' : InGroups items it D' E' R') : D = D' ∧ E = E' ∧ R = R' := by
  obtain ⟨r, e, d, rest, h1, h2, h3, h4, h5, h6, h7⟩ := h
  obtain ⟨r', e', d', rest', k1, k2, k3, k4, k5, k6, k7⟩ := h'
  have a := entryAndData_eq h1 h2 h3 h4
  rw [entryAndData_eq k1 k2 k3 k4] at a
  simp only [Except.ok.injEq, Prod.mk.injEq] at a
  obtain ⟨rfl, rfl⟩ := a
  rw [h5] at k5; rw [h6] at k6; rw [h7] at k7
  cases k5; cases k6; cases k7
  exact ⟨rfl, rfl, rfl⟩

theorem names_unique {env : Env} {i : Item} {k t t' : Str} (h : Names env i k t)
    (h' : Names env i k t') : t = t' := by
  obtain ⟨n, attrs, v, s, h1, h2, h3, h4, h5⟩ := h
  obtain ⟨n', attrs', v', s', k1, k2, k3, k4, k5⟩ := h'
  rw [h1] at k1; cases k1
  rw [h2] at k2; cases k2
  rw [h3] at k3; cases k3
  rw [h5, k5, textOf_unique h4 k4]

theorem itemAt_eq (env : Env) (mgr : Manager) (mins : Dict (Str × Str) Int) (f : H5File) (a : Str) :
    Dict.get? (mkCtx env mgr mins f).addresses (some a) = itemAt (catalog env f).log a :=
  addressTable_last _ _

theorem itemAt_addr {items : List Item} {a : Str} {i : Item} (h : itemAt items a = some i) :
    i.addr = some a ∧ i ∈ items := by
  have := List.mem_filter.1 (List.mem_of_getLast? h)
  exact ⟨by simpa using this.2, this.1⟩

theorem pathFrom_eq (n s : Str) : withSlash n ++ s = pathFrom n s := by
  rw [withSlash, pathFrom]
  by_cases h : s%"/" <:+ n
  · rw [if_pos h, if_pos (endsWith_iff.2 h)]
  · rw [if_neg h, if_neg (fun e => h (endsWith_iff.1 e)), List.append_assoc]; rfl

theorem buildH5Address_spec {env : Env} {i : Item} {attrs : List (Str × Val)} {k : Str} {v : Val}
    {t : Str} (ha : i.obj.attrs? = some attrs) (hk : attrs.lookup k = some v)
    (h : buildH5Address env i v = .ok t) : Names env i k t := by
  rw [buildH5Address] at h
  have hn : ∃ n, i.obj.name? = some n ∧ (decodeByteString env v >>= fun r => match r with
    | .str p => Except.ok (withSlash n ++ p)
    | _ => .error PyErr.typeError) = .ok t := by
    cases ho : i.obj with
    | file f => rw [ho] at h; exact ⟨_, rfl, h⟩
    | node n => rw [ho] at h; exact ⟨_, rfl, h⟩
    | val v => rw [ho] at ha; cases ha
    | none => rw [ho] at ha; cases ha
  clear h
  obtain ⟨n, h1, h⟩ := hn
  cases hd : decodeByteString env v with
  | error e => rw [hd] at h; cases h
  | ok w =>
    rw [hd] at h
    change (match w with
      | .str p => Except.ok (withSlash n ++ p)
      | _ => .error PyErr.typeError) = .ok t at h
    split at h
    · rename_i p
      simp only [Except.ok.injEq] at h
      refine ⟨n, attrs, v, p, h1, ha, hk, ?_, ?_⟩
      · cases v with
        | str s =>
          cases hd; exact .inl rfl
        | bytes b =>
          simp only [decodeByteString] at hd
          split at hd
          · rename_i s hs
            simp only [Except.ok.injEq, Val.str.injEq] at hd
            subst hd
            exact .inr ⟨b, rfl, hs⟩
          · cases hd
        | arrS xs =>
          simp only [decodeByteString] at hd
          split at hd
          · split at hd <;> cases hd
          · cases hd
        | arrO xs =>
          simp only [decodeByteString] at hd
          split at hd <;> cases hd
        | _ => cases hd
      · rw [← h, pathFrom_eq]
    · cases h

theorem attrPointsAt_spec {ctx : Ctx} {i : Item} {k : Str} {target : Str} {b : Bool}
    (h : attrPointsAt ctx i k (some target) = .ok b) :
    b = true ↔ PointsAt ctx.env ctx.file i k target := by
  rw [attrPointsAt] at h
  cases ha : i.obj.attrs? with
  | none => rw [ha] at h; cases h
  | some attrs =>
    rw [ha] at h
    simp only [attrGet] at h
    cases hk : attrs.lookup k with
    | none =>
      rw [hk] at h
      cases h
      constructor
      · intro h; cases h
      · rintro ⟨⟨n, attrs', v, s, _, h2, h3, _⟩, _⟩
        rw [ha] at h2; cases h2
        rw [hk] at h3; cases h3
    | some ptr =>
      rw [hk] at h
      simp only [] at h
      cases hb : buildH5Address ctx.env i ptr with
      | error e => rw [hb] at h; cases h
      | ok addr =>
        have hn := buildH5Address_spec ha hk hb
        rw [hb] at h
        change (objContains ctx i.obj (.str addr) >>= fun found =>
          if found then Except.ok (decide (some target = some addr)) else .ok false) = .ok b at h
        unfold objContains at h
        cases hg : i.obj.asGroup with
        | none => rw [hg] at h; cases h
        | some g =>
          rw [hg] at h
          change (if h5contains ctx.file g addr = true then
            Except.ok (decide (some target = some addr)) else .ok false) = .ok b at h
          split at h
          · rename_i hc
            simp only [Except.ok.injEq, Option.some.injEq] at h
            subst h
            rw [decide_eq_true_eq]
            constructor
            · rintro rfl
              exact ⟨hn, g, hg, hc⟩
            · rintro ⟨h1, _⟩
              exact names_unique h1 hn
          · rename_i hc
            simp only [Except.ok.injEq] at h
            subst h
            constructor
            · intro h; cases h
            · rintro ⟨h1, g', hg', hc'⟩
              rw [hg] at hg'; cases hg'
              rw [names_unique h1 hn] at hc'
              exact absurd hc' hc

/-- What one turn of the loop finds out. -/
theorem v3Step_spec {env : Env} {mgr : Manager} {mins : Dict (Str × Str) Int} {f : H5File}
    {it : Item} {s : V3Step} (h : v3Step (mkCtx env mgr mins f) it = .ok s) :
    (s.t3 = false ↔ SignalMissing env f (catalog env f).log it) ∧
    (∀ t, (s.t4 = true ∧ t = s.signalAddr) ↔ PlotField env f (catalog env f).log it t) ∧
    (s.t4 = true → s.t3 = true) ∧
    ((s.t1 = true ∧ s.t2 = true) ↔ DefaultPath env f (catalog env f).log it) := by
  simp only [v3Step, bind, Except.bind] at h
  split at h
  · cases h
  rename_i ed hed
  obtain ⟨e, d⟩ := ed
  simp only [] at h
  split at h
  · cases h
  rename_i D hD
  split at h
  · cases h
  rename_i E hE
  split at h
  · cases h
  rename_i R hR
  cases hattrs : D.obj.attrs? with
  | none => rw [hattrs] at h; cases h
  | some attrs =>
  rw [hattrs] at h
  simp only [attrGet] at h
  cases hsig : attrs.lookup s%"signal" with
  | none => rw [hsig] at h; cases h
  | some sig =>
  rw [hsig] at h
  simp only [] at h
  split at h
  · cases h
  rename_i addr haddr
  split at h
  · cases h
  rename_i t1 ht1
  split at h
  · cases h
  rename_i t2 ht2
  split at h
  · cases h
  rename_i t3 ht3
  have hD := itemAt_eq env mgr mins f _ ▸ addressAt_ok hD
  have hE := itemAt_eq env mgr mins f _ ▸ addressAt_ok hE
  have hR := itemAt_eq env mgr mins f _ ▸ addressAt_ok hR
  obtain ⟨r, rest, g1, g2, g3, g4⟩ := entryAndData_ok hed
  have hin : InGroups (catalog env f).log it D E R :=
    ⟨r, e, d, rest, g1, g2, g3, g4, by simpa using hD, hE, hR⟩
  have hDa := (itemAt_addr hD).1
  have hEa := (itemAt_addr hE).1
  rw [hEa] at ht1
  rw [hDa] at ht2
  have p1 := attrPointsAt_spec ht1
  have p2 := attrPointsAt_spec ht2
  have p3 := attrPointsAt_spec ht3
  have hnames := buildH5Address_spec hattrs hsig haddr
  have q3 : t3 = false ↔ SignalMissing env f (catalog env f).log it := by
    constructor
    · intro h3
      refine ⟨D, E, R, addr, hin, hnames, ?_⟩
      intro hp
      rw [p3.2 hp] at h3
      cases h3
    · rintro ⟨D', E', R', t, h1, h2, h3⟩
      obtain ⟨rfl, rfl, rfl⟩ := inGroups_unique hin h1
      rw [names_unique h2 hnames] at h3
      cases t3 with
      | false => rfl
      | true => exact absurd (p3.1 rfl) h3
  have q12 : (t1 = true ∧ t2 = true) ↔ DefaultPath env f (catalog env f).log it := by
    constructor
    · rintro ⟨h1, h2⟩
      exact ⟨D, E, R, _, _, hin, hEa, hDa, p1.1 h1, p2.1 h2⟩
    · rintro ⟨D', E', R', e', d', h1, h2, h3, h4, h5⟩
      obtain ⟨rfl, rfl, rfl⟩ := inGroups_unique hin h1
      rw [hEa] at h2; cases h2
      rw [hDa] at h3; cases h3
      exact ⟨p1.2 h4, p2.2 h5⟩
  split at h
  · rename_i h3
    split at h
    · cases h
    rename_i T hT
    have hT := itemAt_eq env mgr mins f _ ▸ addressAt_ok hT
    cases h
    subst h3
    refine ⟨q3, fun t => ?_, fun _ => rfl, q12⟩
    constructor
    · rintro ⟨h1, rfl⟩
      obtain ⟨n, a, v, h2⟩ := isHdf5Dataset_iff.1 h1
      exact ⟨D, E, R, T, n, a, v, hin, p3.1 rfl, hT, h2⟩
    · rintro ⟨D', E', R', T', n, a, v, h1, h2, h4, h5⟩
      obtain ⟨rfl, rfl, rfl⟩ := inGroups_unique hin h1
      have := names_unique h2.1 hnames
      subst this
      rw [hT] at h4; cases h4
      exact ⟨isHdf5Dataset_iff.2 ⟨n, a, v, h5⟩, rfl⟩
  · rename_i h3
    cases h
    have h3 : t3 = false := by simpa using h3
    subst h3
    refine ⟨q3, fun t => ?_, (fun h => by cases h), q12⟩
    constructor
    · rintro ⟨h1, _⟩; cases h1
    · rintro ⟨D', E', R', T', n, a, v, h1, h2, h4, h5⟩
      obtain ⟨rfl, rfl, rfl⟩ := inGroups_unique hin h1
      rw [names_unique h2.1 hnames] at h2
      cases p3.2 h2

theorem last_split_unique {γ : Type} {P : γ → Prop} {b a b' a' : List γ} {x y : γ}
    (h : b ++ x :: a = b' ++ y :: a') (hx : P x) (hy : P y) (ha : ∀ i ∈ a, ¬ P i)
    (ha' : ∀ i ∈ a', ¬ P i) : x = y := by
  rw [List.append_eq_append_iff] at h
  rcases h with ⟨m, e2, e3⟩ | ⟨m, e2, e3⟩
  · cases m with
    | nil => simp only [List.nil_append, List.cons.injEq] at e3; exact e3.1
    | cons z m =>
      simp only [List.cons_append, List.cons.injEq] at e3
      exact absurd hy (ha y (by rw [e3.2]; simp))
  · cases m with
    | nil => simp only [List.nil_append, List.cons.injEq] at e3; exact e3.1.symm
    | cons z m =>
      simp only [List.cons_append, List.cons.injEq] at e3
      exact absurd hx (ha' x (by rw [e3.2]; simp))

open Classical in
theorem v3Loop_spec {env : Env} {mgr : Manager} {mins : Dict (Str × Str) Int} {f : H5File}
    {h5 : Option Str} {niac l : List Item} {r : Option (Option Str × List Item)}
    (h : (v3Loop (mkCtx env mgr mins f) h5 niac l).res = .ok r) :
    ((r = none ∧ ∃ it ∈ l, SignalMissing env f (catalog env f).log it) ∨
     ∃ h5', r = some (h5', niac ++ l.filter (fun i => Niac env f (catalog env f).log i)) ∧
      (∀ it ∈ l, ¬ SignalMissing env f (catalog env f).log it) ∧
      ((h5' = h5 ∧ ∀ it ∈ l, ¬ ∃ t, PlotField env f (catalog env f).log it t) ∨
        ∃ before it after a, l = before ++ it :: after ∧
          PlotField env f (catalog env f).log it a ∧ h5' = some a ∧
          ∀ i ∈ after, ¬ ∃ t, PlotField env f (catalog env f).log i t)) ∧
    lines (v3Loop (mkCtx env mgr mins f) h5 niac l) = dataLines env f (catalog env f).log l := by
  induction l generalizing h5 niac with
  | nil =>
    simp only [v3Loop, W.pure_res, Except.ok.injEq] at h
    refine ⟨.inr ⟨h5, by simp [h.symm], by simp, .inl ⟨rfl, by simp⟩⟩, rfl⟩
  | cons it l ih =>
    rw [v3Loop, W.bind_ok_iff] at h
    obtain ⟨s, hs, h⟩ := h
    rw [W.lift_res] at hs
    obtain ⟨p3, p4, p43, p12⟩ := v3Step_spec hs
    rw [v3Loop, hs, W.lift_ok_bind]
    by_cases h3 : s.t3 = false
    · rw [if_pos h3] at h ⊢
      have hm := p3.1 h3
      rw [record_bind_res] at h
      simp only [W.pure_res, Except.ok.injEq] at h
      refine ⟨.inl ⟨h.symm, it, by simp, hm⟩, ?_⟩
      rw [lines_record_bind, lines_pure, dataLines, if_pos hm]
    · rw [if_neg h3] at h ⊢
      have hm : ¬ SignalMissing env f (catalog env f).log it := fun e => h3 (p3.2 e)
      rw [dataLines, if_neg hm]
      by_cases h4 : s.t4 = true
      · rw [if_pos h4] at h ⊢
        rw [record_bind_res] at h
        have hp := (p4 s.signalAddr).1 ⟨h4, rfl⟩
        have hex : ∃ t, PlotField env f (catalog env f).log it t := ⟨_, hp⟩
        obtain ⟨h6, h7⟩ := ih h
        refine ⟨?_, ?_⟩
        · rcases h6 with ⟨h6, i, hi, hi'⟩ | ⟨h5', h6, h8, h9⟩
          · exact .inl ⟨h6, i, by simp [hi], hi'⟩
          · refine .inr ⟨h5', ?_, ?_, .inr ?_⟩
            · rw [h6, List.filter_cons]
              by_cases hn : Niac env f (catalog env f).log it
              · have := p12.2 hn.1
                simp [hn, this.1, this.2]
              · have : ¬ (s.t1 = true ∧ s.t2 = true) := fun e => hn ⟨p12.1 e, hex⟩
                simp [hn, this]
            · intro i hi
              rcases List.mem_cons.1 hi with rfl | hi
              · exact hm
              · exact h8 i hi
            · rcases h9 with ⟨h9, h10⟩ | ⟨before, j, after, a, h9, h10, h11, h12⟩
              · exact ⟨[], it, l, _, rfl, hp, h9, h10⟩
              · exact ⟨it :: before, j, after, a, by rw [h9]; rfl, h10, h11, h12⟩
        · rw [lines_record_bind, h7, if_pos hex]
      · rw [if_neg h4] at h ⊢
        have hex : ¬ ∃ t, PlotField env f (catalog env f).log it t := by
          rintro ⟨t, ht⟩
          exact h4 ((p4 t).2 ht).1
        have hn : ¬ Niac env f (catalog env f).log it := fun e => hex e.2
        obtain ⟨h6, h7⟩ := ih h
        refine ⟨?_, ?_⟩
        · rcases h6 with ⟨h6, i, hi, hi'⟩ | ⟨h5', h6, h8, h9⟩
          · exact .inl ⟨h6, i, by simp [hi], hi'⟩
          · refine .inr ⟨h5', ?_, ?_, ?_⟩
            · rw [h6, List.filter_cons]
              simp [hn]
            · intro i hi
              rcases List.mem_cons.1 hi with rfl | hi
              · exact hm
              · exact h8 i hi
            · rcases h9 with ⟨h9, h10⟩ | ⟨before, j, after, a, h9, h10, h11, h12⟩
              · refine .inl ⟨h9, ?_⟩
                intro i hi
                rcases List.mem_cons.1 hi with rfl | hi
                · exact hex
                · exact h10 i hi
              · exact .inr ⟨it :: before, j, after, a, by rw [h9]; rfl, h10, h11, h12⟩
        · rw [h7, if_neg hex]

/-- The address a plot field is unique. -/
theorem plotField_unique {env : Env} {f : H5File} {items : List Item} {it : Item} {a b : Str}
    (h : PlotField env f items it a) (h' : PlotField env f items it b) : a = b := by
  obtain ⟨D, E, R, _, _, _, _, h1, h2, _⟩ := h
  obtain ⟨D', E', R', _, _, _, _, k1, k2, _⟩ := h'
  obtain ⟨rfl, rfl, rfl⟩ := inGroups_unique h1 k1
  exact names_unique h2.1 k2.1

/-- The method `default_plot_v3`: what it finds, and what it reports. -/
theorem v3_exact {env : Env} {mgr : Manager} {mins : Dict (Str × Str) Int} {f : H5File}
    {r : Option Str} (h : (defaultPlotV3 (mkCtx env mgr mins f)).res = .ok r) :
    (∀ a, r = some a ↔ AttributePlot env f (catalog env f).log a) ∧
    lines (defaultPlotV3 (mkCtx env mgr mins f)) =
      dataLines env f (catalog env f).log (dataSignals (catalog env f).log) ++
      niacLines env f (catalog env f).log := by
  classical
  rw [defaultPlotV3] at h ⊢
  have hl : (Dict.get? (mkCtx env mgr mins f).classpaths s%"/NXentry/NXdata@signal").getD [] =
      dataSignals (catalog env f).log := classpathTable_get _ _
  rw [hl] at h ⊢
  simp only [] at h ⊢
  rw [W.bind_ok_iff] at h
  obtain ⟨r1, h1, h2⟩ := h
  obtain ⟨p, l1⟩ := v3Loop_spec h1
  rw [lines_bind h1, l1]
  rcases p with ⟨rfl, i, hi, hi'⟩ | ⟨h5', rfl, h3, h4⟩
  · simp only [W.pure_res, Except.ok.injEq] at h2
    refine ⟨fun a => ?_, ?_⟩
    · constructor
      · intro e; rw [← h2] at e; cases e
      · rintro ⟨e, _⟩
        exact absurd hi' (e i hi)
    · rw [niacLines, if_pos ⟨i, hi, hi'⟩]; rfl
  · have hno : ¬ ∃ it ∈ dataSignals (catalog env f).log,
        SignalMissing env f (catalog env f).log it := by
      rintro ⟨i, hi, hi'⟩
      exact h3 i hi hi'
    rw [niacLines, if_neg hno]
    simp only [List.nil_append] at h2 ⊢
    rw [show (dataSignals (catalog env f).log).filter
      (fun i => decide (Niac env f (catalog env f).log i)) =
      niacPaths env f (catalog env f).log from rfl] at h2 ⊢
    have rest : (niacPaths env f (catalog env f).log).length ≠ 1 → r = h5' →
        ∀ a, r = some a ↔ AttributePlot env f (catalog env f).log a := by
      intro hlen e a
      subst e
      constructor
      · intro e
        refine ⟨h3, .inr ⟨hlen, ?_⟩⟩
        rcases h4 with ⟨rfl, _⟩ | ⟨before, it, after, b, h5, h6, h7, h8⟩
        · cases e
        · rw [h7] at e; cases e
          exact ⟨before, it, after, h5, h6, h8⟩
      · rintro ⟨_, ⟨it, h5, _⟩ | ⟨_, before, it, after, h5, h6, h7⟩⟩
        · rw [h5] at hlen; simp at hlen
        · rcases h4 with ⟨_, h8⟩ | ⟨before', it', after', b, h8, h9, h10, h11⟩
          · exact absurd ⟨a, h6⟩ (h8 it (by rw [h5]; simp))
          · rw [h5] at h8
            have := last_split_unique (P := fun i =>
              ∃ t, PlotField env f (catalog env f).log i t) h8 ⟨_, h6⟩ ⟨_, h9⟩ h7 h11
            subst this
            rw [h10, plotField_unique h6 h9]
    generalize hN : niacPaths env f (catalog env f).log = N at h2 rest ⊢
    match N with
    | [] =>
      simp only [W.pure_res, Except.ok.injEq] at h2
      exact ⟨rest (by simp) h2.symm, rfl⟩
    | [it] =>
      simp only [record_bind_res, W.pure_res, Except.ok.injEq] at h2
      refine ⟨fun a => ?_, by simp only [lines_record_bind, lines_pure]⟩
      constructor
      · intro e
        exact ⟨h3, .inl ⟨it, hN, by rw [h2, e]⟩⟩
      · rintro ⟨_, ⟨it', h5, h6⟩ | ⟨h5, _⟩⟩
        · rw [hN] at h5; cases h5
          rw [← h2, h6]
        · rw [hN] at h5; simp at h5
    | a :: b :: N =>
      simp only [W.pure_res, Except.ok.injEq] at h2
      exact ⟨rest (by simp) h2.symm, rfl⟩

end Punx

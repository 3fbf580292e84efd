import Verif.Model.Cli
import Verif.Spec.Cli
import Verif.Props.Report
import Verif.Props.Addressed
import Verif.Props.Sample
import Verif.Props.Cache

/-!
# C53, C54, C55, C71: the command line
-/

namespace Punx
open Spec

/-! ## C53: abbreviations of commands -/

/-- **C53**: a word runs a command exactly if it is the name of it, or if it has two or more letters
and abbreviates this command and no other. -/
theorem expand_iff {names : List Str} (hn : names.Nodup) (hne : names ≠ []) (w c : Str) :
    expandCommand names w = .ok c ↔
      (w ∈ names ∧ c = w) ∨ (w ∉ names ∧ 2 ≤ w.length ∧ Abbreviates names w c) := by
  unfold expandCommand
  have he : names.isEmpty = false := by cases names <;> simp_all
  by_cases hw : w ∈ names
  · have : names.contains w = true := by simpa using hw
    simp only [he, this, Bool.not_true, Bool.and_false, Bool.false_eq_true, if_false, Except.ok.injEq,
      hw, true_and, not_true, false_and, or_false]
    exact eq_comm
  · have : names.contains w = false := by simpa using hw
    simp only [he, this, Bool.not_false, Bool.and_true, if_true, hw, false_and, false_or,
      not_false_iff, true_and]
    by_cases hl : w.length < 2
    · rw [if_pos hl]
      exact ⟨fun h => (by cases h), fun h => absurd h.1 (by omega)⟩
    · rw [if_neg hl]
      have hl' : 2 ≤ w.length := by omega
      have hm : ∀ x, x ∈ names.filter (fun c => startsWith c w) ↔ x ∈ names ∧ w <+: x := by
        intro x; simp [startsWith]
      have hnd : (names.filter (fun c => startsWith c w)).Nodup := hn.filter _
      split
      · rename_i h0
        refine ⟨fun h => (by cases h), fun h => ?_⟩
        have := (hm c).2 ⟨h.2.1, h.2.2.1⟩
        rw [h0] at this; cases this
      · rename_i x h1
        have hx := (hm x).1 (by rw [h1]; simp)
        constructor
        · intro h
          cases h
          exact ⟨hl', hx.1, hx.2, fun c' hc' hp => by
            have := (hm c').2 ⟨hc', hp⟩
            rw [h1] at this; simpa using this⟩
        · rintro ⟨_, _, _, h⟩
          rw [h x hx.1 hx.2]
      · rename_i x y l h2
        refine ⟨fun h => (by cases h), fun h => ?_⟩
        have hx := (hm x).1 (by rw [h2]; simp)
        have hy := (hm y).1 (by rw [h2]; simp)
        have hxy : x = y := (h.2.2.2 x hx.1 hx.2).trans (h.2.2.2 y hy.1 hy.2).symm
        rw [h2, hxy] at hnd
        simp at hnd

/-- **C53**: every other word is rejected with status 2. -/
theorem expand_rejects (names : List Str) (w : Str) (e : PyErr) (h : expandCommand names w = .error e) :
    e = .systemExit 2 := by
  unfold expandCommand at h
  repeat' split at h
  all_goals first | (cases h; done) | (cases h; rfl)

/-- **C53**: the five commands can be abbreviated to two or more letters without any ambiguity. -/
theorem two_letters {dashed : List Str → Except PyErr Str} {w c : Str} (ws : List Str)
    (hc : c ∈ commands) (hw : w <+: c) (hl : 2 ≤ w.length) :
    chooseCommand dashed (w :: ws) = .ok c := by
  obtain ⟨a, b, w', rfl⟩ : ∃ a b w', w = a :: b :: w' := by
    match w, hl with
    | a :: b :: w', _ => exact ⟨a, b, w', rfl⟩
  have hfirst : c.head? = some a := by obtain ⟨t, rfl⟩ := hw; rfl
  have huniq : ∀ x ∈ commands, ∀ y ∈ commands, x.head? = y.head? → x = y := by decide
  have hdash : ∀ x ∈ commands, x.head? ≠ some '-' := by decide
  have hd : startsWith (a :: b :: w') s%"-" = false := by
    have : a ≠ '-' := fun h => hdash c hc (by rw [hfirst, h])
    simp [startsWith, List.isPrefixOf, Ne.symm this]
  have hun : ∀ c' ∈ commands, (a :: b :: w') <+: c' → c' = c := by
    intro c' hc' hp
    refine huniq c' hc' c hc ?_
    obtain ⟨t, rfl⟩ := hp
    rw [hfirst]; rfl
  show (if startsWith (a :: b :: w') s%"-" then _ else _) = _
  rw [if_neg (by rw [hd]; simp)]
  rw [expand_iff (by decide) (by decide)]
  by_cases hin : (a :: b :: w') ∈ commands
  · exact Or.inl ⟨hin, (hun _ hin (List.prefix_refl _)).symm⟩
  · exact Or.inr ⟨hin, by simp, hc, hw, hun⟩

example : chooseCommand (fun _ => .error .exception) [s%"va", s%"x.h5"] = .ok s%"validate" :=
  two_letters _ (by decide) (by decide) (by decide)
example : expandCommand commands s%"v" = .error (.systemExit 2) := rfl
example : expandCommand commands s%"validator" = .error (.systemExit 2) := rfl
example : expandCommand [s%"tree", s%"trim"] s%"tr" = .error (.systemExit 2) := rfl

/-! ## C54: the `--report` option -/

theorem split_between {c : Char} {ws : List Str} (hne : ws ≠ []) (h : ∀ w ∈ ws, c ∉ w) :
    split c (between c ws) = ws := by
  induction ws with
  | nil => exact absurd rfl hne
  | cons w ws ih =>
    cases ws with
    | nil => simpa [between] using split_noSep (h w (by simp))
    | cons v vs =>
      have ih' := ih (by simp) (fun x hx => h x (List.mem_cons_of_mem _ hx))
      have : between c (w :: v :: vs) = w ++ c :: between c (v :: vs) := rfl
      rw [this, split_append_sep (h w (by simp)), ih']

theorem between_split (c : Char) (s : Str) : between c (split c s) = s := by
  induction s with
  | nil => rfl
  | cons a s ih =>
    by_cases h : a = c
    · subst h
      rw [split_cons_sep]
      cases hs : split a s with
      | nil => exact absurd hs (split_ne_nil _ _)
      | cons w ws => rw [hs] at ih; simpa [between] using ih
    · obtain ⟨w, ws, h1, h2⟩ := split_cons_ne h s
      rw [h2]
      rw [h1] at ih
      cases ws with
      | nil => simpa [between] using ih
      | cons v vs => simpa [between] using ih

theorem lists_iff {option : Str} {ws : List Str} : Lists option ws ↔ ws = split ',' option := by
  constructor
  · rintro ⟨h1, h2, rfl⟩; exact (split_between h1 h2).symm
  · rintro rfl
    exact ⟨split_ne_nil _ _, fun w hw => sep_notMem_split hw, (between_split _ _).symm⟩

theorem upper_iff {c k : Char} (hc : c.toNat < 128) (hk : 65 ≤ k.toNat ∧ k.toNat ≤ 90) :
    c.toUpper = k ↔ c = k ∨ c.toNat = k.toNat + 32 := by
  have key : ∀ i : Fin 128, ∀ j : Fin 91, 65 ≤ j.1 →
      ((Char.ofNat i.1).toUpper = Char.ofNat j.1 ↔
        Char.ofNat i.1 = Char.ofNat j.1 ∨ i.1 = j.1 + 32) := by decide +kernel
  have := key ⟨c.toNat, hc⟩ ⟨k.toNat, by omega⟩ hk.1
  simpa [Char.ofNat_toNat] using this

theorem upper_comma {c : Char} (hc : c.toNat < 128) : c.toUpper = ',' ↔ c = ',' := by
  have key : ∀ i : Fin 128, ((Char.ofNat i.1).toUpper = ',' ↔ Char.ofNat i.1 = ',') := by
    decide +kernel
  simpa [Char.ofNat_toNat] using key ⟨c.toNat, hc⟩

theorem pyUpper_ascii {other : Char → Str} {s : Str} (h : PlainAscii s) :
    pyUpper other s = s.map Char.toUpper := by
  unfold pyUpper
  induction s with
  | nil => rfl
  | cons c s ih =>
    rw [List.flatMap_cons, if_pos (h c (by simp)), ih (fun x hx => h x (List.mem_cons_of_mem _ hx))]
    rfl

theorem split_map {f : Char → Char} {sep : Char} {s : Str} (h : ∀ c ∈ s, (f c = sep ↔ c = sep)) :
    split sep (s.map f) = (split sep s).map (List.map f) := by
  induction s with
  | nil => rfl
  | cons c s ih =>
    have ih' := ih (fun x hx => h x (List.mem_cons_of_mem _ hx))
    have hc := h c (by simp)
    by_cases he : c = sep
    · subst he
      rw [List.map_cons, hc.2 rfl, split_cons_sep, split_cons_sep, ih']
      rfl
    · obtain ⟨w, ws, h1, h2⟩ := split_cons_ne he s
      obtain ⟨v, vs, h3, h4⟩ := split_cons_ne (fun e => he (hc.1 e)) (s.map f)
      rw [List.map_cons, h4, h2]
      rw [h3, h1] at ih'
      simp only [List.map_cons, List.cons.injEq] at ih'
      simp [ih'.1, ih'.2]

theorem key_capitals (st : Status) : ∀ k ∈ st.key, 65 ≤ k.toNat ∧ k.toNat ≤ 90 := by
  cases st <;> decide

theorem sameName_iff {w key : Str} (hw : PlainAscii w)
    (hk : ∀ k ∈ key, 65 ≤ k.toNat ∧ k.toNat ≤ 90) :
    w.map Char.toUpper = key ↔ SameName w key := by
  unfold SameName
  induction w generalizing key with
  | nil => cases key <;> simp
  | cons c w ih =>
    cases key with
    | nil => simp
    | cons k key =>
      have hk1 := hk k (by simp)
      rw [List.map_cons, List.cons.injEq, List.forall₂_cons,
        ih (fun x hx => hw x (List.mem_cons_of_mem _ hx))
          (fun x hx => hk x (List.mem_cons_of_mem _ hx)),
        upper_iff (hw c (by simp)) hk1]
      constructor
      · rintro ⟨h | h, h'⟩
        · exact ⟨Or.inl h, h'⟩
        · exact ⟨Or.inr ⟨hk1.1, hk1.2, h⟩, h'⟩
      · rintro ⟨h | h, h'⟩
        · exact ⟨Or.inl h, h'⟩
        · exact ⟨Or.inr h.2.2, h'⟩

theorem mem_of_mem_split {c a : Char} {s w : Str} (hw : w ∈ split c s) (ha : a ∈ w) : a ∈ s := by
  induction s generalizing w with
  | nil => simp [split] at hw; subst hw; cases ha
  | cons b s ih =>
    by_cases h : b = c
    · subst h
      rw [split_cons_sep] at hw
      rcases List.mem_cons.1 hw with rfl | hw
      · cases ha
      · exact List.mem_cons_of_mem _ (ih hw ha)
    · obtain ⟨v, vs, h1, h2⟩ := split_cons_ne h s
      rw [h2] at hw
      rcases List.mem_cons.1 hw with rfl | hw
      · rcases List.mem_cons.1 ha with rfl | ha
        · simp
        · exact List.mem_cons_of_mem _ (ih (by rw [h1]; simp) ha)
      · exact List.mem_cons_of_mem _ (ih (by rw [h1]; exact List.mem_cons_of_mem _ hw) ha)

theorem ascii_words {option : Str} (h : PlainAscii option) :
    ∀ w ∈ split ',' option, PlainAscii w := fun _ hw c hc => h c (mem_of_mem_split hw hc)

theorem choice_words {other : Char → Str} {option : Str} (h : PlainAscii option) :
    split ',' (pyUpper other option) = (split ',' option).map (List.map Char.toUpper) := by
  rw [pyUpper_ascii h, split_map (fun c hc => upper_comma (h c hc))]

theorem isKey_iff {c : Str} : (Status.all.map Status.key).contains c = true ↔ ∃ st : Status, c = st.key := by
  rw [List.contains_iff_mem, List.mem_map]
  constructor
  · rintro ⟨st, _, h⟩; exact ⟨st, h.symm⟩
  · rintro ⟨st, h⟩; exact ⟨st, by cases st <;> decide, h.symm⟩

/-- **C54**: the option is refused exactly if a word in it is not the name of a status (in any
case). -/
theorem report_option_refused {other : Char → Str} {option : Str} (h : PlainAscii option) :
    (reportChoices other option).2 = [] ↔ AllKnown option := by
  unfold reportChoices
  simp only [choice_words h, List.filter_eq_nil_iff, Bool.not_eq_true', Bool.not_eq_false]
  constructor
  · intro hall
    refine ⟨_, lists_iff.2 rfl, fun w hw => ?_⟩
    obtain ⟨st, hst⟩ := isKey_iff.1 (hall _ (List.mem_map_of_mem hw))
    exact ⟨st, (sameName_iff (ascii_words h w hw) (key_capitals st)).1 hst⟩
  · rintro ⟨ws, hl, hall⟩ x hx
    rw [lists_iff.1 hl] at hall
    obtain ⟨w, hw, rfl⟩ := List.mem_map.1 hx
    obtain ⟨st, hst⟩ := hall w hw
    exact isKey_iff.2 ⟨st, (sameName_iff (ascii_words h w hw) (key_capitals st)).2 hst⟩

/-- **C54**: the selection has exactly the listed statuses. -/
theorem report_option_selection {other : Char → Str} {option : Str} (h : PlainAscii option) (st : Status) :
    st.key ∈ (reportChoices other option).1 ↔ Asked option st := by
  unfold reportChoices
  simp only [choice_words h, List.mem_filter, List.mem_map]
  constructor
  · rintro ⟨⟨w, hw, hk⟩, _⟩
    exact ⟨_, lists_iff.2 rfl, w, hw, (sameName_iff (ascii_words h w hw) (key_capitals st)).1 hk⟩
  · rintro ⟨ws, hl, w, hw, hk⟩
    rw [lists_iff.1 hl] at hw
    exact ⟨⟨w, hw, (sameName_iff (ascii_words h w hw) (key_capitals st)).2 hk⟩,
      isKey_iff.2 ⟨st, rfl⟩⟩

/-- **C54**: whatever the characters of the option, only names of statuses are selected, and if
nothing is refused then something is selected. -/
theorem report_option_names (other : Char → Str) (option : Str) :
    (∀ c ∈ (reportChoices other option).1, ∃ st : Status, c = st.key) ∧
    ((reportChoices other option).2 = [] → (reportChoices other option).1 ≠ []) := by
  constructor
  · intro c hc
    exact isKey_iff.1 (List.mem_filter.1 hc).2
  · intro h2 h1
    have hne := split_ne_nil ',' (pyUpper other option)
    obtain ⟨w, ws, hw⟩ : ∃ w ws, split ',' (pyUpper other option) = w :: ws := by
      cases hs : split ',' (pyUpper other option) with
      | nil => exact absurd hs hne
      | cons w ws => exact ⟨w, ws, rfl⟩
    have a1 := (List.filter_eq_nil_iff.1 h1) w (by rw [hw]; simp)
    have a2 := (List.filter_eq_nil_iff.1 h2) w (by rw [hw]; simp)
    cases hb : (Status.all.map Status.key).contains w
    · exact a2 (by rw [hb]; rfl)
    · exact a1 hb

/-! ## C55, C71: `punx validate` -/

theorem printReport_rows {sel : List Str} {fs rows : List Finding} {sm : Dict Status Nat} {sc : Score}
    (h : printReport sel fs = .ok (rows, sm, sc)) :
    reportRows sel fs = .ok rows ∧ findingSummary [] fs = .ok sm ∧ sc = findingScore fs := by
  unfold printReport at h
  cases h1 : reportRows sel fs with
  | error e => rw [h1] at h; cases h
  | ok r =>
    cases h2 : findingSummary [] fs with
    | error e => rw [h1, h2] at h; cases h
    | ok m =>
      rw [h1, h2] at h
      simp only [bind, Except.bind, Except.ok.injEq, Prod.mk.injEq] at h
      exact ⟨by rw [h.1], by rw [h.2.1], h.2.2.symm⟩

/-- What `validateAndReport` does. -/
theorem validateAndReport_cases (w : World) (mgr : Manager) (infile : Str) (choices : List Str) :
    (∃ f rows sm sc, w.files infile = .hdf5 f ∧ (validateOpen w.env mgr [] f).res = .ok () ∧
      printReport choices (findings (validateOpen w.env mgr [] f).log) = .ok (rows, sm, sc) ∧
      (validateAndReport w mgr infile choices).log = [.openFile infile, .report infile rows sm sc] ∧
      (validateAndReport w mgr infile choices).res = .ok ()) ∨
    ((¬ ∃ f, w.files infile = .hdf5 f ∧ (validateOpen w.env mgr [] f).res = .ok ()) ∧
      (validateAndReport w mgr infile choices).log = [.openFile infile] ∧
      (((∀ f, w.files infile ≠ .hdf5 f) ∧
        (validateAndReport w mgr infile choices).res = .error (.systemExit 1)) ∨
       ∃ f e, w.files infile = .hdf5 f ∧ (validateOpen w.env mgr [] f).res = .error e ∧
        ∃ e', (validateAndReport w mgr infile choices).res = .error e')) := by
  unfold validateAndReport validate
  cases hf : w.files infile with
  | missing =>
    right
    refine ⟨by simp, rfl, Or.inl ⟨by simp, rfl⟩⟩
  | notHdf5 =>
    right
    refine ⟨by simp, rfl, Or.inl ⟨by simp, rfl⟩⟩
  | hdf5 f =>
    cases hr : (validateOpen w.env mgr [] f).res with
    | error e =>
      right
      refine ⟨?_, ?_, Or.inr ⟨f, e, rfl, hr, ?_⟩⟩
      · rintro ⟨f', h1, h2⟩
        cases h1
        rw [hr] at h2; cases h2
      · simp only [VState.init, hr]
        cases e <;> rfl
      · simp only [VState.init, hr]
        cases e <;> exact ⟨_, rfl⟩
    | ok u =>
      left
      obtain ⟨⟨rows, sm, sc⟩, hp⟩ := report_never_fails w.env mgr [] f choices
      refine ⟨f, rows, sm, sc, rfl, hr, hp, ?_, ?_⟩
      · simp only [VState.init, hr, VState.validations, hp]
        rfl
      · simp only [VState.init, hr, VState.validations, hp]
        rfl

/-- The requested definitions are known: what `punx validate` needs before it reads them. -/
def Requested (w : World) (a : ValidateArgs) (ref : Str) : Prop :=
  ¬ s%".nxdl.xml" <:+ a.infile ∧ a.fileSet = some ref ∧
    ∃ sets, w.sets = .ok sets ∧ ∃ s, (ref, s) ∈ sets

/-- The three ways `punx validate` may go. -/
theorem funcValidate_cases (w : World) (a : ValidateArgs) :
    ((∀ ref, ¬ Requested w a ref) ∧ (funcValidate w a).log = [] ∧
      ∃ e, (funcValidate w a).res = .error e) ∨
    (∃ ref, Requested w a ref ∧
      ((∀ mgr, w.load ref = .ok mgr → (reportChoices w.upper a.report).2 ≠ []) ∧
        (funcValidate w a).log = [.loadDefinitions ref] ∧ ∃ e, (funcValidate w a).res = .error e)) ∨
    (∃ ref mgr, Requested w a ref ∧ w.load ref = .ok mgr ∧ (reportChoices w.upper a.report).2 = [] ∧
      (funcValidate w a).log = .loadDefinitions ref ::
        (validateAndReport w mgr a.infile (reportChoices w.upper a.report).1).log ∧
      (funcValidate w a).res =
        (validateAndReport w mgr a.infile (reportChoices w.upper a.report).1).res) := by
  unfold funcValidate
  cases hs : w.sets with
  | error e =>
    left
    refine ⟨?_, rfl, _, rfl⟩
    rintro ref ⟨_, _, sets, h, _⟩
    rw [hs] at h; cases h
  | ok sets =>
    dsimp only
    by_cases h1 : endsWith a.infile s%".nxdl.xml" = true
    · left
      rw [if_pos h1]
      refine ⟨fun ref h => h.1 (by simpa [endsWith] using h1), rfl, _, rfl⟩
    · rw [if_neg h1]
      have h1' : ¬ s%".nxdl.xml" <:+ a.infile := by simpa [endsWith] using h1
      cases hr : a.fileSet with
      | none =>
        left
        refine ⟨?_, rfl, _, rfl⟩
        rintro ref ⟨_, h, _⟩
        rw [hr] at h; cases h
      | some ref =>
        by_cases hk : (Dict.keys sets).contains ref = true
        · have hmem : ∃ s, (ref, s) ∈ sets := by
            have : ref ∈ Dict.keys sets := by simpa using hk
            obtain ⟨⟨k, s⟩, hks, rfl⟩ := List.mem_map.1 this
            exact ⟨s, hks⟩
          have hreq : Requested w a ref := ⟨h1', hr, sets, hs, hmem⟩
          simp only [hk, Bool.not_true, Bool.false_eq_true, if_false]
          cases hl : w.load ref with
          | error e =>
            right; left
            exact ⟨ref, hreq, (fun mgr h => by rw [hl] at h; cases h), rfl, _, rfl⟩
          | ok mgr =>
            cases ht : (reportChoices w.upper a.report).2 with
            | nil =>
              right; right
              refine ⟨ref, mgr, hreq, hl, rfl, ?_, ?_⟩ <;> rfl
            | cons x xs =>
              right; left
              exact ⟨ref, hreq, (fun _ _ => by simp), rfl, _, rfl⟩
        · left
          have hk' : (Dict.keys sets).contains ref = false := by simpa using hk
          simp only [hk', Bool.not_false, if_true]
          refine ⟨?_, rfl, _, rfl⟩
          rintro r ⟨_, h2, sets', h3, s, h4⟩
          rw [hr] at h2; cases h2
          rw [hs] at h3; cases h3
          exact hk (List.contains_iff_mem.2 (List.mem_map_of_mem (f := Prod.fst) h4))

/-- **C55**: definitions are read exactly if they are locally known and the file is no NXDL file. -/
theorem validate_loads_iff (w : World) (a : ValidateArgs) (ref : Str) :
    Act.loadDefinitions ref ∈ (funcValidate w a).log ↔ Requested w a ref := by
  have huniq : ∀ r r', Requested w a r → Requested w a r' → r = r' := by
    intro r r' h h'
    have := h.2.1.symm.trans h'.2.1
    simpa using this
  rcases funcValidate_cases w a with ⟨h, hl, _⟩ | ⟨r, hr, _, hl, _⟩ | ⟨r, mgr, hr, _, _, hl, _⟩
  · rw [hl]; simp [h ref]
  · rw [hl]
    simp only [List.mem_singleton, Act.loadDefinitions.injEq]
    exact ⟨fun e => e ▸ hr, fun h => huniq _ _ h hr⟩
  · rw [hl]
    constructor
    · intro hm
      rcases List.mem_cons.1 hm with e | hm
      · cases e; exact hr
      · rcases validateAndReport_cases w mgr a.infile (reportChoices w.upper a.report).1 with
          ⟨_, _, _, _, _, _, _, hv, _⟩ | ⟨_, hv, _⟩ <;> rw [hv] at hm <;> simp at hm
    · intro h
      rw [huniq _ _ h hr]; simp

/-- **C54**, **C55**: a data file is looked at exactly if the requested definitions are locally known
and can be read, and the `--report` option has only names of statuses; then it is the file that was
given. -/
theorem validate_opens_iff {w : World} {a : ValidateArgs} (ha : PlainAscii a.report) (f : Str) :
    Act.openFile f ∈ (funcValidate w a).log ↔
      f = a.infile ∧ AllKnown a.report ∧
        ∃ ref mgr, Requested w a ref ∧ w.load ref = .ok mgr := by
  rw [← report_option_refused (other := w.upper) ha]
  rcases funcValidate_cases w a with ⟨h, hl, _⟩ | ⟨r, hr, hno, hl, _⟩ | ⟨r, mgr, hr, hm, hk, hl, _⟩
  · rw [hl]
    simp only [List.not_mem_nil, false_iff]
    rintro ⟨_, _, ref, _, hreq, _⟩
    exact h ref hreq
  · rw [hl]
    simp only [List.mem_singleton, reduceCtorEq, false_iff]
    rintro ⟨_, hk, ref, mgr, hreq, hm⟩
    have : ref = r := by have := hreq.2.1.symm.trans hr.2.1; simpa using this
    subst this
    exact hno mgr hm hk
  · rw [hl]
    simp only [List.mem_cons, reduceCtorEq, false_or]
    have : Act.openFile f ∈ (validateAndReport w mgr a.infile (reportChoices w.upper a.report).1).log ↔
        f = a.infile := by
      rcases validateAndReport_cases w mgr a.infile (reportChoices w.upper a.report).1 with
        ⟨_, _, _, _, _, _, _, hv, _⟩ | ⟨_, hv, _⟩ <;> rw [hv] <;> simp
    rw [this]
    exact ⟨fun e => ⟨e, hk, r, mgr, hr, hm⟩, fun h => h.1⟩

/-- **C55**: NXDL files cannot be validated: the function that is called does not exist (if the file sets
cannot be listed, this is found first). -/
theorem validate_nxdl_fails (w : World) {a : ValidateArgs} (h : s%".nxdl.xml" <:+ a.infile) :
    (∀ sets, w.sets = .ok sets → funcValidate w a = W.fail .attributeError) ∧
    (∀ e, w.sets = .error e → funcValidate w a = W.fail e) := by
  unfold funcValidate
  refine ⟨fun sets hs => ?_, fun e he => by rw [he]⟩
  rw [hs]
  dsimp only
  rw [if_pos (by simpa [endsWith] using h)]

/-- **C71**: `punx validate` ends normally (status 0) exactly if the file is an HDF5 file whose
validation runs to its end; the findings play no role. -/
theorem validate_succeeds_iff {w : World} {a : ValidateArgs} (ha : PlainAscii a.report) :
    (funcValidate w a).res = .ok () ↔
      AllKnown a.report ∧ ∃ ref mgr f, Requested w a ref ∧ w.load ref = .ok mgr ∧
        w.files a.infile = .hdf5 f ∧ (validateOpen w.env mgr [] f).res = .ok () := by
  rw [← report_option_refused (other := w.upper) ha]
  rcases funcValidate_cases w a with ⟨h, _, e, hres⟩ | ⟨r, hr, hno, _, e, hres⟩ |
    ⟨r, mgr, hr, hm, hk, _, hres⟩
  · rw [hres]
    simp only [reduceCtorEq, false_iff]
    rintro ⟨_, ref, _, _, hreq, _⟩
    exact h ref hreq
  · rw [hres]
    simp only [reduceCtorEq, false_iff]
    rintro ⟨hk, ref, mgr, _, hreq, hm, _⟩
    have : ref = r := by have := hreq.2.1.symm.trans hr.2.1; simpa using this
    subst this
    exact hno mgr hm hk
  · rw [hres]
    rcases validateAndReport_cases w mgr a.infile (reportChoices w.upper a.report).1 with
      ⟨f, _, _, _, hf, hv, _, _, hres'⟩ | ⟨hno, _, hres'⟩
    · rw [hres']
      simp only [true_iff]
      exact ⟨hk, r, mgr, f, hr, hm, hf, hv⟩
    · constructor
      · intro h
        rcases hres' with ⟨_, h'⟩ | ⟨_, _, _, _, _, h'⟩ <;> rw [h'] at h <;> cases h
      · rintro ⟨_, ref, mgr', f, hreq, hm', hf, hv⟩
        have : ref = r := by have := hreq.2.1.symm.trans hr.2.1; simpa using this
        subst this
        rw [hm] at hm'; cases hm'
        exact absurd ⟨f, hf, hv⟩ hno

/-- **C71**: it ends normally exactly if it has printed a report. -/
theorem validate_reports_iff (w : World) (a : ValidateArgs) :
    (funcValidate w a).res = .ok () ↔
      ∃ fname rows sm sc, Act.report fname rows sm sc ∈ (funcValidate w a).log := by
  rcases funcValidate_cases w a with ⟨h, hl, e, hres⟩ | ⟨r, hr, hno, hl, e, hres⟩ |
    ⟨r, mgr, hr, hm, hk, hl, hres⟩
  · rw [hres, hl]; simp
  · rw [hres, hl]; simp
  · rw [hres, hl]
    rcases validateAndReport_cases w mgr a.infile (reportChoices w.upper a.report).1 with
      ⟨f, rows, sm, sc, hf, hv, _, hl', hres'⟩ | ⟨hno, hl', hres'⟩
    · rw [hres', hl']
      simp only [true_iff]
      exact ⟨a.infile, rows, sm, sc, by simp⟩
    · rw [hl']
      constructor
      · intro h
        rcases hres' with ⟨_, h'⟩ | ⟨_, _, _, _, _, h'⟩ <;> rw [h'] at h <;> cases h
      · rintro ⟨_, _, _, _, h⟩
        simp at h

/-- **C54**: the report is about the given file and shows exactly the findings with a status that was
asked for, each once; summary and score are about all findings. -/
theorem validate_report {w : World} {a : ValidateArgs} (ha : PlainAscii a.report) {fname : Str}
    {rows : List Finding} {sm : Dict Status Nat} {sc : Score}
    (h : Act.report fname rows sm sc ∈ (funcValidate w a).log) :
    fname = a.infile ∧ ∃ ref mgr f fs, Requested w a ref ∧ w.load ref = .ok mgr ∧
      w.files a.infile = .hdf5 f ∧ fs = findings (validateOpen w.env mgr [] f).log ∧
      (∀ x ∈ rows, Asked a.report x.status) ∧
      (∃ rest, (rows ++ rest).Perm fs ∧ ∀ x ∈ rest, ¬ Asked a.report x.status) ∧
      findingSummary [] fs = .ok sm ∧ sc = findingScore fs := by
  rcases funcValidate_cases w a with ⟨_, hl, _⟩ | ⟨r, hr, hno, hl, _⟩ |
    ⟨r, mgr, hr, hm, hk, hl, hres⟩
  · rw [hl] at h; cases h
  · rw [hl] at h; simp at h
  · rw [hl] at h
    simp only [List.mem_cons, reduceCtorEq, false_or] at h
    rcases validateAndReport_cases w mgr a.infile (reportChoices w.upper a.report).1 with
      ⟨f, rows', sm', sc', hf, hv, hp, hl', _⟩ | ⟨_, hl', _⟩
    · rw [hl'] at h
      simp only [List.mem_cons, reduceCtorEq, Act.report.injEq, false_or, List.not_mem_nil,
        or_false] at h
      obtain ⟨rfl, rfl, rfl, rfl⟩ := h
      obtain ⟨h1, h2, h3⟩ := printReport_rows hp
      have hne := (report_option_names w.upper a.report).2 hk
      have hperm := reportRows_perm h1
      have hsel : ∀ x : Finding, ((reportChoices w.upper a.report).1 = [] ∨
          x.status.key ∈ (reportChoices w.upper a.report).1) ↔ Asked a.report x.status := by
        intro x
        rw [← report_option_selection (other := w.upper) ha]
        simp [hne]
      refine ⟨rfl, r, mgr, f, _, hr, hm, hf, rfl, ?_, ?_, h2, h3⟩
      · intro x hx
        have := (List.mem_filter.1 (hperm.mem_iff.1 hx)).2
        exact (hsel x).1 (by simpa using this)
      · refine ⟨(findings (validateOpen w.env mgr [] f).log).filter
          (fun x => !decide ((reportChoices w.upper a.report).1 = [] ∨
          x.status.key ∈ (reportChoices w.upper a.report).1)), ?_, ?_⟩
        · exact (hperm.append_right _).trans (List.filter_append_perm _ _)
        · intro x hx hasked
          have := (List.mem_filter.1 hx).2
          have h' := (hsel x).2 hasked
          simp only [h', decide_true, Bool.not_true, Bool.false_eq_true] at this
    · rw [hl'] at h; simp at h

/-- **C55**: `punx demonstrate` validates nothing unless the set `main` is installed. -/
theorem demo_needs_main {w : World} {f : Str} {sets : Dict Str FileSet} (hs : w.sets = .ok sets)
    (hm : ∀ s, (s%"main", s) ∉ sets) : (demoValidate w f).log = [] := by
  rcases funcValidate_cases w ⟨f, some s%"main",
    join s%"," (sortBy strLe (Status.all.map Status.key))⟩ with ⟨_, h, _⟩ | ⟨r, hr, _⟩ | ⟨r, _, hr, _⟩
  · exact h
  all_goals
    obtain ⟨_, h2, sets', h3, s, h4⟩ := hr
    simp only [Option.some.injEq] at h2
    rw [hs] at h3; cases h3
    subst h2
    exact absurd h4 (hm s)

/-- A computer with three file sets and one data file. -/
def sampleWorld : World where
  env := sampleEnv
  sets := .ok someSets
  load := fun _ => .ok sampleMgr
  files := fun f => if f = s%"n.h5" then .hdf5 nameFile else .missing
  upper := fun c => [c]
  abspath := id

example : AllKnown s%"error,Ok" :=
  (report_option_refused (other := fun c => [c]) (by unfold PlainAscii; decide)).1 rfl

example : ¬ AllKnown s%"error,,ok" := fun h => by
  have := (report_option_refused (other := fun c => [c]) (by unfold PlainAscii; decide)).2 h
  revert this
  decide

example : Asked s%"error,Ok" .ok :=
  (report_option_selection (other := fun c => [c]) (by unfold PlainAscii; decide) .ok).1 (by decide)

example : Requested sampleWorld ⟨s%"n.h5", some s%"main", s%"error"⟩ s%"main" :=
  ⟨by decide, rfl, _, rfl, _, List.mem_of_getElem? (i := 2) rfl⟩

/-- **C71**: the command ends normally although the report shows violations. -/
theorem exit_zero_with_errors :
    (funcValidate sampleWorld ⟨s%"n.h5", some s%"main", s%"error"⟩).res = .ok () ∧
    ∃ fname rows sm sc, Act.report fname rows sm sc ∈
        (funcValidate sampleWorld ⟨s%"n.h5", some s%"main", s%"error"⟩).log ∧
      ∃ x ∈ rows, x.status = .error := by
  have hk : AllKnown s%"error" :=
    (report_option_refused (other := fun c => [c]) (by unfold PlainAscii; decide)).1 rfl
  have hreq : Requested sampleWorld ⟨s%"n.h5", some s%"main", s%"error"⟩ s%"main" :=
    ⟨by decide, rfl, _, rfl, _, List.mem_of_getElem? (i := 2) rfl⟩
  have hres := (validate_succeeds_iff (w := sampleWorld)
    (a := ⟨s%"n.h5", some s%"main", s%"error"⟩) (by unfold PlainAscii; decide)).2
    ⟨hk, s%"main", sampleMgr, nameFile, hreq, rfl, rfl, nameFile_ok⟩
  refine ⟨hres, ?_⟩
  obtain ⟨fname, rows, sm, sc, hm⟩ := (validate_reports_iff _ _).1 hres
  refine ⟨fname, rows, sm, sc, hm, ?_⟩
  obtain ⟨_, ref, mgr, f, fs, hr, hl, hf, hfs, hall, ⟨rest, hperm, hrest⟩, _⟩ :=
    validate_report (by unfold PlainAscii; decide) hm
  cases hl
  cases hf
  have hex : ∃ x ∈ fs, x.status = .error := by
    rw [hfs]
    have : (findings (validateOpen sampleEnv sampleMgr [] nameFile).log).any
        (fun x => x.status == .error) = true := by rfl
    obtain ⟨x, hx, he⟩ := List.any_eq_true.1 this
    exact ⟨x, hx, by simpa using he⟩
  obtain ⟨x, hx, hxe⟩ := hex
  rcases List.mem_append.1 (hperm.mem_iff.2 hx) with h | h
  · exact ⟨x, h, hxe⟩
  · refine absurd ?_ (hrest x h)
    rw [hxe]
    exact (report_option_selection (other := fun c => [c]) (by unfold PlainAscii; decide) .error).1 (by decide)

end Punx

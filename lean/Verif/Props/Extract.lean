import Verif.Spec.Cache
import Verif.Lemmas.Basic

/-!
# What is extracted from an archive (C48)
-/

namespace Punx

open Spec

/-! ## which members -/

theorem split_last {c : Char} {s : Str} (h : c ∈ s) :
    ∃ a, s = a ++ c :: lastComp c s ∧ c ∉ lastComp c s := by
  have hr : c ∈ s.reverse := by simpa using h
  obtain ⟨as, bs, h1, h2⟩ := List.eq_append_cons_of_mem hr
  have hs : s = bs.reverse ++ c :: as.reverse := by
    have := congrArg List.reverse h1
    simpa using this
  have hn : c ∉ as.reverse := by simpa using h2
  have hl : lastComp c s = as.reverse := by
    rw [hs]; exact lastComp_append _ _ hn
  exact ⟨bs.reverse, by rw [hl]; exact hs, by rw [hl]; exact hn⟩

theorem suffixOf_some {w ext : Str} (h : suffixOf w = '.' :: ext) :
    ∃ stem, stem ≠ [] ∧ w = stem ++ '.' :: ext := by
  unfold suffixOf at h
  split at h
  · cases h
  · rename_i e he
    split at h
    · rename_i hl
      injection h with _ h
      subst h
      unfold afterLastDot at he
      split at he
      · rename_i hc
        injection he with he
        rw [List.contains_iff_mem] at hc
        obtain ⟨a, ha, _⟩ := split_last hc
        rw [he] at ha
        refine ⟨a, ?_, ha⟩
        rintro rfl
        rw [Bool.and_eq_true, decide_eq_true_iff] at hl
        rw [ha] at hl
        simp at hl
      · cases he
    · cases h

theorem suffixOf_append {stem ext : Str} (hs : stem ≠ []) (he : ext ≠ []) (hd : '.' ∉ ext) :
    suffixOf (stem ++ '.' :: ext) = '.' :: ext := by
  have hl : lastComp '.' (stem ++ '.' :: ext) = ext := lastComp_append _ _ hd
  have hpos : 0 < stem.length := List.length_pos_iff.2 hs
  unfold suffixOf afterLastDot
  rw [if_pos (by simp), hl]
  simp only
  rw [if_pos]
  rw [Bool.and_eq_true, decide_eq_true_iff]
  refine ⟨by simp; omega, ?_⟩
  cases ext with
  | nil => exact absurd rfl he
  | cons _ _ => rfl

theorem suffixOf_endings {w : Str} :
    suffixOf w ∈ endings ↔
      ∃ stem ext, w = stem ++ ext ∧ stem ≠ [] ∧ ext ∈ [s%".xsd", s%".xml", s%".xsl"] := by
  constructor
  · intro h
    have hm : suffixOf w ∈ [s%".xsd", s%".xml", s%".xsl"] := h
    have : ∃ e, suffixOf w = '.' :: e := by
      simp only [List.mem_cons, List.not_mem_nil, or_false] at hm
      rcases hm with h | h | h <;> exact ⟨_, h⟩
    obtain ⟨e, he⟩ := this
    obtain ⟨stem, h1, h2⟩ := suffixOf_some he
    exact ⟨stem, '.' :: e, h2, h1, he ▸ hm⟩
  · rintro ⟨stem, ext, rfl, hs, he⟩
    simp only [List.mem_cons, List.not_mem_nil, or_false] at he
    rcases he with rfl | rfl | rfl
    · rw [show (s%".xsd" : Str) = '.' :: s%"xsd" from rfl,
        suffixOf_append hs (by decide) (by decide)]
      decide
    · rw [show (s%".xml" : Str) = '.' :: s%"xml" from rfl,
        suffixOf_append hs (by decide) (by decide)]
      decide
    · rw [show (s%".xsl" : Str) = '.' :: s%"xsl" from rfl,
        suffixOf_append hs (by decide) (by decide)]
      decide

/-- **C48**: exactly the wanted members are extracted. -/
theorem extractable_iff {top name : Str} (ht : top ≠ []) :
    isExtractable name endings (categories ++ [top]) = true ↔ Wanted top name := by
  have hp : zipParts name = words name := rfl
  unfold isExtractable Wanted
  rw [Bool.and_eq_true, List.contains_iff_mem, List.contains_iff_mem, suffixOf_endings, hp]
  generalize words name = ws
  constructor
  · rintro ⟨⟨stem, ext, h1, h2, h3⟩, h4⟩
    rcases List.eq_nil_or_concat ws with rfl | ⟨l, x, rfl⟩
    · simp only [lastPart, List.getLast?_nil, Option.getD_none] at h1
      have := congrArg List.length h1
      have hpos : 0 < stem.length := List.length_pos_iff.2 h2
      simp at this; omega
    · simp only [lastPart, List.concat_eq_append, List.getLast?_append, List.getLast?_singleton,
        Option.some_or, Option.getD_some, List.dropLast_concat] at h1 h4
      rcases List.eq_nil_or_concat l with rfl | ⟨l, y, rfl⟩
      · exfalso
        simp [categories] at h4
        exact ht h4
      · simp only [List.concat_eq_append, List.getLast?_append, List.getLast?_singleton,
          Option.some_or, Option.getD_some] at h4
        exact ⟨l, y, stem, ext, by simp [h1], h2, h3, by simpa [categories] using h4⟩
  · rintro ⟨front, parent, stem, ext, rfl, h2, h3, h4⟩
    refine ⟨⟨stem, ext, ?_, h2, h3⟩, ?_⟩
    · simp [lastPart]
    · have : (front ++ [parent, stem ++ ext]).dropLast = front ++ [parent] := by
        rw [show front ++ [parent, stem ++ ext] = (front ++ [parent]) ++ [stem ++ ext] by simp,
          List.dropLast_concat]
      rw [this]
      simpa [lastPart, categories] using h4

example : Wanted s%"definitions-main" s%"definitions-main/base_classes/NXdata.nxdl.xml" :=
  ⟨[s%"definitions-main"], s%"base_classes", s%"NXdata.nxdl", s%".xml", by decide, by decide,
    by decide, by decide⟩
example : Wanted s%"definitions-main" s%"definitions-main/nxdl.xsd" :=
  ⟨[], s%"definitions-main", s%"nxdl", s%".xsd", by decide, by decide, by decide, by decide⟩
example : ¬ Wanted s%"definitions-main" s%"definitions-main/utils/test.xml" := by
  rw [← extractable_iff (by decide)]; decide
example : ¬ Wanted s%"definitions-main" s%"definitions-main/base_classes/.xml" := by
  rw [← extractable_iff (by decide)]; decide

/-! ## what becomes of the disk -/

theorem applyAll_append (d : Disk) (a b : List Op) :
    applyAll d (a ++ b) = applyAll (applyAll d a) b := by
  simp [applyAll, List.foldl_append]

theorem applyAll_nil (d : Disk) : applyAll d [] = d := rfl

theorem applyAll_cons (d : Disk) (o : Op) (os : List Op) :
    applyAll d (o :: os) = applyAll (o.apply d) os := rfl

theorem makeDirs_apply (d d' : Disk) (pre ws : FPath) (q : FPath) :
    applyAll d' (makeDirs d pre ws) q =
      if d q = none ∧ pre <+: q ∧ q ≠ pre ∧ q <+: pre ++ ws then some .dir else d' q := by
  induction ws generalizing pre d' with
  | nil =>
    rw [makeDirs, applyAll_nil, if_neg]
    rintro ⟨_, h1, h2, h3⟩
    rw [List.append_nil] at h3
    exact h2 (h3.eq_of_length_le h1.length_le)
  | cons w ws ih =>
    rw [makeDirs, applyAll_append, ih]
    have key : (pre ++ [w] <+: q ∧ q ≠ pre ++ [w] ∧ q <+: pre ++ [w] ++ ws) ∨ q = pre ++ [w] ↔
        (pre <+: q ∧ q ≠ pre ∧ q <+: pre ++ w :: ws) := by
      constructor
      · rintro (⟨h1, h2, h3⟩ | rfl)
        · refine ⟨(List.prefix_append _ _).trans h1, ?_, by simpa using h3⟩
          rintro rfl
          have := h1.length_le
          simp at this
          omega
        · exact ⟨List.prefix_append _ _, by simp, by simp⟩
      · rintro ⟨⟨t, rfl⟩, h2, h3⟩
        cases t with
        | nil => simp at h2
        | cons x t =>
          rw [List.prefix_append_right_inj, List.cons_prefix_cons] at h3
          obtain ⟨rfl, h3⟩ := h3
          by_cases ht : t = []
          · subst ht; exact Or.inr rfl
          · left
            refine ⟨by simp, by simpa using ht, by simpa using h3⟩
    have hstep : applyAll d' (if d.has (pre ++ [w]) = true then [] else [Op.mkdir (pre ++ [w])]) q =
        if d q = none ∧ q = pre ++ [w] then some .dir else d' q := by
      by_cases hq : q = pre ++ [w]
      · subst hq
        by_cases hn : d (pre ++ [w]) = none
        · have : d.has (pre ++ [w]) = false := by simp [Disk.has, hn]
          simp [this, hn, applyAll_cons, applyAll_nil, Op.apply, Disk.put]
        · have : d.has (pre ++ [w]) = true := by
            simpa [Disk.has, Option.isSome_iff_ne_none] using hn
          simp [this, hn, applyAll_nil]
      · by_cases hh : d.has (pre ++ [w]) = true
        · simp [hh, hq, applyAll_nil]
        · simp [hh, applyAll_cons, applyAll_nil, Op.apply, Disk.put, hq]
    rw [hstep]
    by_cases hn : d q = none
    · simp only [hn, true_and]
      by_cases hq : q = pre ++ [w]
      · rw [if_pos (key.1 (Or.inr hq)), if_pos hq]
        split <;> rfl
      · rw [if_neg hq]
        by_cases hc : pre ++ [w] <+: q ∧ q ≠ pre ++ [w] ∧ q <+: pre ++ [w] ++ ws
        · rw [if_pos hc, if_pos (key.1 (Or.inl hc))]
        · rw [if_neg hc, if_neg]
          intro h
          rcases key.2 h with h | h
          · exact hc h
          · exact hq h
    · simp [hn]

theorem dirsPossible_iff (d : Disk) (pre ws : FPath) :
    dirsPossible d pre ws = true ↔
      ∀ q, pre <+: q → q ≠ pre → q <+: pre ++ ws → d q = none ∨ d q = some .dir := by
  induction ws generalizing pre with
  | nil =>
    simp only [dirsPossible, List.append_nil, true_iff]
    intro q h1 h2 h3
    exact absurd (h3.eq_of_length_le h1.length_le) h2
  | cons w ws ih =>
    rw [dirsPossible, Bool.and_eq_true, ih]
    constructor
    · rintro ⟨h1, h2⟩ q ⟨t, rfl⟩ h4 h5
      cases t with
      | nil => simp at h4
      | cons x t =>
        rw [List.prefix_append_right_inj, List.cons_prefix_cons] at h5
        obtain ⟨rfl, h5⟩ := h5
        by_cases ht : t = []
        · subst ht
          simpa [Disk.isDir] using h1
        · exact h2 _ (by simp) (by simpa using ht) (by simpa using h5)
    · intro h
      refine ⟨?_, ?_⟩
      · have := h (pre ++ [w]) (List.prefix_append _ _) (by simp) (by simp)
        simpa [Disk.isDir] using this
      · intro q h1 h2 h3
        refine h q ((List.prefix_append _ _).trans h1) ?_ (by simpa using h3)
        rintro rfl
        have := h1.length_le
        simp at this
        omega

theorem above_iff {q p : FPath} : Above q p ↔ [] <+: q ∧ q ≠ [] ∧ q <+: [] ++ p.dropLast := by
  unfold Above
  constructor
  · rintro ⟨h1, w, rest, rfl⟩
    refine ⟨List.nil_prefix, h1, ?_⟩
    rw [List.nil_append, List.dropLast_append_of_ne_nil (by simp)]
    exact List.prefix_append _ _
  · rintro ⟨_, h1, t, ht⟩
    refine ⟨h1, ?_⟩
    rw [List.nil_append] at ht
    rcases List.eq_nil_or_concat p with rfl | ⟨l, x, rfl⟩
    · simp at ht; exact absurd ht.1 h1
    · rw [List.concat_eq_append, List.dropLast_concat] at ht
      subst ht
      cases t with
      | nil => exact ⟨x, [], by simp⟩
      | cons y t => exact ⟨y, t ++ [x], by simp⟩

theorem endsWith_slash (m : ZipMember) :
    memberObj m = if endsWith m.name s%"/" then .dir else .file (.raw m.text) := by
  unfold memberObj
  by_cases h : s%"/" <:+ m.name
  · rw [if_pos h, if_pos (endsWith_iff.2 h)]
  · rw [if_neg h, if_neg (fun c => h (endsWith_iff.1 c))]

open Classical in
/-- What the extraction of one member does. -/
theorem extractMember_ok {d : Disk} {m : ZipMember} (h : (extractMember d m).res = .ok ()) :
    (∀ q, Above q (extractPath m.name) → d q = none ∨ d q = some .dir) ∧
    applyAll d (extractMember d m).ops = fun q =>
      if q = extractPath m.name then some (memberObj m)
      else if Above q (extractPath m.name) then some .dir else d q := by
  rw [endsWith_slash]
  unfold extractMember at h ⊢
  simp only at h ⊢
  by_cases hp : dirsPossible d [] (extractPath m.name).dropLast = true
  · have hdirs := (dirsPossible_iff d [] _).1 hp
    have hab : ∀ q, Above q (extractPath m.name) → d q = none ∨ d q = some .dir := by
      intro q hq
      obtain ⟨h1, h2, h3⟩ := above_iff.1 hq
      exact hdirs q h1 h2 h3
    have hnp : ¬ Above (extractPath m.name) (extractPath m.name) := by
      rintro ⟨_, w, rest, h⟩
      have := congrArg List.length h
      simp at this
    have hmk : ∀ q, applyAll d (makeDirs d [] (extractPath m.name).dropLast) q =
        if Above q (extractPath m.name) then some .dir else d q := by
      intro q
      rw [makeDirs_apply]
      by_cases hq : Above q (extractPath m.name)
      · rw [if_pos hq]
        rcases hab q hq with h | h
        · rw [if_pos ⟨h, above_iff.1 hq⟩]
        · rw [if_neg (by rw [h]; simp), h]
      · rw [if_neg hq, if_neg (fun c => hq (above_iff.2 c.2))]
    refine ⟨hab, ?_⟩
    simp only [hp, Bool.not_true, Bool.false_eq_true, if_false] at h ⊢
    funext q
    by_cases hs : endsWith m.name s%"/" = true
    · simp only [hs, if_true] at h ⊢
      cases hd : d (extractPath m.name) with
      | none =>
        simp only [applyAll_append, applyAll_cons, applyAll_nil, Op.apply, Disk.put, hmk]
      | some f =>
        cases f with
        | dir =>
          simp only [hmk]
          by_cases hq : q = extractPath m.name
          · subst hq; simp [hnp, hd]
          · simp [hq]
        | file c => rw [hd] at h; cases h
    · simp only [hs] at h ⊢
      simp only [Bool.false_eq_true, if_false] at h ⊢
      split at h
      · cases h
      · rename_i hdir
        simp only [hdir, Bool.false_eq_true, if_false, applyAll_append, applyAll_cons, applyAll_nil,
          Op.apply, Disk.put, hmk]
        by_cases hq : q = extractPath m.name <;> simp [hq]
  · simp only [hp] at h
    cases h

/-- The last name in a list of names that is to be extracted to a place. -/
def LastName (P : Str → Prop) (items : List Str) (p : FPath) (name : Str) : Prop :=
  ∃ before after, items = before ++ name :: after ∧ P name ∧ extractPath name = p ∧
    ∀ x ∈ after, P x → extractPath x ≠ p

variable {z : Archive} {es ps : List Str}

theorem extractAll_cons_pos {d : Disk} {dt : Date} {n : Nat} {i : Str} {is : List Str} {r}
    (hi : isExtractable i es ps = true)
    (h : (extractAll z es ps d dt n (i :: is)).res = .ok r) :
    ∃ m, z.getinfo i = some m ∧ (extractMember d m).res = .ok () ∧
      (extractAll z es ps (applyAll d (extractMember d m).ops) (Date.max m.date dt) (n + 1) is).res
        = .ok r ∧
      (extractAll z es ps d dt n (i :: is)).ops = (extractMember d m).ops ++
        (extractAll z es ps (applyAll d (extractMember d m).ops) (Date.max m.date dt) (n + 1) is).ops
        := by
  rw [extractAll, if_pos hi] at h ⊢
  split at h
  · cases h
  · rename_i m hm
    refine ⟨m, hm, ?_⟩
    unfold Deed.andThen at h ⊢
    cases hr : (extractMember d m).res with
    | error e => rw [hr] at h; cases h
    | ok u =>
      rw [hr] at h
      simp only at h ⊢
      exact ⟨trivial, h, trivial⟩

theorem getinfo_name {i : Str} {m : ZipMember} (h : z.getinfo i = some m) : m.name = i := by
  have := List.find?_some h
  simpa using this

/-- A file that is not written itself is not above anything that is extracted. -/
theorem extractAll_no_conflict {items : List Str} {d : Disk} {dt : Date} {n : Nat} {r} {p : FPath}
    {c : Content} (h : (extractAll z es ps d dt n items).res = .ok r) (hf : d p = some (.file c))
    (hp : ∀ x ∈ items, isExtractable x es ps = true → extractPath x ≠ p) :
    ∀ x ∈ items, isExtractable x es ps = true → ¬ Above p (extractPath x) := by
  induction items generalizing d dt n with
  | nil => simp
  | cons i is ih =>
    intro x hx hex
    by_cases hi : isExtractable i es ps = true
    · obtain ⟨m, hm, h1, h2, _⟩ := extractAll_cons_pos hi h
      obtain ⟨ha, hd⟩ := extractMember_ok h1
      have hname := getinfo_name hm
      rw [hname] at ha hd
      have hnot : ¬ Above p (extractPath i) := by
        intro hab
        rcases ha p hab with h | h <;> rw [hf] at h <;> cases h
      rcases List.mem_cons.1 hx with rfl | hx
      · exact hnot
      · refine ih (d := applyAll d (extractMember d m).ops) h2 ?_
          (fun y hy => hp y (List.mem_cons_of_mem _ hy)) x hx hex
        rw [hd]
        simp [Ne.symm (hp i (by simp) hi), hnot, hf]
    · have h' : (extractAll z es ps d dt n is).res = .ok r := by
        rw [extractAll, if_neg hi] at h; exact h
      rcases List.mem_cons.1 hx with rfl | hx
      · exact absurd hex hi
      · exact ih h' hf (fun y hy => hp y (List.mem_cons_of_mem _ hy)) x hx hex

/-- What the whole extraction does to the disk. -/
theorem extractAll_ok {items : List Str} {d : Disk} {dt : Date} {n : Nat} {r}
    (h : (extractAll z es ps d dt n items).res = .ok r) (p : FPath) :
    (∀ name, LastName (isExtractable · es ps = true) items p name →
      ∃ m, z.getinfo name = some m ∧
        applyAll d (extractAll z es ps d dt n items).ops p = some (memberObj m)) ∧
    ((¬ ∃ name ∈ items, isExtractable name es ps = true ∧ extractPath name = p) →
      ((∃ name ∈ items, isExtractable name es ps = true ∧ Above p (extractPath name)) →
        applyAll d (extractAll z es ps d dt n items).ops p = some .dir) ∧
      ((¬ ∃ name ∈ items, isExtractable name es ps = true ∧ Above p (extractPath name)) →
        applyAll d (extractAll z es ps d dt n items).ops p = d p)) := by
  induction items generalizing d dt n with
  | nil =>
    refine ⟨?_, ?_⟩
    · rintro name ⟨b, a, h, _⟩; simp at h
    · intro _
      exact ⟨by simp, fun _ => rfl⟩
  | cons i is ih =>
    by_cases hi : isExtractable i es ps = true
    · obtain ⟨m, hm, h1, h2, h3⟩ := extractAll_cons_pos hi h
      obtain ⟨_, hd⟩ := extractMember_ok h1
      have hname := getinfo_name hm
      rw [hname] at hd
      obtain ⟨ih1, ih2⟩ := ih h2
      rw [h3, applyAll_append]
      generalize hd1 : applyAll d (extractMember d m).ops = d1 at *
      by_cases hin : ∃ name ∈ is, isExtractable name es ps = true ∧ extractPath name = p
      · refine ⟨?_, ?_⟩
        · rintro name ⟨b, a, hba, hw, hpl, hlast⟩
          refine ih1 name ?_
          cases b with
          | nil =>
            simp only [List.nil_append, List.cons.injEq] at hba
            obtain ⟨rfl, rfl⟩ := hba
            obtain ⟨x, hx, hex, hpx⟩ := hin
            exact absurd hpx (hlast x hx hex)
          | cons y b =>
            simp only [List.cons_append, List.cons.injEq] at hba
            exact ⟨b, a, hba.2, hw, hpl, hlast⟩
        · intro hno
          obtain ⟨x, hx, hex, hpx⟩ := hin
          exact absurd ⟨x, List.mem_cons_of_mem _ hx, hex, hpx⟩ hno
      · obtain ⟨ih3, ih4⟩ := ih2 hin
        refine ⟨?_, ?_⟩
        · rintro name ⟨b, a, hba, hw, hpl, hlast⟩
          have hni : name = i := by
            cases b with
            | nil =>
              simp only [List.nil_append, List.cons.injEq] at hba
              exact hba.1.symm
            | cons y b =>
              simp only [List.cons_append, List.cons.injEq] at hba
              exact absurd ⟨name, by rw [hba.2]; simp, hw, hpl⟩ hin
          subst hni
          refine ⟨m, hm, ?_⟩
          have hdp : d1 p = some (memberObj m) := by
            rw [hd]; simp [hpl]
          by_cases hab : ∃ x ∈ is, isExtractable x es ps = true ∧ Above p (extractPath x)
          · rw [ih3 hab]
            cases hmo : memberObj m with
            | dir => rfl
            | file c =>
              exfalso
              rw [hmo] at hdp
              obtain ⟨x, hx, hex, hxab⟩ := hab
              exact extractAll_no_conflict h2 hdp
                (fun y hy hey hpy => hin ⟨y, hy, hey, hpy⟩) x hx hex hxab
          · rw [ih4 hab, hdp]
        · intro hno
          have hpi : p ≠ extractPath i := fun hpi => hno ⟨i, by simp, hi, hpi.symm⟩
          refine ⟨?_, ?_⟩
          · rintro ⟨x, hx, hex, hxab⟩
            by_cases hab : ∃ x ∈ is, isExtractable x es ps = true ∧ Above p (extractPath x)
            · exact ih3 hab
            · rw [ih4 hab, hd]
              rcases List.mem_cons.1 hx with rfl | hx
              · simp [hpi, hxab]
              · exact absurd ⟨x, hx, hex, hxab⟩ hab
          · intro hnab
            have hab : ¬ ∃ x ∈ is, isExtractable x es ps = true ∧ Above p (extractPath x) :=
              fun ⟨x, hx, hex, hxab⟩ => hnab ⟨x, List.mem_cons_of_mem _ hx, hex, hxab⟩
            rw [ih4 hab, hd]
            have : ¬ Above p (extractPath i) := fun c => hnab ⟨i, by simp, hi, c⟩
            simp [hpi, this]
    · have hops : extractAll z es ps d dt n (i :: is) = extractAll z es ps d dt n is := by
        rw [extractAll, if_neg hi]
      rw [hops] at h ⊢
      obtain ⟨ih1, ih2⟩ := ih h
      have hiff : ∀ Q : Str → Prop, (∃ name ∈ i :: is, isExtractable name es ps = true ∧ Q name) ↔
          ∃ name ∈ is, isExtractable name es ps = true ∧ Q name := by
        intro Q
        constructor
        · rintro ⟨x, hx, hex, hq⟩
          rcases List.mem_cons.1 hx with rfl | hx
          · exact absurd hex hi
          · exact ⟨x, hx, hex, hq⟩
        · rintro ⟨x, hx, hex, hq⟩
          exact ⟨x, List.mem_cons_of_mem _ hx, hex, hq⟩
      refine ⟨?_, ?_⟩
      · rintro name ⟨b, a, hba, hw, hpl, hlast⟩
        refine ih1 name ?_
        cases b with
        | nil =>
          simp only [List.nil_append, List.cons.injEq] at hba
          rw [← hba.1] at hw
          exact absurd hw hi
        | cons y b =>
          simp only [List.cons_append, List.cons.injEq] at hba
          exact ⟨b, a, hba.2, hw, hpl, hlast⟩
      · rw [hiff, hiff]
        exact ih2

theorem natsLe_refl (a : List Nat) : natsLe a a = true := by
  induction a with
  | nil => rfl
  | cons x xs ih => simp [natsLe, ih]

theorem natsLe_total (a b : List Nat) : natsLe a b = true ∨ natsLe b a = true := by
  induction a generalizing b with
  | nil => exact Or.inl rfl
  | cons x xs ih =>
    cases b with
    | nil => exact Or.inr rfl
    | cons y ys =>
      rcases Nat.lt_trichotomy x y with h | h | h
      · simp [natsLe, h]
      · subst h
        simpa [natsLe] using ih ys
      · simp [natsLe, h]

theorem natsLe_trans {a b c : List Nat} (h1 : natsLe a b = true) (h2 : natsLe b c = true) :
    natsLe a c = true := by
  induction a generalizing b c with
  | nil => rfl
  | cons x xs ih =>
    cases b with
    | nil => cases h1
    | cons y ys =>
      cases c with
      | nil => cases h2
      | cons w ws =>
        simp only [natsLe] at h1 h2 ⊢
        by_cases hxy : x < y
        · by_cases hyw : y < w
          · rw [if_pos (by omega)]
          · rw [if_neg hyw] at h2
            by_cases hwy : w < y
            · rw [if_pos hwy] at h2; cases h2
            · rw [if_pos (by omega)]
        · rw [if_neg hxy] at h1
          by_cases hyx : y < x
          · rw [if_pos hyx] at h1; cases h1
          · rw [if_neg hyx] at h1
            have : x = y := by omega
            subst this
            by_cases hyw : x < w
            · rw [if_pos hyw]
            · rw [if_neg hyw] at h2 ⊢
              by_cases hwy : w < x
              · rw [if_pos hwy] at h2; cases h2
              · rw [if_neg hwy] at h2 ⊢
                exact ih h1 h2

theorem max_cases (a b : Date) :
    (Date.max a b = a ∨ Date.max a b = b) ∧ natsLe a.toList (Date.max a b).toList = true ∧
      natsLe b.toList (Date.max a b).toList = true := by
  unfold Date.max
  by_cases h : natsLe b.toList a.toList = true
  · rw [if_pos h]; exact ⟨Or.inl rfl, natsLe_refl _, h⟩
  · rw [if_neg h]
    exact ⟨Or.inr rfl, (natsLe_total a.toList b.toList).resolve_right h, natsLe_refl _⟩

/-- The number of extracted members, and the newest date. -/
theorem extractAll_count {items : List Str} {d : Disk} {dt dt' : Date} {n n' : Nat}
    (h : (extractAll z es ps d dt n items).res = .ok (dt', n')) :
    n' = n + (items.filter (fun i => isExtractable i es ps)).length ∧
    (dt' = dt ∨ ∃ i ∈ items, isExtractable i es ps = true ∧
      ∃ m, z.getinfo i = some m ∧ m.date = dt') ∧
    natsLe dt.toList dt'.toList = true ∧
    ∀ i ∈ items, isExtractable i es ps = true → ∃ m, z.getinfo i = some m ∧
      natsLe m.date.toList dt'.toList = true := by
  induction items generalizing d dt n with
  | nil =>
    simp only [extractAll, Except.ok.injEq, Prod.mk.injEq] at h
    obtain ⟨rfl, rfl⟩ := h
    exact ⟨by simp, Or.inl rfl, natsLe_refl _, by simp⟩
  | cons i is ih =>
    by_cases hi : isExtractable i es ps = true
    · obtain ⟨m, hm, _, h2, _⟩ := extractAll_cons_pos hi h
      obtain ⟨h3, h4, h5, h6⟩ := ih h2
      obtain ⟨k1, k2, k3⟩ := max_cases m.date dt
      refine ⟨?_, ?_, natsLe_trans k3 h5, ?_⟩
      · rw [List.filter_cons, if_pos hi, List.length_cons]; omega
      · rcases h4 with h4 | ⟨j, hj, hej, m', hm', hd'⟩
        · rcases k1 with k1 | k1
          · exact Or.inr ⟨i, by simp, hi, m, hm, by rw [h4, k1]⟩
          · exact Or.inl (h4.trans k1)
        · exact Or.inr ⟨j, List.mem_cons_of_mem _ hj, hej, m', hm', hd'⟩
      · intro j hj hej
        rcases List.mem_cons.1 hj with rfl | hj
        · exact ⟨m, hm, natsLe_trans k2 h5⟩
        · exact h6 j hj hej
    · have hops : extractAll z es ps d dt n (i :: is) = extractAll z es ps d dt n is := by
        rw [extractAll, if_neg hi]
      rw [hops] at h
      obtain ⟨h3, h4, h5, h6⟩ := ih h
      refine ⟨?_, ?_, h5, ?_⟩
      · rw [List.filter_cons, if_neg hi]; exact h3
      · rcases h4 with h4 | ⟨j, hj, hej, hr⟩
        · exact Or.inl h4
        · exact Or.inr ⟨j, List.mem_cons_of_mem _ hj, hej, hr⟩
      · intro j hj hej
        rcases List.mem_cons.1 hj with rfl | hj
        · exact absurd hej hi
        · exact h6 j hj hej

/-! ## in terms of the archive -/

theorem getinfo_iff {i : Str} {m : ZipMember} :
    z.getinfo i = some m ↔ Current z m ∧ m.name = i := by
  unfold Archive.getinfo Current
  rw [List.find?_eq_some_iff_append]
  constructor
  · rintro ⟨hn, as, bs, h1, h2⟩
    rw [beq_iff_eq] at hn
    refine ⟨⟨bs.reverse, as.reverse, ?_, ?_⟩, hn⟩
    · have := congrArg List.reverse h1
      simpa using this
    · intro m' hm' hc
      have := h2 m' (List.mem_reverse.1 hm')
      rw [hc, hn] at this
      simp at this
  · rintro ⟨⟨b, a, h1, h2⟩, rfl⟩
    refine ⟨by simp, a.reverse, b.reverse, by rw [h1]; simp, ?_⟩
    intro m' hm'
    simpa using h2 m' (List.mem_reverse.1 hm')

theorem finalAt_lastName {top : Str} {p : FPath} {m : ZipMember} (ht : top ≠ [])
    (h : FinalAt z top p m) :
    LastName (isExtractable · endings (categories ++ [top]) = true) (z.members.map (·.name)) p m.name
      ∧ z.getinfo m.name = some m := by
  obtain ⟨b, a, h1, h2, h3, h4⟩ := h
  refine ⟨⟨b.map (·.name), a.map (·.name), by rw [h1]; simp, (extractable_iff ht).2 h2, h3, ?_⟩, ?_⟩
  · intro x hx hex
    obtain ⟨m', hm', rfl⟩ := List.mem_map.1 hx
    exact h4 m' hm' ((extractable_iff ht).1 hex)
  · unfold Archive.getinfo
    rw [h1, List.reverse_append, List.reverse_cons, List.append_assoc, List.find?_append]
    have : a.reverse.find? (fun x => x.name == m.name) = none := by
      rw [List.find?_eq_none]
      intro x hx hc
      rw [beq_iff_eq] at hc
      exact h4 x (List.mem_reverse.1 hx) (by rw [hc]; exact h2) (by rw [hc]; exact h3)
    rw [this]
    simp

/-- If something wanted has a place then there is a final one. -/
theorem exists_finalAt {top : Str} {m : ZipMember} (hm : m ∈ z.members) (hw : Wanted top m.name) :
    ∃ m', FinalAt z top (extractPath m.name) m' := by
  classical
  unfold FinalAt
  generalize z.members = l at hm
  induction l with
  | nil => cases hm
  | cons x l ih =>
    by_cases hin : ∃ y ∈ l, Wanted top y.name ∧ extractPath y.name = extractPath m.name
    · -- a later one
      have : ∃ m', ∃ b a, l = b ++ m' :: a ∧ Wanted top m'.name ∧
          extractPath m'.name = extractPath m.name ∧
          ∀ y ∈ a, Wanted top y.name → extractPath y.name ≠ extractPath m.name := by
        clear ih hm
        induction l with
        | nil => obtain ⟨y, hy, _⟩ := hin; cases hy
        | cons u l ihl =>
          by_cases hin' : ∃ y ∈ l, Wanted top y.name ∧ extractPath y.name = extractPath m.name
          · obtain ⟨m', b, a, h1, h2⟩ := ihl hin'
            exact ⟨m', u :: b, a, by rw [h1]; rfl, h2⟩
          · obtain ⟨y, hy, h1, h2⟩ := hin
            rcases List.mem_cons.1 hy with rfl | hy
            · exact ⟨y, [], l, rfl, h1, h2, fun v hv hw' hc => hin' ⟨v, hv, hw', hc⟩⟩
            · exact absurd ⟨y, hy, h1, h2⟩ hin'
      obtain ⟨m', b, a, h1, h2⟩ := this
      exact ⟨m', x :: b, a, by rw [h1]; rfl, h2⟩
    · rcases List.mem_cons.1 hm with rfl | hm
      · exact ⟨m, [], l, rfl, hw, rfl, fun v hv hw' hc => hin ⟨v, hv, hw', hc⟩⟩
      · exact absurd ⟨m, hm, hw, rfl⟩ hin

theorem finalAt_wanted {top : Str} {p : FPath} {m : ZipMember} (h : FinalAt z top p m) :
    m ∈ z.members ∧ Wanted top m.name ∧ extractPath m.name = p := by
  obtain ⟨b, a, h1, h2, h3, _⟩ := h
  exact ⟨by rw [h1]; simp, h2, h3⟩

/-- **C48** (what is on the disk after the extraction): at the place of a wanted member its content
(that of the last one with this place), directories above them, and nothing else changed. -/
theorem extracted_exactly {top : Str} (ht : top ≠ []) {d : Disk} {dt : Date} {n : Nat} {r}
    (h : (extractAll z endings (categories ++ [top]) d dt n (z.members.map (·.name))).res = .ok r)
    {s : Disk} (hs : s = applyAll d
      (extractAll z endings (categories ++ [top]) d dt n (z.members.map (·.name))).ops) (p : FPath) :
    (∀ m, FinalAt z top p m → s p = some (memberObj m)) ∧
    ((¬ ∃ m, FinalAt z top p m) →
      ((∃ q m, FinalAt z top q m ∧ Above p q) → s p = some .dir) ∧
      ((¬ ∃ q m, FinalAt z top q m ∧ Above p q) → s p = d p)) := by
  obtain ⟨h1, h2⟩ := extractAll_ok h p
  subst hs
  have hmem : ∀ Q : FPath → Prop, (∃ name ∈ z.members.map (·.name),
      isExtractable name endings (categories ++ [top]) = true ∧ Q (extractPath name)) ↔
      ∃ q m, FinalAt z top q m ∧ Q q := by
    intro Q
    constructor
    · rintro ⟨name, hn, hex, hq⟩
      obtain ⟨m, hm, rfl⟩ := List.mem_map.1 hn
      obtain ⟨m', hm'⟩ := exists_finalAt hm ((extractable_iff ht).1 hex)
      exact ⟨_, m', hm', hq⟩
    · rintro ⟨q, m, hf, hq⟩
      obtain ⟨k1, k2, k3⟩ := finalAt_wanted hf
      exact ⟨m.name, List.mem_map.2 ⟨m, k1, rfl⟩, (extractable_iff ht).2 k2, by rw [k3]; exact hq⟩
  refine ⟨?_, ?_⟩
  · intro m hm
    obtain ⟨hl, hg⟩ := finalAt_lastName ht hm
    obtain ⟨m', hm', hx⟩ := h1 _ hl
    rw [hg] at hm'
    injection hm' with hm'
    rw [hx, hm']
  · intro hno
    have hno' : ¬ ∃ name ∈ z.members.map (·.name),
        isExtractable name endings (categories ++ [top]) = true ∧ extractPath name = p := by
      intro hc
      obtain ⟨q, m, hf, rfl⟩ := (hmem (· = p)).1 hc
      exact hno ⟨m, hf⟩
    obtain ⟨h3, h4⟩ := h2 hno'
    exact ⟨fun hab => h3 ((hmem (Above p)).2 hab), fun hab => h4 (fun c => hab ((hmem (Above p)).1 c))⟩

open Classical in
/-- **C48** (how many, and the date): every wanted name of the archive counts once, and the date is
that of the newest one. -/
theorem extracted_count {top : Str} (ht : top ≠ []) {d : Disk} {dt : Date} {n : Nat}
    (h : (extractAll z endings (categories ++ [top]) d preNexus 0 (z.members.map (·.name))).res
      = .ok (dt, n)) :
    n = (z.members.filter (fun m => decide (Wanted top m.name))).length ∧ Newest z top dt := by
  obtain ⟨h1, h2, h3, h4⟩ := extractAll_count h
  constructor
  · rw [h1, List.filter_map, List.length_map, Nat.zero_add]
    congr 1
    apply List.filter_congr
    intro m _
    rw [Function.comp_apply, Bool.eq_iff_iff, extractable_iff ht, decide_eq_true_iff]
  · refine ⟨?_, h3, ?_⟩
    · rcases h2 with h2 | ⟨i, hi, hex, m, hm, hd⟩
      · exact Or.inl h2
      · right
        obtain ⟨hc, hn⟩ := getinfo_iff.1 hm
        exact ⟨m, hc, by rw [hn]; exact (extractable_iff ht).1 hex, hd⟩
    · intro m hc hw
      have hg := getinfo_iff.2 ⟨hc, rfl⟩
      have hmem : m ∈ z.members := by
        obtain ⟨b, a, hba, _⟩ := hc
        rw [hba]; simp
      obtain ⟨m', hm', hle⟩ := h4 m.name (List.mem_map.2 ⟨m, hmem, rfl⟩) ((extractable_iff ht).2 hw)
      rw [hg] at hm'
      injection hm' with hm'
      rw [← hm'] at hle
      exact hle

end Punx

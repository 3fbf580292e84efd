import Verif.Props.Extract
import Verif.Props.Cache

/-!
# Interrupted installations (C44–C46, C48)
-/

namespace Punx

open Spec

/-! ## stopping -/

theorem stops_append {d : Disk} {a b : List Op} {s : Disk} :
    Stops d (a ++ b) s ↔ Stops d a s ∨ Stops (applyAll d a) b s := by
  induction a generalizing d with
  | nil =>
    constructor
    · exact fun h => Or.inr h
    · rintro (h | h)
      · cases h; exact .here _ _
      · exact h
  | cons o os ih =>
    rw [List.cons_append, applyAll_cons]
    constructor
    · intro h
      cases h with
      | here => exact Or.inl (.here _ _)
      | later h =>
        rcases ih.1 h with h | h
        · exact Or.inl (.later h)
        · exact Or.inr h
      | torn p c junk => exact Or.inl (.torn _ _ _ _ _)
    · rintro (h | h)
      · cases h with
        | here => exact .here _ _
        | later h => exact .later (ih.2 (Or.inl h))
        | torn p c junk => exact .torn _ _ _ _ _
      · exact .later (ih.2 (Or.inr h))

theorem stops_nil {d s : Disk} (h : Stops d [] s) : s = d := by cases h; rfl

/-- Not stopping at all is one of the cases. -/
theorem stops_end (d : Disk) (ops : List Op) : Stops d ops (applyAll d ops) := by
  induction ops generalizing d with
  | nil => exact .here _ _
  | cons o os ih => exact .later (ih _)

/-- An operation that only concerns what is in one directory. -/
def Inside (top : Str) : Op → Prop
  | .mkdir p => ∃ r, p = top :: r
  | .create p => ∃ r, p = top :: r
  | .write p _ => ∃ r, p = top :: r
  | .remove p => ∃ r, p = top :: r
  | .rename _ _ => False

theorem inside_apply {top : Str} {o : Op} (h : Inside top o) (d : Disk) {q : FPath}
    (hq : q.head? ≠ some top) : o.apply d q = d q := by
  have key : ∀ p : FPath, (∃ r, p = top :: r) → q ≠ p := by
    rintro p ⟨r, rfl⟩ rfl
    exact hq rfl
  cases o with
  | rename => exact absurd h id
  | mkdir p => simp [Op.apply, Disk.put, key p h]
  | create p => simp [Op.apply, Disk.put, key p h]
  | write p c => simp [Op.apply, Disk.put, key p h]
  | remove p => simp [Op.apply, Disk.put, key p h]

theorem stops_inside {top : Str} {d s : Disk} {ops : List Op} (h : Stops d ops s)
    (hi : ∀ o ∈ ops, Inside top o) {q : FPath} (hq : q.head? ≠ some top) : s q = d q := by
  induction h with
  | here => rfl
  | later _ ih =>
    rw [ih (fun o ho => hi o (List.mem_cons_of_mem _ ho)), inside_apply (hi _ (by simp)) _ hq]
  | torn d p c junk ops =>
    obtain ⟨r, rfl⟩ := hi (.write p c) (by simp)
    have : q ≠ top :: r := by rintro rfl; exact hq rfl
    simp [Disk.put, this]

theorem applyAll_inside {top : Str} {d : Disk} {ops : List Op} (hi : ∀ o ∈ ops, Inside top o)
    {q : FPath} (hq : q.head? ≠ some top) : applyAll d ops q = d q :=
  stops_inside (stops_end d ops) hi hq

theorem makeDirs_inside {top : Str} {d : Disk} {r : FPath} :
    ∀ o ∈ makeDirs d [] (top :: r), Inside top o := by
  have key : ∀ (ws pre : FPath), ∀ o ∈ makeDirs d (top :: pre) ws, Inside top o := by
    intro ws
    induction ws with
    | nil => intro pre o ho; simp [makeDirs] at ho
    | cons w ws ih =>
      intro pre o ho
      rw [makeDirs, List.mem_append] at ho
      rcases ho with ho | ho
      · split at ho
        · cases ho
        · rw [List.mem_singleton] at ho; subst ho; exact ⟨_, rfl⟩
      · exact ih (pre ++ [w]) o ho
  intro o ho
  rw [makeDirs, List.mem_append] at ho
  rcases ho with ho | ho
  · split at ho
    · cases ho
    · rw [List.mem_singleton] at ho; subst ho; exact ⟨_, rfl⟩
  · exact key r [] o ho

theorem extractMember_inside {top : Str} {d : Disk} {m : ZipMember} {r : FPath}
    (hp : extractPath m.name = top :: r) : ∀ o ∈ (extractMember d m).ops, Inside top o := by
  have hds : ∀ o ∈ makeDirs d [] (extractPath m.name).dropLast, Inside top o := by
    rw [hp]
    cases r with
    | nil => intro o ho; simp [makeDirs] at ho
    | cons x r => exact makeDirs_inside
  intro o ho
  unfold extractMember at ho
  simp only at ho
  split at ho
  · cases ho
  · split at ho
    · split at ho
      · rcases List.mem_append.1 ho with ho | ho
        · exact hds o ho
        · rw [List.mem_singleton] at ho; subst ho; exact ⟨r, hp⟩
      · exact hds o ho
      · exact hds o ho
    · split at ho
      · exact hds o ho
      · rcases List.mem_append.1 ho with ho | ho
        · exact hds o ho
        · rcases List.mem_cons.1 ho with rfl | ho
          · exact ⟨r, hp⟩
          · rw [List.mem_singleton] at ho; subst ho; exact ⟨r, hp⟩

theorem extractAll_inside {z : Archive} {es ps : List Str} {top : Str} {items : List Str}
    (hp : ∀ i ∈ items, ∃ r, extractPath i = top :: r) (d : Disk) (dt : Date) (n : Nat) :
    ∀ o ∈ (extractAll z es ps d dt n items).ops, Inside top o := by
  induction items generalizing d dt n with
  | nil => intro o ho; simp [extractAll] at ho
  | cons i is ih =>
    have ih' := fun d dt n => ih (fun j hj => hp j (List.mem_cons_of_mem _ hj)) d dt n
    intro o ho
    rw [extractAll] at ho
    split at ho
    · split at ho
      · cases ho
      · rename_i m hm
        obtain ⟨r, hr⟩ := hp i (by simp)
        rw [← getinfo_name hm] at hr
        unfold Deed.andThen at ho
        split at ho
        · exact extractMember_inside hr o ho
        · rcases List.mem_append.1 ho with ho | ho
          · exact extractMember_inside hr o ho
          · exact ih' _ _ _ o ho
    · exact ih' _ _ _ o ho

/-! ## archives with one directory -/

theorem oneDirectory_path {z : Archive} {top : Str} (h : OneDirectory z top) {m : ZipMember}
    (hm : m ∈ z.members) : ∃ r, extractPath m.name = top :: r := by
  obtain ⟨_, h1, h2, h3⟩ := h
  obtain ⟨rest, hr⟩ := h3 m hm
  simp only [List.mem_cons, List.not_mem_nil, or_false, not_or] at h2
  unfold extractPath
  rw [hr, split_append_sep h1, List.filter_cons, if_pos]
  · exact ⟨_, rfl⟩
  · simp [h2.1, h2.2.1, h2.2.2]

theorem oneDirectory_first {z : Archive} {top : Str} (h : OneDirectory z top) :
    ∃ m ms, z.members = m :: ms ∧ firstComp '/' m.name = top := by
  obtain ⟨h0, h1, h2, h3⟩ := h
  cases hz : z.members with
  | nil => exact absurd hz h0
  | cons m ms =>
    refine ⟨m, ms, rfl, ?_⟩
    obtain ⟨rest, hr⟩ := h3 m (by rw [hz]; simp)
    unfold firstComp
    rw [hr, List.takeWhile_append_of_pos]
    · simp
    · intro c hc
      have : c ≠ '/' := fun e => h1 (e ▸ hc)
      simpa using this

theorem oneDirectory_ne {z : Archive} {top : Str} (h : OneDirectory z top) : top ≠ [] := by
  obtain ⟨_, _, h2, _⟩ := h
  simp at h2
  exact h2.1

theorem wanted_last {top name : Str} (h : Wanted top name) :
    ∃ l stem ext, extractPath name = l ++ [stem ++ ext] ∧
      ext ∈ [s%".xsd", s%".xml", s%".xsl"] := by
  obtain ⟨front, parent, stem, ext, h1, h2, h3, _⟩ := h
  have hx : extractPath name = (words name).filter (fun w => !(w == s%"..")) := by
    unfold extractPath words
    rw [List.filter_filter]
    apply List.filter_congr
    intro w _
    cases (w == []) <;> cases (w == s%".") <;> cases (w == s%"..") <;> rfl
  have hne : (stem ++ ext == s%"..") = false := by
    rw [beq_eq_false_iff_ne]
    intro hc
    have := congrArg List.getLast? hc
    simp only [List.mem_cons, List.not_mem_nil, or_false] at h3
    rcases h3 with rfl | rfl | rfl <;> simp [List.getLast?_append] at this
  refine ⟨(front ++ [parent]).filter (fun w => !(w == s%"..")), stem, ext, ?_, h3⟩
  rw [hx, h1, show front ++ [parent, stem ++ ext] = (front ++ [parent]) ++ [stem ++ ext] by simp,
    List.filter_append]
  congr 1
  rw [List.filter_cons, if_pos (by rw [hne]; rfl), List.filter_nil]

theorem finalAt_ne_info {z : Archive} {top : Str} {p : FPath} {m : ZipMember} (h : FinalAt z top p m)
    (l : FPath) : p ≠ l ++ [infoName] := by
  obtain ⟨_, hw, hp⟩ := finalAt_wanted h
  obtain ⟨l', stem, ext, h1, h2⟩ := wanted_last hw
  rintro rfl
  rw [hp] at h1
  have h3 := (List.append_inj' h1 rfl).2
  simp only [List.cons.injEq, and_true] at h3
  have := congrArg List.getLast? h3
  simp only [List.mem_cons, List.not_mem_nil, or_false] at h2
  rcases h2 with rfl | rfl | rfl <;> simp [List.getLast?_append, infoName] at this

/-! ## the stages of an installation -/

/-- The stages of the part that comes after the download, for an archive with one directory. -/
theorem unpack_stages {z : Archive} {top : Str} (ho : OneDirectory z top) (rm : Removal)
    (written : Str) (d : Disk) (name : Str) :
    (∃ ops, (unpack z rm written d name).ops = ops ∧ (∀ o ∈ ops, Inside top o) ∧
      (∃ e, (unpack z rm written d name).res = .error e) ∧
      ops = (extractAll z endings (categories ++ [top]) d preNexus 0
        (z.members.map (·.name))).ops) ∨
    ∃ ops d2, (∀ o ∈ ops, Inside top o) ∧ d2 = applyAll d ops ∧
      (unpack z rm written d name).ops = ops ++ (replaceOld rm d2 top name).ops ∧
      (unpack z rm written d name).res = (replaceOld rm d2 top name).res ∧
      Complete z top name d2 [top] ∧
      (∀ p, (¬ ∃ m, FinalAt z top p m) → (¬ ∃ q m, FinalAt z top q m ∧ Above p q) →
        p ≠ [top, infoName] → d2 p = d p) ∧
      (∀ p, (¬ ∃ m, FinalAt z top p m) → (∃ q m, FinalAt z top q m ∧ Above p q) →
        p ≠ [top, infoName] → d2 p = some .dir) := by
  obtain ⟨m0, ms, hz, htop⟩ := oneDirectory_first ho
  have ht := oneDirectory_ne ho
  have hpaths : ∀ i ∈ z.members.map (·.name), ∃ r, extractPath i = top :: r := by
    intro i hi
    obtain ⟨m, hm, rfl⟩ := List.mem_map.1 hi
    exact oneDirectory_path ho hm
  have hin := extractAll_inside (z := z) (es := endings) (ps := categories ++ [top]) hpaths d
    preNexus 0
  have hun : unpack z rm written d name =
      (extractAll z endings (categories ++ [top]) d preNexus 0 (z.members.map (·.name))).andThen d
      fun (dt, count) d1 =>
        if count < 2 then ⟨[], .error .valueError⟩
        else if !dt.valid then ⟨[], .error .valueError⟩
        else if !d1.isDir [top] || d1.isDir [top, infoName] then ⟨[], .error .osError⟩
        else
          let info := Content.json (infoFields name z.comment dt.iso written)
          Deed.andThen d1 ⟨[.create [top, infoName], .write [top, infoName] info], .ok ()⟩
            fun _ d2 => replaceOld rm d2 top name := by
    unfold unpack
    rw [hz]
    simp only [htop]
  rw [hun]
  generalize hE : extractAll z endings (categories ++ [top]) d preNexus 0
    (z.members.map (·.name)) = E at *
  unfold Deed.andThen
  cases hr : E.res with
  | error e => exact Or.inl ⟨_, rfl, hin, ⟨e, rfl⟩, rfl⟩
  | ok x =>
    obtain ⟨dt, n⟩ := x
    simp only
    split
    · exact Or.inl ⟨_, rfl, by simpa using hin, ⟨_, rfl⟩, by simp⟩
    · split
      · exact Or.inl ⟨_, rfl, by simpa using hin, ⟨_, rfl⟩, by simp⟩
      · split
        · exact Or.inl ⟨_, rfl, by simpa using hin, ⟨_, rfl⟩, by simp⟩
        · rename_i hd
          right
          have hokE : (extractAll z endings (categories ++ [top]) d preNexus 0
            (z.members.map (·.name))).res = .ok (dt, n) := by rw [hE]; exact hr
          have hex := extracted_exactly ht hokE rfl
          rw [hE] at hex
          have hcount := (extracted_count ht hokE).2
          refine ⟨E.ops ++ [.create [top, infoName],
            .write [top, infoName] (.json (infoFields name z.comment dt.iso written))], _, ?_, rfl, ?_,
            ?_, ?_, ?_, ?_⟩
          · intro o ho'
            rcases List.mem_append.1 ho' with ho' | ho'
            · exact hin o ho'
            · rcases List.mem_cons.1 ho' with rfl | ho'
              · exact ⟨_, rfl⟩
              · rw [List.mem_singleton] at ho'; subst ho'; exact ⟨_, rfl⟩
          · rw [applyAll_append, List.append_assoc]
          · rw [applyAll_append]
          · rw [applyAll_append]
            simp only [Bool.or_eq_true, not_or, Bool.not_eq_true', Bool.not_eq_false,
              Bool.not_eq_true] at hd
            have hdir : applyAll d E.ops [top] = some .dir := by
              simpa [Disk.isDir] using hd.1
            refine ⟨?_, ?_, ?_⟩
            · simp [applyAll_cons, applyAll_nil, Op.apply, Disk.put, hdir]
            · intro q m hf
              have h1 := (hex (top :: q)).1 m hf
              have h2 := finalAt_ne_info hf [top]
              simp only [List.singleton_append, ne_eq] at h2
              simp [applyAll_cons, applyAll_nil, Op.apply, Disk.put] at h2 ⊢
              simp [h2, h1]
            · refine ⟨infoFields name z.comment dt.iso written, dt, ?_, ?_, ?_, hcount, ?_⟩
              · rw [← show infoName = s%"__github_info__.json" from rfl]
                simp [applyAll_cons, applyAll_nil, Op.apply, Disk.put]
              · rfl
              · rfl
              · rfl
          · intro p h1 h2 h3
            rw [applyAll_append]
            simp only [applyAll_cons, applyAll_nil, Op.apply, Disk.put, h3, if_false]
            exact ((hex p).2 h1).2 h2
          · intro p h1 h2 h3
            rw [applyAll_append]
            simp only [applyAll_cons, applyAll_nil, Op.apply, Disk.put, h3, if_false]
            exact ((hex p).2 h1).1 h2

theorem remove_stops {name : Str} {rm : Removal} {d s : Disk}
    (h : Stops d (rm.map (fun r => Op.remove (name :: r))) s) :
    ∀ q, s (name :: q) = d (name :: q) ∨ s (name :: q) = none := by
  induction rm generalizing d with
  | nil => intro q; rw [stops_nil h]; exact Or.inl rfl
  | cons r rm ih =>
    intro q
    rw [List.map_cons] at h
    cases h with
    | here => exact Or.inl rfl
    | later h =>
      rcases ih h q with hs | hs
      · rw [hs]
        simp only [Op.apply, Disk.put]
        split
        · exact Or.inr rfl
        · exact Or.inl rfl
      · exact Or.inr hs

/-- What the disk may look like while the old set is replaced. -/
theorem replaceOld_stops {rm : Removal} {d2 s : Disk} {top name : Str} (hne : top ≠ name)
    (h : Stops d2 (replaceOld rm d2 top name).ops s) :
    ((∀ q : FPath, q.head? ≠ some name → s q = d2 q) ∧
      (∀ q, s (name :: q) = d2 (name :: q) ∨ s (name :: q) = none) ∧
      (d2 [name] ≠ some .dir → s = d2)) ∨
    ((∀ q, s (name :: q) = d2 (top :: q)) ∧ Gone s top ∧
      (∀ q : FPath, q.head? ≠ some name → q.head? ≠ some top → s q = d2 q)) ∨
    (d2 [name] = some .dir ∧ (∀ q, s (name :: top :: q) = d2 (top :: q)) ∧ Gone s top ∧
      (∀ q : FPath, q.head? ≠ some name → q.head? ≠ some top → s q = d2 q) ∧
      (∀ q : FPath, q.head? ≠ some top → s (name :: q) = d2 (name :: q) ∨ s (name :: q) = none)) := by
  unfold replaceOld Deed.andThen at h
  simp only at h
  generalize hrm : (if d2.isDir [name] = true then rm.map (fun r => Op.remove (name :: r)) else [])
    = ops at h
  have hin : ∀ o ∈ ops, Inside name o := by
    rw [← hrm]
    intro o ho
    split at ho
    · obtain ⟨r, _, rfl⟩ := List.mem_map.1 ho
      exact ⟨r, rfl⟩
    · cases ho
  have hsub : ∀ s', Stops d2 ops s' →
      ∀ q, s' (name :: q) = d2 (name :: q) ∨ s' (name :: q) = none := by
    intro s' hs'
    rw [← hrm] at hs'
    split at hs'
    · exact remove_stops hs'
    · intro q; rw [stops_nil hs']; exact Or.inl rfl
  have hfile : d2 [name] ≠ some .dir → ops = [] := by
    intro hd
    rw [← hrm, if_neg]
    simpa [Disk.isDir] using hd
  rw [stops_append] at h
  rcases h with h | h
  · left
    refine ⟨fun q hq => stops_inside h hin hq, hsub s h, fun hd => ?_⟩
    rw [hfile hd] at h
    exact stops_nil h
  · have hmid := stops_end d2 ops
    generalize hd3 : applyAll d2 ops = d3 at h hmid
    have hfr : ∀ q : FPath, q.head? ≠ some name → d3 q = d2 q :=
      fun q hq => stops_inside hmid hin hq
    have h3 := hsub d3 hmid
    have hleft : ((∀ q : FPath, q.head? ≠ some name → d3 q = d2 q) ∧
      (∀ q, d3 (name :: q) = d2 (name :: q) ∨ d3 (name :: q) = none) ∧
      (d2 [name] ≠ some .dir → d3 = d2)) := by
      refine ⟨hfr, h3, fun hd => ?_⟩
      rw [← hd3, hfile hd]; rfl
    cases hn : d3 [name] with
    | none =>
      simp only [hn] at h
      split at h
      · cases h with
        | here => exact Or.inl hleft
        | later h =>
          rw [stops_nil h]
          right; left
          refine ⟨?_, ?_, ?_⟩
          · intro q
            simp only [Op.apply, List.cons_prefix_cons, List.nil_prefix, and_true, if_true]
            have := hfr (top :: q) (by simp [hne])
            simpa using this
          · intro q
            simp [Op.apply, Ne.symm hne]
          · intro q h1 h2
            have k1 : ¬ [name] <+: q := by
              rintro ⟨t, rfl⟩; exact h1 rfl
            have k2 : ¬ [top] <+: q := by
              rintro ⟨t, rfl⟩; exact h2 rfl
            simp only [Op.apply, k1, k2, if_false]
            exact hfr q h1
      · rw [stops_nil h]; exact Or.inl hleft
    | some f =>
      cases f with
      | file c =>
        simp only [hn] at h
        rw [stops_nil h]; exact Or.inl hleft
      | dir =>
        simp only [hn] at h
        split at h
        · rw [stops_nil h]; exact Or.inl hleft
        · cases h with
          | here => exact Or.inl hleft
          | later h =>
            rw [stops_nil h]
            right; right
            have hdir : d2 [name] = some .dir := by
              rcases h3 [] with h' | h'
              · rw [← h']; exact hn
              · rw [hn] at h'; cases h'
            refine ⟨hdir, ?_, ?_, ?_, ?_⟩
            · intro q
              simp only [Op.apply, List.cons_prefix_cons, List.nil_prefix, and_true, if_true]
              have := hfr (top :: q) (by simp [hne])
              simpa using this
            · intro q
              simp [Op.apply, Ne.symm hne]
            · intro q h1 h2
              have k1 : ¬ [name, top] <+: q := by
                rintro ⟨t, rfl⟩; exact h1 rfl
              have k2 : ¬ [top] <+: q := by
                rintro ⟨t, rfl⟩; exact h2 rfl
              simp only [Op.apply, k1, k2, if_false]
              exact hfr q h1
            · intro q h1
              have k1 : ¬ [name, top] <+: name :: q := by
                rintro ⟨t, ht⟩
                simp only [List.cons_append, List.nil_append, List.cons.injEq, true_and] at ht
                rw [← ht] at h1; exact h1 rfl
              have k2 : ¬ [top] <+: name :: q := by
                simp [hne]
              simp only [Op.apply, k1, k2, if_false]
              exact h3 q

end Punx

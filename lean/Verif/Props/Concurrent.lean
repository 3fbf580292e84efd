import Verif.Lemmas.Prog
import Verif.Props.Install2

/-!
# Installations that run at the same time (C103, C104)
-/

namespace Punx

open Spec

/-! ## a process that is alone does what `download_file_set` does -/

theorem isDir_iff {d : Disk} {p : FPath} : d.isDir p = true ↔ d p = some .dir := by
  unfold Disk.isDir; exact beq_iff_eq

theorem makeDirs_congr {d e : Disk} {pre : FPath} {ws : FPath}
    (h : ∀ w r, d (pre ++ w :: r) = e (pre ++ w :: r)) : makeDirs d pre ws = makeDirs e pre ws := by
  induction ws generalizing pre with
  | nil => rfl
  | cons w ws ih =>
    rw [makeDirs, makeDirs, Disk.has, Disk.has, h w [], ih]
    intro w' r
    have := h w (w' :: r)
    simpa using this

theorem dirsPossible_congr {d e : Disk} {pre : FPath} {ws : FPath}
    (h : ∀ w r, d (pre ++ w :: r) = e (pre ++ w :: r)) :
    dirsPossible d pre ws = dirsPossible e pre ws := by
  induction ws generalizing pre with
  | nil => rfl
  | cons w ws ih =>
    rw [dirsPossible, dirsPossible, Disk.isDir, Disk.isDir, h w [], ih]
    intro w' r
    have := h w (w' :: r)
    simpa using this

theorem put_below {d : Disk} {p : FPath} {o : Option FObj} (w : Str) (r : FPath) :
    (d.put p o) (p ++ w :: r) = d (p ++ w :: r) := by
  unfold Disk.put
  rw [if_neg]
  intro h
  have := congrArg List.length h
  simp at this

theorem goes_makeDirs {d : Disk} {pre ws : FPath} {k : Prog} (hp : d.dirAt pre = true)
    (h : dirsPossible d pre ws = true) :
    Goes d (makeDirsProc pre k ws) (makeDirs d pre ws) k ∧
      (applyAll d (makeDirs d pre ws)).dirAt (pre ++ ws) = true := by
  induction ws generalizing d pre with
  | nil => rw [List.append_nil]; exact ⟨.here _ _, hp⟩
  | cons w ws ih =>
    rw [dirsPossible, Bool.and_eq_true, Bool.or_eq_true] at h
    obtain ⟨h1, h2⟩ := h
    rw [makeDirsProc, makeDirs, show pre ++ w :: ws = pre ++ [w] ++ ws by simp]
    by_cases hh : d.has (pre ++ [w]) = true
    · have hd : d.dirAt (pre ++ [w]) = true := by
        rw [Disk.dirAt]
        rcases h1 with h1 | h1
        · rw [Disk.has, beq_iff_eq.1 h1] at hh; cases hh
        · rw [h1]; simp
      obtain ⟨h3, h4⟩ := ih hd h2
      rw [if_pos hh, List.nil_append]
      refine ⟨.look ?_, h4⟩
      rw [if_pos hh]
      exact h3
    · rw [if_neg hh, List.singleton_append]
      have hd : ((Op.mkdir (pre ++ [w])).apply d).dirAt (pre ++ [w]) = true := by
        rw [Disk.dirAt]
        simp [Op.apply, Disk.put, Disk.isDir]
      have e1 : dirsPossible ((Op.mkdir (pre ++ [w])).apply d) (pre ++ [w]) ws = true := by
        rw [← h2]
        exact dirsPossible_congr fun w' r => put_below w' r
      have e2 : makeDirs ((Op.mkdir (pre ++ [w])).apply d) (pre ++ [w]) ws =
          makeDirs d (pre ++ [w]) ws := makeDirs_congr fun w' r => put_below w' r
      obtain ⟨h3, h4⟩ := ih hd e1
      rw [e2] at h3 h4
      refine ⟨.look ?_, h4⟩
      rw [if_neg hh]
      refine .act ?_ h3
      rw [Op.attempt, if_pos]
      rw [Bool.not_eq_true] at hh
      rw [List.dropLast_concat, hp, hh]
      rfl

/-- Going on after a piece of code: the exception, or the rest. -/
def afterwards {α : Type} (r : Except PyErr α) (k : α → Prog) : Prog :=
  match r with
  | .error e => .done (.error e)
  | .ok a => k a

theorem not_prefix_dropLast {p : FPath} {q : FPath} (h : q = p) (hne : p ≠ []) :
    ¬ q <+: p.dropLast := by
  subst h
  intro h
  have := h.length_le
  have : 0 < q.length := List.length_pos_iff.2 hne
  simp at *
  omega

theorem makeDirs_self (d : Disk) (p : FPath) :
    applyAll d (makeDirs d [] p.dropLast) p = d p := by
  rw [makeDirs_apply, if_neg]
  rintro ⟨_, _, h2, h3⟩
  exact not_prefix_dropLast rfl h2 h3

theorem goes_extract (d : Disk) (m : ZipMember) (k : Prog) :
    Goes d (extractProc m k) (extractMember d m).ops (afterwards (extractMember d m).res fun _ => k) := by
  unfold extractProc extractMember
  refine .look ?_
  by_cases h : dirsPossible d [] (extractPath m.name).dropLast = true
  · simp only [h, Bool.not_true, Bool.false_eq_true, if_false]
    have hs := makeDirs_self d (extractPath m.name)
    have hm := fun k => (goes_makeDirs (k := k) (d := d) (pre := []) rfl h).1
    have hd := (goes_makeDirs (k := k) (d := d) (pre := []) rfl h).2
    rw [List.nil_append] at hd
    by_cases hn : endsWith m.name s%"/" = true
    · rw [if_pos hn]
      cases ho : d (extractPath m.name) with
      | none =>
        refine (hm _).trans (.look ?_)
        rw [if_pos hn, hs, ho]
        refine .act ?_ (.here _ _)
        rw [Op.attempt, if_pos]
        rw [hd, Disk.has, hs, ho]
        rfl
      | some o =>
        cases o with
        | dir =>
          refine (hm _).trans' (.look ?_) (List.append_nil _)
          rw [if_pos hn, hs, ho]
          exact .here _ _
        | file c =>
          refine (hm _).trans' (.look ?_) (List.append_nil _)
          rw [if_pos hn, hs, ho]
          exact .here _ _
    · rw [if_neg hn]
      by_cases hi : d.isDir (extractPath m.name) = true
      · rw [if_pos hi]
        refine (hm _).trans' (.look ?_) (List.append_nil _)
        rw [if_neg hn, if_pos (by rw [Disk.isDir, hs]; exact hi)]
        exact .here _ _
      · rw [if_neg hi]
        refine (hm _).trans (.look ?_)
        rw [if_neg hn, if_neg (by rw [Disk.isDir, hs]; exact hi)]
        refine .act ?_ (.act ?_ (.here _ _))
        · rw [Op.attempt, if_pos]
          rw [hd, Disk.isDir, hs]
          rw [Bool.not_eq_true, Disk.isDir] at hi
          rw [hi]; rfl
        · rw [Op.attempt]
          simp [Op.apply, Disk.put]
  · rw [Bool.not_eq_true] at h
    simp only [h, Bool.not_false, if_true]
    exact .here _ _

theorem goes_extractAll {z : Archive} {es ps : List Str} {k : Date → Nat → Prog} (items : List Str)
    (d : Disk) (dt : Date) (n : Nat) :
    Goes d (extractAllProc z es ps dt n k items) (extractAll z es ps d dt n items).ops
      (afterwards (extractAll z es ps d dt n items).res fun x => k x.1 x.2) := by
  induction items generalizing d dt n with
  | nil => exact .here _ _
  | cons i is ih =>
    rw [extractAllProc, extractAll]
    by_cases hi : isExtractable i es ps = true
    · rw [if_pos hi, if_pos hi]
      cases hz : z.getinfo i with
      | none => exact .here _ _
      | some m =>
        simp only
        have h := goes_extract d m (extractAllProc z es ps (Date.max m.date dt) (n + 1) k is)
        unfold Deed.andThen
        cases hr : (extractMember d m).res with
        | error e => rw [hr] at h; exact h
        | ok u =>
          rw [hr] at h
          exact h.trans (ih _ _ _)
    · rw [if_neg hi, if_neg hi]
      exact ih _ _ _

theorem goes_remove {name : Str} {k : Prog} (rm : Removal) (d : Disk) :
    Goes d (removeProc name k rm) (rm.map (fun r => Op.remove (name :: r))) k := by
  induction rm generalizing d with
  | nil => exact .here _ _
  | cons r rs ih => exact .act rfl (ih _)

theorem goes_move {top name : Str} (d : Disk) :
    let x : Deed Unit := match d [name] with
      | none => if d.has [top] then ⟨[.rename [top] [name]], .ok ()⟩ else ⟨[], .error .osError⟩
      | some .dir =>
        if d.has [name, top] || !d.has [top] then ⟨[], .error .osError⟩
        else ⟨[.rename [top] [name, top]], .ok ()⟩
      | some (.file _) => ⟨[], .error .osError⟩
    Goes d (moveProc top name) x.ops (.done x.res) := by
  intro x
  refine .look ?_
  cases h : d [name] with
  | none =>
    have hx : x = if d.has [top] then ⟨[.rename [top] [name]], .ok ()⟩ else ⟨[], .error .osError⟩ := by
      simp only [x, h]
    rw [hx]
    by_cases ht : d.has [top] = true
    · simp only [if_pos ht]
      refine .act ?_ (.here _ _)
      rw [Op.attempt, if_pos]
      rw [ht, Disk.has, h]; rfl
    · simp only [if_neg ht]
      exact .here _ _
  | some o =>
    cases o with
    | file c =>
      have hx : x = ⟨[], .error .osError⟩ := by simp only [x, h]
      rw [hx]
      exact .here _ _
    | dir =>
      have hx : x = if d.has [name, top] || !d.has [top] then ⟨[], .error .osError⟩
          else ⟨[.rename [top] [name, top]], .ok ()⟩ := by simp only [x, h]
      rw [hx]
      by_cases ht : (d.has [name, top] || !d.has [top]) = true
      · simp only [if_pos ht]
        exact .here _ _
      · simp only [if_neg ht]
        refine .act ?_ (.here _ _)
        rw [Op.attempt, if_pos]
        rw [Bool.or_eq_true, not_or, Bool.not_eq_true, Bool.not_eq_true] at ht
        rw [ht.1, (Bool.not_eq_false' _).mp ht.2]
        rfl

theorem goes_replace {rm : Removal} {top name : Str} (d : Disk) :
    Goes d (replaceProc rm top name) (replaceOld rm d top name).ops
      (.done (replaceOld rm d top name).res) := by
  unfold replaceProc replaceOld Deed.andThen
  refine .look ?_
  by_cases h : d.isDir [name] = true
  · rw [if_pos h, if_pos h]
    exact (goes_remove rm d).trans (goes_move _)
  · rw [if_neg h, if_neg h]
    exact goes_move _

theorem goes_unpack {z : Archive} {rm : Removal} {w name : Str} (d : Disk) :
    Goes d (unpackProc z rm w name) (unpack z rm w d name).ops (.done (unpack z rm w d name).res) := by
  unfold unpackProc unpack
  cases hm : z.members with
  | nil => exact .here _ _
  | cons m ms =>
    simp only
    unfold Deed.andThen
    have h := goes_extractAll (z := z) (es := endings) (ps := categories ++ [firstComp '/' m.name])
      (k := fun dt count =>
        if count < 2 then .done (.error .valueError)
        else if !dt.valid then .done (.error .valueError)
        else .look fun d =>
          if !d.isDir [firstComp '/' m.name] || d.isDir [firstComp '/' m.name, infoName] then
            .done (.error .osError)
          else .act (.create [firstComp '/' m.name, infoName])
            (.act (.write [firstComp '/' m.name, infoName]
                (.json (infoFields name z.comment dt.iso w)))
              (replaceProc rm (firstComp '/' m.name) name)))
      ((m :: ms).map (·.name)) d preNexus 0
    cases hr : (extractAll z endings (categories ++ [firstComp '/' m.name]) d preNexus 0
        ((m :: ms).map (·.name))).res with
    | error e => rw [hr] at h; exact h
    | ok x =>
      rw [hr] at h
      refine h.trans ?_
      obtain ⟨dt, n⟩ := x
      generalize applyAll d _ = d1
      simp only [afterwards]
      by_cases hn : n < 2
      · rw [if_pos hn, if_pos hn]; exact .here _ _
      rw [if_neg hn, if_neg hn]
      by_cases hv : (!dt.valid) = true
      · rw [if_pos hv, if_pos hv]; exact .here _ _
      rw [if_neg hv, if_neg hv]
      by_cases ht : (!d1.isDir [firstComp '/' m.name] ||
          d1.isDir [firstComp '/' m.name, infoName]) = true
      · rw [if_pos ht]
        refine .look ?_
        rw [if_pos ht]
        exact .here _ _
      · rw [if_neg ht]
        refine .look ?_
        rw [if_neg ht]
        rw [Bool.or_eq_true, not_or, Bool.not_eq_true, Bool.not_eq_true] at ht
        refine .act ?_ (.act ?_ (goes_replace _))
        · rw [Op.attempt, if_pos]
          rw [ht.2, Disk.dirAt]
          have := (Bool.not_eq_false' _).mp ht.1
          simp [this]
        · rw [Op.attempt]
          simp [Op.apply, Disk.put]

/-- **C103**: a process that is alone carries out exactly the operations of `download_file_set`, and
has its result. -/
theorem install_alone (u : Use) (d : Disk) : Goes d u.proc (u.alone d).ops (.done (u.alone d).res) := by
  unfold Use.proc Use.alone installProc downloadFileSet
  refine .look ?_
  by_cases h : (d.has [u.name] && !u.update) = true
  · rw [if_pos h, if_pos h]; exact .here _ _
  · rw [if_neg h, if_neg h]
    cases (downloadArchive u.net).1 with
    | error e => exact .here _ _
    | ok o =>
      cases o with
      | none => exact .here _ _
      | some z => exact goes_unpack d

end Punx

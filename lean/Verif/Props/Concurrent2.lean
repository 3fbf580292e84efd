import Verif.Props.Concurrent

/-!
# Installations that run at the same time: they do not disturb each other (C103)
-/

namespace Punx

open Spec

/-- A path in one of some directories. -/
def Below (K : Str → Prop) (q : FPath) : Prop := ∃ k r, q = k :: r ∧ K k

/-- An operation on paths in some directories. -/
def OpBelow (K : Str → Prop) : Op → Prop
  | .mkdir p => Below K p
  | .create p => Below K p
  | .write p _ => Below K p
  | .remove p => Below K p
  | .rename p q => Below K p ∧ Below K q

theorem below_dirAt {K : Str → Prop} {p : FPath} (hp : Below K p) {d e : Disk}
    (h : Agree (Below K) d e) : d.dirAt p.dropLast = e.dirAt p.dropLast := by
  obtain ⟨k, r, rfl, hk⟩ := hp
  cases r with
  | nil => rfl
  | cons x r =>
    rw [show (k :: x :: r).dropLast = k :: (x :: r).dropLast from rfl]
    unfold Disk.dirAt Disk.isDir
    rw [h _ ⟨k, (x :: r).dropLast, rfl, hk⟩]

theorem agree_has {F : FPath → Prop} {d e : Disk} (h : Agree F d e) {p : FPath} (hp : F p) :
    d.has p = e.has p := by
  unfold Disk.has; rw [h p hp]

theorem agree_isDir {F : FPath → Prop} {d e : Disk} (h : Agree F d e) {p : FPath} (hp : F p) :
    d.isDir p = e.isDir p := by
  unfold Disk.isDir; rw [h p hp]

theorem agree_put {F : FPath → Prop} {p : FPath} {o : Option FObj} {d e : Disk} (h : Agree F d e) :
    Agree F (d.put p o) (e.put p o) := by
  intro q hq
  unfold Disk.put
  split
  · rfl
  · exact h q hq

theorem put_elsewhere {F : FPath → Prop} {p : FPath} {o : Option FObj} {d : Disk} (hp : F p) (q : FPath)
    (hq : ¬ F q) : (d.put p o) q = d q := by
  unfold Disk.put
  rw [if_neg]
  rintro rfl
  exact hq hp

theorem below_append {K : Str → Prop} {p r : FPath} (h : Below K p) : Below K (p ++ r) := by
  obtain ⟨k, s, rfl, hk⟩ := h
  exact ⟨k, s ++ r, rfl, hk⟩

theorem opLocal {K : Str → Prop} {o : Op} (h : OpBelow K o) : OpLocal (Below K) o := by
  cases o with
  | mkdir p =>
    refine ⟨fun d e hde => ?_, fun d d' hd q hq => ?_⟩
    · simp only [Op.attempt]
      rw [below_dirAt h hde, agree_has hde h]
      split
      · exact Or.inr ⟨_, _, rfl, rfl, agree_put hde⟩
      · exact Or.inl ⟨rfl, rfl⟩
    · simp only [Op.attempt] at hd
      split at hd
      · cases hd; exact put_elsewhere h q hq
      · cases hd
  | create p =>
    refine ⟨fun d e hde => ?_, fun d d' hd q hq => ?_⟩
    · simp only [Op.attempt]
      rw [below_dirAt h hde, agree_isDir hde h]
      split
      · exact Or.inr ⟨_, _, rfl, rfl, agree_put hde⟩
      · exact Or.inl ⟨rfl, rfl⟩
    · simp only [Op.attempt] at hd
      split at hd
      · cases hd; exact put_elsewhere h q hq
      · cases hd
  | write p c =>
    refine ⟨fun d e hde => ?_, fun d d' hd q hq => ?_⟩
    · simp only [Op.attempt]
      rw [hde p h]
      split
      · exact Or.inr ⟨_, _, rfl, rfl, agree_put hde⟩
      · exact Or.inr ⟨_, _, rfl, rfl, hde⟩
    · simp only [Op.attempt] at hd
      split at hd
      · cases hd; exact put_elsewhere h q hq
      · cases hd; rfl
  | remove p =>
    refine ⟨fun d e hde => Or.inr ⟨_, _, rfl, rfl, agree_put hde⟩, fun d d' hd q hq => ?_⟩
    cases hd
    exact put_elsewhere h q hq
  | rename p p' =>
    obtain ⟨h1, h2⟩ := h
    refine ⟨fun d e hde => ?_, fun d d' hd q hq => ?_⟩
    · simp only [Op.attempt]
      rw [agree_has hde h1, agree_has hde h2]
      split
      · refine Or.inr ⟨_, _, rfl, rfl, fun q hq => ?_⟩
        simp only [Op.apply]
        split
        · exact hde _ (below_append h1)
        · split
          · rfl
          · exact hde q hq
      · exact Or.inl ⟨rfl, rfl⟩
    · simp only [Op.attempt] at hd
      split at hd
      · cases hd
        simp only [Op.apply]
        rw [if_neg, if_neg]
        · rintro ⟨r, rfl⟩; exact hq (below_append h1)
        · rintro ⟨r, rfl⟩; exact hq (below_append h2)
      · cases hd

theorem local_makeDirs {K : Str → Prop} {k : Prog} (hk : Local (Below K) k) {pre ws : FPath}
    (h : ∀ q, q <+: ws → q ≠ [] → Below K (pre ++ q)) : Local (Below K) (makeDirsProc pre k ws) := by
  induction ws generalizing pre with
  | nil => exact hk
  | cons w ws ih =>
    have h1 : Below K (pre ++ [w]) := h [w] (by simp) (by simp)
    have h2 : Local (Below K) (makeDirsProc (pre ++ [w]) k ws) := by
      refine ih fun q hq hne => ?_
      have := h (w :: q) (by simpa using hq) (by simp)
      simpa using this
    rw [makeDirsProc]
    refine .look (fun d e hde => ?_) (fun d => ?_)
    · rw [Disk.has, Disk.has, hde _ h1]
    · split
      · exact h2
      · exact .act (opLocal h1) h2

theorem dirsPossible_agree {K : Str → Prop} {d e : Disk} (hde : Agree (Below K) d e) {pre ws : FPath}
    (h : ∀ q, q <+: ws → q ≠ [] → Below K (pre ++ q)) :
    dirsPossible d pre ws = dirsPossible e pre ws := by
  induction ws generalizing pre with
  | nil => rfl
  | cons w ws ih =>
    rw [dirsPossible, dirsPossible, Disk.isDir, Disk.isDir, hde _ (h [w] (by simp) (by simp)), ih]
    intro q hq hne
    have := h (w :: q) (by simpa using hq) (by simp)
    simpa using this

theorem local_extract {K : Str → Prop} {m : ZipMember} {k : Prog} (hk : Local (Below K) k)
    (h : Below K (extractPath m.name)) : Local (Below K) (extractProc m k) := by
  have hp : ∀ q, q <+: (extractPath m.name).dropLast → q ≠ [] → Below K ([] ++ q) := by
    intro q hq hne
    obtain ⟨x, r, hx, hkx⟩ := h
    cases q with
    | nil => exact absurd rfl hne
    | cons y q =>
      have := hq.trans (List.dropLast_prefix _)
      rw [hx, List.cons_prefix_cons] at this
      exact ⟨y, q, rfl, this.1 ▸ hkx⟩
  unfold extractProc
  refine .look (fun d e hde => ?_) (fun d => ?_)
  · simp only [dirsPossible_agree hde hp]
  · split
    · exact .done _
    · refine local_makeDirs (.look (fun d e hde => ?_) (fun d => ?_)) hp
      · rw [agree_isDir hde h, hde _ h]
      · split
        · split
          · exact .act (opLocal h) hk
          · exact hk
          · exact .done _
        · split
          · exact .done _
          · exact .act (opLocal h) (.act (opLocal h) hk)

theorem getinfo_member {z : Archive} {n : Str} {m : ZipMember} (h : z.getinfo n = some m) :
    m ∈ z.members := by
  unfold Archive.getinfo at h
  exact List.mem_reverse.1 (List.mem_of_find?_eq_some h)

theorem local_extractAll {K : Str → Prop} {z : Archive} {es ps : List Str} {k : Date → Nat → Prog}
    (hk : ∀ dt n, Local (Below K) (k dt n)) (items : List Str)
    (h : ∀ m ∈ z.members, Below K (extractPath m.name)) (dt : Date) (n : Nat) :
    Local (Below K) (extractAllProc z es ps dt n k items) := by
  induction items generalizing dt n with
  | nil => exact hk _ _
  | cons i is ih =>
    rw [extractAllProc]
    split
    · split
      · exact .done _
      · rename_i m hm
        exact local_extract (ih _ _) (h m (getinfo_member hm))
    · exact ih _ _

theorem local_remove {K : Str → Prop} {name : Str} (hn : K name) {k : Prog} (hk : Local (Below K) k)
    (rm : Removal) : Local (Below K) (removeProc name k rm) := by
  induction rm with
  | nil => exact hk
  | cons r rs ih => exact .act (opLocal ⟨name, r, rfl, hn⟩) ih

theorem local_move {K : Str → Prop} {top name : Str} (ht : K top) (hn : K name) :
    Local (Below K) (moveProc top name) := by
  have b1 : Below K [name] := ⟨_, _, rfl, hn⟩
  have b2 : Below K [top] := ⟨_, _, rfl, ht⟩
  have b3 : Below K [name, top] := ⟨_, _, rfl, hn⟩
  refine .look (fun d e hde => ?_) (fun d => ?_)
  · rw [agree_has hde b2, agree_has hde b3, hde _ b1]
  · split
    · split
      · exact .act (opLocal ⟨b2, b1⟩) (.done _)
      · exact .done _
    · split
      · exact .done _
      · exact .act (opLocal ⟨b2, b3⟩) (.done _)
    · exact .done _

theorem local_replace {K : Str → Prop} {rm : Removal} {top name : Str} (ht : K top) (hn : K name) :
    Local (Below K) (replaceProc rm top name) := by
  refine .look (fun d e hde => ?_) (fun d => ?_)
  · rw [agree_isDir hde ⟨_, _, rfl, hn⟩]
  · split
    · exact local_remove hn (local_move ht hn) rm
    · exact local_move ht hn

/-- An installation has only to do with the directory of the set and that of the archive. -/
theorem local_install {u : Use} (hu : u.Tidy) : Local u.Owns u.proc := by
  have hn : u.Dirs u.name := Or.inl rfl
  change Local (Below u.Dirs) u.proc
  refine .look (fun d e hde => ?_) (fun d => ?_)
  · rw [agree_has hde ⟨_, _, rfl, hn⟩]
  · split
    · exact .done _
    · unfold downloadArchive requestLoop
      cases hz : u.net 0 with
      | connectionError => exact .done _
      | otherError => exact .done _
      | archive z =>
        simp only
        obtain ⟨top, ho⟩ := hu z hz
        unfold unpackProc
        cases hm : z.members with
        | nil => exact .done _
        | cons m ms =>
          have ht : u.Dirs (firstComp '/' m.name) := Or.inr ⟨z, m, ms, hz, hm, rfl⟩
          have htop : firstComp '/' m.name = top := by
            obtain ⟨m', ms', he, hf⟩ := oneDirectory_first ho
            rw [hm] at he
            cases he
            exact hf
          simp only
          refine local_extractAll (fun dt n => ?_) _ (fun m' hm' => ?_) _ _
          · split
            · exact .done _
            · split
              · exact .done _
              · refine .look (fun d e hde => ?_) (fun d => ?_)
                · rw [agree_isDir hde ⟨_, _, rfl, ht⟩, agree_isDir hde ⟨_, _, rfl, ht⟩]
                · split
                  · exact .done _
                  · exact .act (opLocal ⟨_, _, rfl, ht⟩)
                      (.act (opLocal ⟨_, _, rfl, ht⟩) (local_replace ht hn))
          · obtain ⟨r, hr⟩ := oneDirectory_path ho hm'
            exact ⟨top, r, hr, htop ▸ ht⟩

end Punx

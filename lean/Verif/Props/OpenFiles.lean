import Verif.Props.History
import Verif.Spec.OpenFiles

/-!
# C91: data files are opened one at a time
-/

namespace Punx
open Spec

/-- What a call does to the open file: nothing, or it leaves this one open (`none`: it leaves no
file open). -/
inductive Leaves : (Str → FileState) × Call → Option (Str × H5File) → Prop
  | close {fs} : Leaves (fs, .close) none
  | other {fs n} : fs n = .notHdf5 → Leaves (fs, .validate n) none
  | file {fs n f} : fs n = .hdf5 f → Leaves (fs, .validate n) (some (n, f))

/-- After the calls `o` is open: what the last call left that did not merely miss a file. -/
inductive OpenAfter : List ((Str → FileState) × Call) → Option (Str × H5File) → Prop
  | nil : OpenAfter [] none
  | missed {l fs n o} : OpenAfter l o → fs n = .missing → OpenAfter (l ++ [(fs, .validate n)]) o
  | call {l c o} : Leaves c o → OpenAfter (l ++ [c]) o

theorem openAfter_total (l : List ((Str → FileState) × Call)) : ∃ o, OpenAfter l o := by
  induction l using List.reverseRecOn with
  | nil => exact ⟨_, .nil⟩
  | append_singleton l x ih =>
    obtain ⟨o, ih⟩ := ih
    obtain ⟨fs, c⟩ := x
    cases c with
    | close => exact ⟨_, .call .close⟩
    | validate n =>
      cases h : fs n with
      | missing => exact ⟨_, .missed ih h⟩
      | notHdf5 => exact ⟨_, .call (.other h)⟩
      | hdf5 f => exact ⟨_, .call (.file h)⟩

theorem close_trace {s : VState} {o : Option Str} (h : OneAtATime s.trace o)
    (hs : o.isSome ↔ s.h5.isSome) : OneAtATime s.close.trace none ∧ s.close.h5 = none := by
  unfold VState.close
  cases h5 : s.h5 with
  | none =>
    cases o with
    | none => exact ⟨h, rfl⟩
    | some n => simp [h5] at hs
  | some f =>
    cases o with
    | none => simp [h5] at hs
    | some n => exact ⟨.closed h, rfl⟩

/-- **C91.** Whatever calls are made, whether or not they raise: a data file is opened only when
the one before has been closed, every file is closed at most once, and the file that the
validator holds at the end is the one that the last call left open. -/
theorem one_file_at_a_time (env : Env) (mgr : Manager) {calls : List ((Str → FileState) × Call)}
    {o : Option (Str × H5File)} (h : OpenAfter calls o) :
    OneAtATime (history env mgr calls).trace (o.map Prod.fst) ∧
      (history env mgr calls).h5 = o.map Prod.snd := by
  have main : ∀ (l : List ((Str → FileState) × Call)), ∀ o, OpenAfter l o →
      OneAtATime (history env mgr l).trace (o.map Prod.fst) ∧
      (history env mgr l).h5 = o.map Prod.snd := by
    intro l
    induction l using List.reverseRecOn with
    | nil =>
      intro o ho
      generalize hl : ([] : List ((Str → FileState) × Call)) = l at ho
      cases ho with
      | nil => exact ⟨.nil, rfl⟩
      | missed _ _ => simp at hl
      | call _ => simp at hl
    | append_singleton l x ih =>
      intro o ho
      rw [history_append]
      obtain ⟨p, hp⟩ := openAfter_total l
      obtain ⟨i1, i2⟩ := ih p hp
      obtain ⟨c1, c2⟩ := close_trace i1 (by rw [i2]; simp)
      generalize hl : l ++ [x] = l' at ho
      cases ho with
      | nil => simp at hl
      | @missed l0 fs n _ h0 hm =>
        obtain ⟨rfl, hx⟩ := List.append_inj' hl rfl
        injection hx with hx
        subst hx
        obtain ⟨j1, j2⟩ := ih _ h0
        simp only [Call.run, validate, hm]
        exact ⟨j1, j2⟩
      | @call l0 c _ hc =>
        obtain ⟨rfl, hx⟩ := List.append_inj' hl rfl
        injection hx with hx
        subst hx
        cases hc with
        | close => exact ⟨c1, c2⟩
        | other hm =>
          simp only [Call.run, validate, hm]
          exact ⟨c1, c2⟩
        | file hm =>
          simp only [Call.run, validate, hm]
          exact ⟨.opened c1, rfl⟩
  exact main calls o h

/-- After `close` nothing is open. -/
theorem closed_after_close (env : Env) (mgr : Manager) (calls : List ((Str → FileState) × Call))
    (fs : Str → FileState) :
    OneAtATime (history env mgr (calls ++ [(fs, .close)])).trace none ∧
      (history env mgr (calls ++ [(fs, .close)])).h5 = none :=
  one_file_at_a_time env mgr (.call .close)

example : (history sampleEnv sampleMgr
      [(twoFiles, .validate s%"a.h5"), (twoFiles, .validate s%"b.h5"), (twoFiles, .validate s%"none"),
       (twoFiles, .validate s%"c.txt"), (twoFiles, .close), (twoFiles, .validate s%"a.h5")]).trace =
    [.opened s%"a.h5", .closed, .opened s%"b.h5", .closed, .opened s%"a.h5"] := by
  decide +kernel

end Punx

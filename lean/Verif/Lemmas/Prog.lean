import Verif.Spec.Concurrent
import Verif.Props.Install

/-!
# Lemmas about processes
-/

namespace Punx

open Spec

/-! ## a process that is alone -/

/-- A process that is alone carries out operations; what is left of it afterwards. -/
inductive Goes : Disk → Prog → List Op → Prog → Prop
  | here (d : Disk) (p : Prog) : Goes d p [] p
  | look {d : Disk} {k : Disk → Prog} {ops : List Op} {p : Prog} :
      Goes d (k d) ops p → Goes d (.look k) ops p
  | act {d : Disk} {o : Op} {k : Prog} {ops : List Op} {p : Prog} :
      o.attempt d = some (o.apply d) → Goes (o.apply d) k ops p → Goes d (.act o k) (o :: ops) p

theorem Goes.trans {d : Disk} {p q r : Prog} {a b : List Op} (h : Goes d p a q) :
    Goes (applyAll d a) q b r → Goes d p (a ++ b) r := by
  induction h with
  | here => exact id
  | look _ ih => exact fun h => .look (ih h)
  | act h0 _ ih => exact fun h => .act h0 (ih h)

theorem Goes.trans' {d : Disk} {p q r : Prog} {a b c : List Op} (h : Goes d p a q)
    (h' : Goes (applyAll d a) q b r) (e : a ++ b = c) : Goes d p c r := e ▸ h.trans h'

/-- Steps of one process that is alone. -/
inductive Steps (d : Disk) (p : Prog) : Disk → Prog → Prop
  | start : Steps d p d p
  | next {e : Disk} {q : Prog} {e' : Disk} {q' : Prog} :
      Steps d p e q → q.step e = some (e', q') → Steps d p e' q'

theorem Steps.head {d d' e : Disk} {p p' q : Prog} (h : p.step d = some (d', p'))
    (hs : Steps d' p' e q) : Steps d p e q := by
  induction hs with
  | start => exact .next .start h
  | next _ h' ih => exact .next ih h'

theorem steps_cases {d e : Disk} {p q : Prog} (h : Steps d p e q) :
    (e = d ∧ q = p) ∨ ∃ d' p', p.step d = some (d', p') ∧ Steps d' p' e q := by
  induction h with
  | start => exact Or.inl ⟨rfl, rfl⟩
  | @next e q e' q' _ h' ih =>
    right
    rcases ih with ⟨rfl, rfl⟩ | ⟨d', p', h1, h2⟩
    · exact ⟨_, _, h', .start⟩
    · exact ⟨_, _, h1, .next h2 h'⟩

/-- At every moment a process that is alone has carried out the first ones of its operations. -/
theorem goes_steps {d : Disk} {p : Prog} {ops : List Op} {r : Except PyErr Unit}
    (h : Goes d p ops (.done r)) {s : Disk} {q : Prog} (hs : Steps d p s q) :
    Stops d ops s ∧ ∀ r', q = .done r' → r' = r ∧ s = applyAll d ops := by
  generalize hp : Prog.done r = p' at h
  induction h generalizing s q with
  | here d p =>
    subst hp
    rcases steps_cases hs with ⟨rfl, rfl⟩ | ⟨d', p', h1, _⟩
    · refine ⟨.here _ _, ?_⟩
      rintro r' h
      cases h
      exact ⟨rfl, rfl⟩
    · cases h1
  | @look d k ops p h ih =>
    rcases steps_cases hs with ⟨rfl, rfl⟩ | ⟨d', p', h1, h2⟩
    · exact ⟨.here _ _, fun r' h => nomatch h⟩
    · cases h1
      exact ih h2 hp
  | @act d o k ops p h0 h ih =>
    rcases steps_cases hs with ⟨rfl, rfl⟩ | ⟨d', p', h1, h2⟩
    · exact ⟨.here _ _, fun r' h => nomatch h⟩
    · rw [Prog.step, h0] at h1
      cases h1
      obtain ⟨h3, h4⟩ := ih h2 hp
      exact ⟨.later h3, h4⟩

/-! ## what a process has to do with -/

/-- The same at these paths. -/
def Agree (F : FPath → Prop) (d e : Disk) : Prop := ∀ q, F q → d q = e q

theorem Agree.symm {F : FPath → Prop} {d e : Disk} (h : Agree F d e) : Agree F e d :=
  fun q hq => (h q hq).symm

theorem Agree.trans {F : FPath → Prop} {d e f : Disk} (h : Agree F d e) (h' : Agree F e f) :
    Agree F d f := fun q hq => (h q hq).trans (h' q hq)

/-- An operation has only to do with some paths. -/
def OpLocal (F : FPath → Prop) (o : Op) : Prop :=
  (∀ d e, Agree F d e → (o.attempt d = none ∧ o.attempt e = none) ∨
    ∃ d' e', o.attempt d = some d' ∧ o.attempt e = some e' ∧ Agree F d' e') ∧
  ∀ d d', o.attempt d = some d' → ∀ q, ¬ F q → d' q = d q

/-- A process has only to do with some paths: what it does depends only on what is there, and only
this is changed. -/
inductive Local (F : FPath → Prop) : Prog → Prop
  | done (r : Except PyErr Unit) : Local F (.done r)
  | look {k : Disk → Prog} : (∀ d e, Agree F d e → k d = k e) → (∀ d, Local F (k d)) →
      Local F (.look k)
  | act {o : Op} {k : Prog} : OpLocal F o → Local F k → Local F (.act o k)

theorem local_mono {F G : FPath → Prop} (h : ∀ q, F q → G q) {p : Prog} (hp : Local F p) :
    Local G p := by
  induction hp with
  | done r => exact .done r
  | look h1 _ ih => exact .look (fun d e hde => h1 d e fun q hq => hde q (h q hq)) ih
  | @act o k h1 _ ih =>
    refine .act ⟨fun d e hde => ?_, fun d d' hd q hq => h1.2 d d' hd q fun hf => hq (h q hf)⟩ ih
    rcases h1.1 d e fun q hq => hde q (h q hq) with h2 | ⟨d', e', h3, h4, h5⟩
    · exact Or.inl h2
    · refine Or.inr ⟨d', e', h3, h4, fun q hq => ?_⟩
      by_cases hf : F q
      · exact h5 q hf
      · rw [h1.2 d d' h3 q hf, h1.2 e e' h4 q hf, hde q hq]

theorem Local.step {F : FPath → Prop} {p : Prog} (h : Local F p) {d e d' : Disk} {p' : Prog}
    (hd : Agree F d e) (hs : p.step d = some (d', p')) :
    Local F p' ∧ (∀ q, ¬ F q → d' q = d q) ∧ ∃ e', p.step e = some (e', p') ∧ Agree F d' e' := by
  cases h with
  | done => cases hs
  | @look k h1 h2 =>
    cases hs
    exact ⟨h2 _, fun _ _ => rfl, e, by rw [Prog.step, h1 _ _ hd], hd⟩
  | @act o k h1 h2 =>
    rw [Prog.step] at hs
    rcases h1.1 _ _ hd with ⟨h3, h4⟩ | ⟨a, b, h3, h4, h5⟩
    · rw [h3] at hs
      cases hs
      refine ⟨.done _, fun _ _ => rfl, e, ?_, hd⟩
      rw [Prog.step, h4]
    · rw [h3] at hs
      cases hs
      refine ⟨h2, h1.2 _ _ h3, b, ?_, h5⟩
      rw [Prog.step, h4]

/-- Processes that have to do with different paths: at every moment, each one has done what it would
have done alone, and the rest of the disk is as before. -/
theorem reaches_local {ι : Type} [DecidableEq ι] {F : ι → FPath → Prop}
    (hF : ∀ i j q, F i q → F j q → i = j) {d e : Disk} {ps qs : ι → Prog}
    (hl : ∀ i, Local (F i) (ps i)) (h : Arrives d ps e qs) :
    (∀ i, ∃ s, Steps d (ps i) s (qs i) ∧ Agree (F i) e s) ∧ (∀ i, Local (F i) (qs i)) ∧
      ∀ q, (∀ i, ¬ F i q) → e q = d q := by
  induction h with
  | start => exact ⟨fun i => ⟨d, .start, fun _ _ => rfl⟩, hl, fun _ _ => rfl⟩
  | @next e qs i e' q _ hs ih =>
    obtain ⟨h1, h2, h3⟩ := ih
    obtain ⟨si, hsi, hai⟩ := h1 i
    obtain ⟨h4, h5, s', hs', ha'⟩ := (h2 i).step hai hs
    refine ⟨fun j => ?_, fun j => ?_, fun q hq => ?_⟩
    · by_cases hj : j = i
      · subst hj
        refine ⟨s', ?_, ha'⟩
        rw [Function.update_self]
        exact .next hsi hs'
      · obtain ⟨s, hs, ha⟩ := h1 j
        refine ⟨s, ?_, fun q hq => ?_⟩
        · rw [Function.update_of_ne hj]; exact hs
        · rw [h5 q (fun h => hj (hF _ _ _ hq h))]
          exact ha q hq
    · by_cases hj : j = i
      · subst hj
        rw [Function.update_self]; exact h4
      · rw [Function.update_of_ne hj]; exact h2 j
    · rw [h5 q (hq i), h3 q hq]

/-- Without any assumption about the paths being different: the rest of the disk is as before. -/
theorem reaches_elsewhere {ι : Type} [DecidableEq ι] {F : ι → FPath → Prop} {d e : Disk}
    {ps qs : ι → Prog} (hl : ∀ i, Local (F i) (ps i)) (h : Arrives d ps e qs) :
    (∀ i, Local (F i) (qs i)) ∧ ∀ q, (∀ i, ¬ F i q) → e q = d q := by
  induction h with
  | start => exact ⟨hl, fun _ _ => rfl⟩
  | @next e qs i e' q _ hs ih =>
    obtain ⟨h2, h3⟩ := ih
    obtain ⟨h4, h5, _⟩ := (h2 i).step (fun _ _ => rfl) hs
    refine ⟨fun j => ?_, fun q hq => ?_⟩
    · by_cases hj : j = i
      · subst hj
        rw [Function.update_self]; exact h4
      · rw [Function.update_of_ne hj]; exact h2 j
    · rw [h5 q (hq i), h3 q hq]

end Punx

import Mathlib.Logic.Function.Basic
import Verif.Model.Concurrent
import Verif.Spec.Cache

/-!
# Processes that run at the same time
-/

namespace Punx.Spec

/-- `Arrives d ps e qs`: processes `ps` (any number of them) start on disk `d`.  After some steps, in
any order, the disk is `e` and `qs` is what is left of them. -/
inductive Arrives {ι : Type} [DecidableEq ι] (d : Disk) (ps : ι → Prog) : Disk → (ι → Prog) → Prop
  | start : Arrives d ps d ps
  | next {e : Disk} {qs : ι → Prog} {i : ι} {e' : Disk} {q : Prog} :
      Arrives d ps e qs → (qs i).step e = some (e', q) →
        Arrives d ps e' (Function.update qs i q)

/-- What one use of `punx install` does when nothing else uses the disk. -/
def Use.alone (u : Use) (d : Disk) : Deed Unit :=
  downloadFileSet u.net u.rm u.written d u.name u.update

/-- The process of one use of `punx install`. -/
def Use.proc (u : Use) : Prog := installProc u.net u.rm u.written u.name u.update

/-- The directories that one use of `punx install` works with: that of the file set, and that of the
archive. -/
def Use.Dirs (u : Use) (k : Str) : Prop :=
  k = u.name ∨ ∃ z m ms, u.net 0 = .archive z ∧ z.members = m :: ms ∧ k = firstComp '/' m.name

/-- A path is in one of these directories (or is one of them). -/
def Use.Owns (u : Use) (q : FPath) : Prop := ∃ k r, q = k :: r ∧ u.Dirs k

/-- Every archive that is downloaded has everything in one directory. -/
def Use.Tidy (u : Use) : Prop := ∀ z, u.net 0 = .archive z → ∃ top, OneDirectory z top

/-- Uses that work with different directories. -/
def Apart {ι : Type} (us : ι → Use) : Prop := ∀ i j k, (us i).Dirs k → (us j).Dirs k → i = j

/-- `Watches d ps r e qs r'`: processes `ps` and a program `r` that only looks start on disk `d`.
After some steps, in any order, the disk is `e`, and `qs` and `r'` are what is left of them. -/
inductive Watches {ι α : Type} [DecidableEq ι] (d : Disk) (ps : ι → Prog) (r : Look α) :
    Disk → (ι → Prog) → Look α → Prop
  | start : Watches d ps r d ps r
  | other {e : Disk} {qs : ι → Prog} {r' : Look α} {i : ι} {e' : Disk} {q : Prog} :
      Watches d ps r e qs r' → (qs i).step e = some (e', q) →
        Watches d ps r e' (Function.update qs i q) r'
  | look {e : Disk} {qs : ι → Prog} {k : Disk → Look α} :
      Watches d ps r e qs (.look k) → Watches d ps r e qs (k e)

end Punx.Spec

import Verif.Model.H5Tree

/-!
# C155: the name of the file in the tree report
-/

namespace Punx

/-- **C155**: the name of the file is the beginning of the first line, and matters nowhere else. -/
theorem tree_name_only (env : Env) (shown : Int) (sa : Bool) (fs : FileState) :
    (∃ after lines, ∀ fname, treeReport env shown sa fname fs = .ok (some ((fname ++ after) :: lines))) ∨
      (∀ fname, treeReport env shown sa fname fs = .ok none) ∨
      ∃ e, ∀ fname, treeReport env shown sa fname fs = .error e := by
  cases fs with
  | missing => exact .inr (.inl fun _ => rfl)
  | notHdf5 => exact .inr (.inr ⟨_, fun _ => rfl⟩)
  | hdf5 f =>
    simp only [treeReport]
    cases isNeXusFile env (.hdf5 f) with
    | error e => exact .inr (.inr ⟨e, fun _ => rfl⟩)
    | ok b =>
      simp only [renderFile, renderHead, bind, Except.bind]
      cases nxClassText env f.attrs with
      | error e => exact .inr (.inr ⟨e, fun _ => rfl⟩)
      | ok cls =>
        cases renderAttrs ⟨env, b.getD false, sa, shown⟩ [] f.attrs (externalAttrs .hard) with
        | error e => exact .inr (.inr ⟨e, fun _ => rfl⟩)
        | ok as =>
          cases assemble (renderMembers ⟨env, b.getD false, sa, shown⟩ [] f.kids) with
          | error e => exact .inr (.inr ⟨e, fun _ => rfl⟩)
          | ok m =>
            refine .inl ⟨(if b.getD false then s%" : NeXus data file" else []) ++ cls,
              (as ++ m).map TLine.text, fun fname => ?_⟩
            cases b.getD false <;> simp

end Punx

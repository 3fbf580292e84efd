import Verif.Spec.TreeItems
import Verif.Model.H5Tree

/-!
# C152: the number of array items that `punx tree` shows
-/

namespace Punx
open Spec

private theorem nd_fit {m m' : Nat} {cell : List Nat → Str} : (shape : List Nat) →
    (indent : Str) → (pre : List Nat) → (∀ n ∈ extents shape, n ≤ m) → (∀ n ∈ extents shape, n ≤ m') →
    renderNd m cell indent pre shape = renderNd m' cell indent pre shape
  | [], _, _, _, _ => by rw [renderNd, renderNd]
  | dim :: rest, indent, pre, h, h' => by
    have hd : dim ∈ extents (dim :: rest) := by
      rw [extents]
      split <;> simp
    have e : decideNumShown m dim = dim := by
      rw [decideNumShown, if_neg (by have := h dim hd; omega)]
    have e' : decideNumShown m' dim = dim := by
      rw [decideNumShown, if_neg (by have := h' dim hd; omega)]
    rw [renderNd, renderNd, e, e']
    by_cases h4 : rest.length + 1 < 4
    · have sub : ∀ n ∈ extents rest, n ∈ extents (dim :: rest) := by
        intro n hn
        rw [extents, if_pos (by omega)] at hn
        rw [extents, if_pos (by simpa using h4)]
        exact List.mem_cons_of_mem _ hn
      have ih := fun i p => nd_fit (cell := cell) rest i p (fun n hn => h n (sub n hn)) (fun n hn => h' n (sub n hn))
      simp only [ih]
    · simp only [if_neg h4]

private theorem data_fit {env : Env} {b sa : Bool} {m m' : Int} {d : DataInfo} {name indent : Str}
    (hm : 2 < m) (hm' : 2 < m') (h : FitsIn m d) (h' : FitsIn m' d) :
    renderData ⟨env, b, sa, m⟩ d name indent = renderData ⟨env, b, sa, m'⟩ d name indent := by
  have key : d.kind = .other → ∀ s, d.shape = some s → ∀ i,
      renderNd m.toNat d.cell i [] s = renderNd m'.toNat d.cell i [] s := by
    intro k s e i
    refine nd_fit s i [] (fun n hn => ?_) (fun n hn => ?_)
    · have := h k s e n hn; omega
    · have := h' k s e n hn; omega
  simp only [renderData]
  refine congrArg (Except.bind _) (funext fun t => congrArg (Except.bind _) (funext fun s => ?_))
  cases hk : d.kind <;> cases hs : d.shape <;> try rfl
  rename_i shape
  have hn := key hk shape hs
  rcases shape with _ | ⟨_ | _ | x, _ | ⟨y, r⟩⟩ <;> simp [hm, hm', hn]

private theorem data_few {env : Env} {b sa : Bool} {m m' : Int} {d : DataInfo} {name indent : Str}
    (hm : m ≤ 2) (hm' : m' ≤ 2) :
    renderData ⟨env, b, sa, m⟩ d name indent = renderData ⟨env, b, sa, m'⟩ d name indent := by
  have hm : ¬ m > 2 := by omega
  have hm' : ¬ m' > 2 := by omega
  simp only [renderData, renderDsType, if_neg hm, if_neg hm']

mutual
private theorem member_data {env : Env} {b sa : Bool} {m m' : Int} {P : Node → Prop}
    (hg : ∀ o a k, P (.group o a k) → ∀ x ∈ k.toList, ∀ n, x.2 = some n → P n)
    (hd : ∀ o a d, P (.dataset o a d) → ∀ name indent,
      renderData ⟨env, b, sa, m⟩ d name indent = renderData ⟨env, b, sa, m'⟩ d name indent)
    (link : Str) (kind : LinkKind) (indent : Str) : (n : Node) → P n →
    renderMember ⟨env, b, sa, m⟩ link kind indent n = renderMember ⟨env, b, sa, m'⟩ link kind indent n
  | .group o a k, h => by
    have ih := members_data hg hd (indent ++ s%"  ") k (hg o a k h)
    simp only [renderMember, renderLinked, renderHead, renderAttrs, ih]
  | .dataset o a d, h => by
    simp only [renderMember, renderDataset, renderAsLink, renderLinked, renderAttrs, hd o a d h]
  | .datatype o a, _ => by
    simp only [renderMember, renderLinked]
private theorem members_data {env : Env} {b sa : Bool} {m m' : Int} {P : Node → Prop}
    (hg : ∀ o a k, P (.group o a k) → ∀ x ∈ k.toList, ∀ n, x.2 = some n → P n)
    (hd : ∀ o a d, P (.dataset o a d) → ∀ name indent,
      renderData ⟨env, b, sa, m⟩ d name indent = renderData ⟨env, b, sa, m'⟩ d name indent)
    (indent : Str) : (ks : Kids) → (∀ x ∈ ks.toList, ∀ n, x.2 = some n → P n) →
    renderMembers ⟨env, b, sa, m⟩ indent ks = renderMembers ⟨env, b, sa, m'⟩ indent ks
  | .nil, _ => by rw [renderMembers, renderMembers]
  | .cons link kind n rest, h => by
    have hn := h (link, some n) (by simp [Kids.toList]) n rfl
    have hr := members_data hg hd indent rest (fun x hx => h x (by simp [Kids.toList, hx]))
    rw [renderMembers, renderMembers, member_data hg hd link kind indent n hn, hr]
    simp only [renderUnfollowed, renderAttrs]
  | .broken link kind rest, h => by
    have hr := members_data hg hd indent rest (fun x hx => h x (by simp [Kids.toList, hx]))
    rw [renderMembers, renderMembers, hr]
    simp only [renderUnfollowed, renderAttrs]
end

private theorem report_data {env : Env} {sa : Bool} {m m' : Int} {fname : Str} {f : H5File}
    (h : ∀ b, renderMembers ⟨env, b, sa, m⟩ [] f.kids = renderMembers ⟨env, b, sa, m'⟩ [] f.kids) :
    treeReport env m sa fname (.hdf5 f) = treeReport env m' sa fname (.hdf5 f) := by
  simp only [treeReport, renderFile, renderHead, renderAttrs, h]

private theorem fit_kids {m : Int} : (ks : Kids) → AllFitKids m ks →
    ∀ x ∈ ks.toList, ∀ n, x.2 = some n → AllFit m n
  | .nil, _, _, hx, _, _ => by simp [Kids.toList] at hx
  | .cons _ _ n' rest, h, x, hx, n, e => by
    rw [AllFitKids] at h
    rw [Kids.toList, List.mem_cons] at hx
    rcases hx with rfl | hx
    · cases e
      exact h.1
    · exact fit_kids rest h.2 x hx n e
  | .broken _ _ rest, h, x, hx, n, e => by
    rw [AllFitKids] at h
    rw [Kids.toList, List.mem_cons] at hx
    rcases hx with rfl | hx
    · cases e
    · exact fit_kids rest h x hx n e

/-- **C152**: if all arrays fit, the number of items to show does not matter. -/
theorem tree_items_enough {env : Env} {sa : Bool} {m m' : Int} {fname : Str} {f : H5File}
    (hm : 2 < m) (hm' : 2 < m') (h : AllFitKids m f.kids) (h' : AllFitKids m' f.kids) :
    treeReport env m sa fname (.hdf5 f) = treeReport env m' sa fname (.hdf5 f) := by
  refine report_data fun b => members_data (P := fun n => AllFit m n ∧ AllFit m' n) ?_ ?_ [] f.kids
    fun x hx n e => ⟨fit_kids _ h x hx n e, fit_kids _ h' x hx n e⟩
  · rintro o a k ⟨h, h'⟩ x hx n e
    rw [AllFit] at h h'
    exact ⟨fit_kids _ h x hx n e, fit_kids _ h' x hx n e⟩
  · rintro o a d ⟨h, h'⟩ name indent
    rw [AllFit] at h h'
    exact data_fit hm hm' h h'

/-- **C152**: all numbers up to two mean the same. -/
theorem tree_items_few {env : Env} {sa : Bool} {m m' : Int} {fname : Str} (fs : FileState)
    (hm : m ≤ 2) (hm' : m' ≤ 2) :
    treeReport env m sa fname fs = treeReport env m' sa fname fs := by
  cases fs with
  | missing => rfl
  | notHdf5 => rfl
  | hdf5 f =>
    exact report_data fun b => members_data (P := fun _ => True) (fun _ _ _ _ _ _ _ _ => trivial)
      (fun _ _ _ _ _ _ => data_few hm hm') [] f.kids fun _ _ _ _ => trivial

end Punx

import Verif.Spec.TreeMore
import Verif.Props.Showable

/-!
# C156: additional content and the tree report
-/

namespace Punx
open Spec

/-- If the second is a list of lines, the first is one, with some of these lines in their order. -/
private def Fewer {α : Type} (x x' : Except PyErr (List α)) : Prop :=
  ∀ l', x' = .ok l' → ∃ l, x = .ok l ∧ l.Sublist l'

private theorem Fewer.refl {α : Type} (x : Except PyErr (List α)) : Fewer x x :=
  fun l h => ⟨l, h, List.Sublist.refl _⟩

private theorem Fewer.trans {α : Type} {x y z : Except PyErr (List α)} (h : Fewer x y)
    (k : Fewer y z) : Fewer x z := by
  intro l hl
  obtain ⟨m, hm, s⟩ := k l hl
  obtain ⟨p, hp, s'⟩ := h m hm
  exact ⟨p, hp, s'.trans s⟩

private theorem Fewer.append {x x' y y' : Except PyErr (List TLine)} (h : Fewer x x')
    (k : Fewer y y') : Fewer (do let a ← x; let b ← y; .ok (a ++ b))
      (do let a ← x'; let b ← y'; .ok (a ++ b)) := by
  intro l hl
  cases hx : x' with
  | error e => rw [hx] at hl; cases hl
  | ok a =>
    cases hy : y' with
    | error e => rw [hx, hy] at hl; cases hl
    | ok b =>
      rw [hx, hy] at hl
      cases hl
      obtain ⟨a0, rfl, sa⟩ := h a hx
      obtain ⟨b0, rfl, sb⟩ := k b hy
      exact ⟨_, rfl, sa.append sb⟩

private structure FewerM (m m' : Member) : Prop where
  name : m.name = m'.name
  isGroup : m.isGroup = m'.isGroup
  out : Fewer m.out m'.out

private theorem sub_flatten {α : Type} {l l' : List (List α)} (h : l.Sublist l') :
    l.flatten.Sublist l'.flatten := by
  induction h with
  | slnil => exact List.Sublist.refl _
  | cons a _ ih => exact ih.trans (List.sublist_append_right a _)
  | cons_cons a _ ih => exact (List.Sublist.refl a).append ih

private theorem concatE_sub {xs xs' : List (Except PyErr (List TLine))} (h : xs.Sublist xs') :
    Fewer (concatE xs) (concatE xs') := by
  intro l hl
  obtain ⟨outs, rfl, rfl⟩ := concatE_ok.1 hl
  obtain ⟨outs', s, rfl⟩ := List.sublist_map_iff.1 h
  exact ⟨_, concatE_ok.2 ⟨outs', rfl, rfl⟩, sub_flatten s⟩

private theorem concatE_fewer {xs xs' : List (Except PyErr (List TLine))}
    (h : List.Forall₂ Fewer xs xs') : Fewer (concatE xs) (concatE xs') := by
  induction h with
  | nil => exact Fewer.refl _
  | @cons x x' xs xs' hx _ ih =>
    intro l hl
    cases hx' : x' with
    | error e => rw [hx', concatE] at hl; cases hl
    | ok a =>
      rw [hx', concatE] at hl
      cases hr : concatE xs' with
      | error e => rw [hr] at hl; cases hl
      | ok b =>
        rw [hr] at hl
        cases hl
        obtain ⟨a0, rfl, sa⟩ := hx a hx'
        obtain ⟨b0, hb, sb⟩ := ih b hr
        exact ⟨a0 ++ b0, by rw [concatE, hb], sa.append sb⟩

private theorem sub_insertBy {α : Type} {le : α → α → Bool} (a : α) (l : List α) :
    l.Sublist (insertBy le a l) := by
  induction l with
  | nil => exact List.nil_sublist _
  | cons b bs ih =>
    simp only [insertBy]
    split
    · exact List.sublist_cons_self _ _
    · exact ih.cons_cons b

private theorem insertBy_front {α : Type} {le : α → α → Bool} {a : α} {l : List α}
    (h : ∀ x ∈ l, le a x = true) : insertBy le a l = a :: l := by
  cases l with
  | nil => rfl
  | cons b bs => simp [insertBy, h b (by simp)]

private theorem insertBy_sub {α : Type} {le : α → α → Bool}
    (htr : ∀ a b c, le a b = true → le b c = true → le a c = true) (a : α) {l l' : List α}
    (h : l.Sublist l') (hs : l'.Pairwise (fun a b => le a b = true)) :
    (insertBy le a l).Sublist (insertBy le a l') := by
  induction h with
  | slnil => exact List.Sublist.refl _
  | @cons l l' b h ih =>
    rw [List.pairwise_cons] at hs
    rw [insertBy]
    split
    · rename_i hab
      rw [insertBy_front fun x hx => htr _ _ _ hab (hs.1 x (h.subset hx))]
      exact (h.cons b).cons_cons a
    · exact (ih hs.2).cons b
  | @cons_cons l l' b h ih =>
    rw [List.pairwise_cons] at hs
    rw [insertBy, insertBy]
    split
    · exact (h.cons_cons b).cons_cons a
    · exact (ih hs.2).cons_cons b

private theorem sortBy_sub {α : Type} {le : α → α → Bool}
    (htot : ∀ a b, le a b = true ∨ le b a = true)
    (htr : ∀ a b c, le a b = true → le b c = true → le a c = true) {l l' : List α}
    (h : l.Sublist l') : (sortBy le l).Sublist (sortBy le l') := by
  induction h with
  | slnil => exact List.Sublist.refl _
  | cons a _ ih => exact ih.trans (sub_insertBy a _)
  | cons_cons a _ ih => exact insertBy_sub htr a ih (sortBy_sorted htot htr _)

private theorem assemble_fewer {ms ms0 ms' : List Member} (h : List.Forall₂ FewerM ms ms0)
    (hs : ms0.Sublist ms') : Fewer (assemble ms) (assemble ms') := by
  refine Fewer.trans (y := assemble ms0) (concatE_fewer ?_) (concatE_sub ?_)
  · have hsort := forall₂_sortBy (le := fun a b : Member => strLe a.name b.name)
      (le' := fun a b : Member => strLe a.name b.name)
      (fun a a' b b' h h' => by rw [h.name, h'.name]) h
    have part : ∀ p : Member → Bool, (∀ a b, FewerM a b → p a = p b) →
        List.Forall₂ Fewer (((sortBy (fun a b : Member => strLe a.name b.name) ms).filter p).map Member.out)
          (((sortBy (fun a b : Member => strLe a.name b.name) ms0).filter p).map Member.out) := by
      intro p hp
      rw [List.forall₂_map_left_iff, List.forall₂_map_right_iff]
      exact (forall₂_filter hp hsort).imp fun _ _ h => h.out
    exact List.rel_append (part _ fun a b h => by rw [h.isGroup]) (part _ fun a b h => by rw [h.isGroup])
  · have := sortBy_sub (le := fun a b : Member => strLe a.name b.name)
      (fun _ _ => strLe_total _ _) (fun _ _ _ h1 h2 => strLe_trans h1 h2) hs
    exact ((this.filter _).map _).append ((this.filter _).map _)

private theorem attrs_fewer {c : TreeCfg} {indent : Str} {a a' extra : List (Str × Val)}
    (h : a.Sublist a') : Fewer (renderAttrs c indent a extra) (renderAttrs c indent a' extra) := by
  rw [renderAttrs, renderAttrs]
  split
  · have key : ∀ {l l' : List (Str × Val)}, l.Sublist l' →
        Fewer (mapE (fun a => renderAttr c.env indent a.1 a.2) l)
          (mapE (fun a => renderAttr c.env indent a.1 a.2) l') := by
      intro l l' hs
      induction hs with
      | slnil => exact Fewer.refl _
      | cons x _ ih =>
        intro r hr
        have := mapE_ok.1 hr
        cases this with
        | @cons b _ bs _ h1 h2 =>
          obtain ⟨l0, e, s⟩ := ih bs (mapE_ok.2 h2)
          exact ⟨l0, e, s.cons b⟩
      | cons_cons x _ ih =>
        intro r hr
        have := mapE_ok.1 hr
        cases this with
        | @cons b _ bs _ h1 h2 =>
          obtain ⟨l0, e, s⟩ := ih bs (mapE_ok.2 h2)
          exact ⟨b :: l0, by rw [mapE, h1, e], s.cons_cons b⟩
    exact key (h.append (List.Sublist.refl _))
  · exact Fewer.refl _

private theorem head_fewer {c : TreeCfg} {a a' : List (Str × Val)} {name indent : Str}
    {kind : LinkKind} (h : MoreAttrs a a') :
    Fewer (renderHead c a name indent kind) (renderHead c a' name indent kind) := by
  have e : nxClassText c.env a = nxClassText c.env a' := by
    rw [nxClassText, nxClassText, attrGet_eq, attrGet_eq, h.cls]
  rw [renderHead, renderHead, e]
  cases nxClassText c.env a' with
  | error e => exact Fewer.refl _
  | ok t =>
    intro l hl
    cases hr : renderAttrs c indent a' (externalAttrs kind) with
    | error e => rw [hr] at hl; cases hl
    | ok as =>
      rw [hr] at hl
      cases hl
      obtain ⟨as0, e0, s⟩ := attrs_fewer h.more as hr
      rw [e0]
      exact ⟨_, rfl, s.cons_cons _⟩

private theorem linked_same {c : TreeCfg} {a a' : List (Str × Val)} {name indent : Str}
    (h : MoreAttrs a a') : renderLinked c a name indent = renderLinked c a' name indent := by
  rw [renderLinked, renderLinked, attrGet_eq, attrGet_eq, h.target]

private theorem dataset_fewer {c : TreeCfg} {a a' : List (Str × Val)} {o name indent : Str}
    {d : DataInfo} (h : MoreAttrs a a') :
    Fewer (renderDataset c o a d name indent) (renderDataset c o a' d name indent) := by
  have e : renderAsLink c o a = renderAsLink c o a' := by
    rw [renderAsLink, renderAsLink, attrGet_eq, attrGet_eq, h.target]
  rw [renderDataset, renderDataset, e, linked_same h]
  cases renderAsLink c o a' with
  | error e => exact Fewer.refl _
  | ok b =>
    cases b with
    | true => exact Fewer.refl _
    | false => exact (Fewer.refl _).append (attrs_fewer h.more)

private theorem link_same' {env : Env} {a a' : List (Str × Val)} {o : Str} (h : MoreAttrs a a') :
    isNeXusLink env a o = isNeXusLink env a' o := by
  rw [isNeXusLink, isNeXusLink, attrGet_eq, attrGet_eq, h.target]

mutual
private theorem member_fewer {c : TreeCfg} {link : Str} {kind : LinkKind} {indent : Str}
    {n n' : Node} : HasMore n n' →
    FewerM (renderMember c link kind indent n) (renderMember c link kind indent n')
  | .dataset h => by
    rw [renderMember, renderMember, link_same' h, linked_same h]
    split
    · exact ⟨rfl, rfl, Fewer.refl _⟩
    · exact ⟨rfl, rfl, Fewer.refl _⟩
    · exact ⟨rfl, rfl, (dataset_fewer h).append (Fewer.refl _)⟩
  | .datatype h => by
    rw [renderMember, renderMember, link_same' h, linked_same h]
    split <;> exact ⟨rfl, rfl, Fewer.refl _⟩
  | .group h hk => by
    rw [renderMember, renderMember, link_same' h, linked_same h]
    split
    · exact ⟨rfl, rfl, Fewer.refl _⟩
    · exact ⟨rfl, rfl, Fewer.refl _⟩
    · obtain ⟨ms, h1, h2⟩ := members_fewer (c := c) (indent := indent ++ s%"  ") hk
      exact ⟨rfl, rfl, (head_fewer h).append (assemble_fewer h1 h2)⟩
private theorem members_fewer {c : TreeCfg} {indent : Str} {k k' : Kids} : HasMoreKids k k' →
    ∃ ms, List.Forall₂ FewerM (renderMembers c indent k) ms ∧ ms.Sublist (renderMembers c indent k')
  | .nil => ⟨[], by rw [renderMembers]; exact .nil, List.nil_sublist _⟩
  | .cons (k := kind) (l := l) (n' := n') h hr => by
    obtain ⟨ms, h1, h2⟩ := members_fewer (c := c) (indent := indent) hr
    rw [renderMembers, renderMembers]
    refine ⟨_ :: ms, .cons ?_ h1, h2.cons_cons _⟩
    cases followed kind with
    | true => exact member_fewer h
    | false => exact ⟨rfl, rfl, Fewer.refl _⟩
  | .broken hr => by
    obtain ⟨ms, h1, h2⟩ := members_fewer (c := c) (indent := indent) hr
    rw [renderMembers, renderMembers]
    exact ⟨_ :: ms, .cons ⟨rfl, rfl, Fewer.refl _⟩ h1, h2.cons_cons _⟩
  | .extra hr => by
    obtain ⟨ms, h1, h2⟩ := members_fewer (c := c) (indent := indent) hr
    refine ⟨ms, h1, ?_⟩
    rw [renderMembers]
    exact h2.cons _
  | .extraBroken hr => by
    obtain ⟨ms, h1, h2⟩ := members_fewer (c := c) (indent := indent) hr
    refine ⟨ms, h1, ?_⟩
    rw [renderMembers]
    exact h2.cons _
end

/-- **C156**: if a file with additional content has a report, the file without it has one, and its
lines are among those of the other, in the same order. -/
theorem tree_more {env : Env} {shown : Int} {sa : Bool} {fname : Str} {f f' : H5File}
    {nexus : Bool} {ts' : List Str} (ha : MoreAttrs f.attrs f'.attrs)
    (hk : HasMoreKids f.kids f'.kids) (ht : ToldNexus env f nexus) (ht' : ToldNexus env f' nexus)
    (h : treeReport env shown sa fname (.hdf5 f') = .ok (some ts')) :
    ∃ ts, treeReport env shown sa fname (.hdf5 f) = .ok (some ts) ∧ ts.Sublist ts' := by
  have told : ∀ g : H5File, ToldNexus env g nexus → isNeXusFile env (.hdf5 g) = .ok (some nexus) := by
    intro g hg
    cases nexus with
    | true => exact ((isNeXusFile_spec env).2.2.1 g).2 hg
    | false => exact ((isNeXusFile_spec env).2.2.2.1 g).2 hg
  obtain ⟨g, b, ls, e, h1, h2, rfl⟩ := treeReport_ok.1 h
  cases e
  rw [told f' ht'] at h1
  cases h1
  have fewer : Fewer (renderFile ⟨env, nexus, sa, shown⟩ fname f) (renderFile ⟨env, nexus, sa, shown⟩ fname f') := by
    rw [renderFile, renderFile]
    obtain ⟨ms, k1, k2⟩ := members_fewer (c := ⟨env, nexus, sa, shown⟩) (indent := []) hk
    exact (head_fewer ha).append (assemble_fewer k1 k2)
  obtain ⟨l, hl, s⟩ := fewer ls h2
  exact ⟨_, treeReport_ok.2 ⟨f, some nexus, l, rfl, told f ht, hl, rfl⟩, s.map _⟩

end Punx

import Verif.Spec.TreeHidden
import Verif.Props.H5Tree
import Verif.Props.Showable

/-!
# C153: what is behind links, and the tree report
-/

namespace Punx
open Spec

private theorem member_linked {c : TreeCfg} {link : Str} {kind : LinkKind} {indent : Str} {n : Node}
    (h : NexusLink c.env n.attrs n.name) : renderMember c link kind indent n =
      match isNeXusLink c.env n.attrs n.name with
      | .error e => ⟨link, false, .error e⟩
      | .ok _ => ⟨link, false, renderLinked c n.attrs link (indent ++ s%"  ")⟩ := by
  cases hl : isNeXusLink c.env n.attrs n.name with
  | error e =>
    cases n <;> simp only [Node.attrs, Node.name] at hl <;> simp only [renderMember, hl]
  | ok b =>
    have hb := (isNeXusLink_ok hl).2 h
    subst hb
    cases n <;> simp only [Node.attrs, Node.name] at hl <;> simp only [renderMember, hl, Node.attrs]

private theorem not_followed {k : LinkKind} (h : ¬ ShownBehind k) : followed k = false := by
  cases k with
  | soft => rfl
  | hard => exact absurd (.inl rfl) h
  | external f p e =>
    cases e with
    | false => rfl
    | true => exact absurd (.inr ⟨f, p, rfl⟩) h

mutual
private theorem member_alike {c : TreeCfg} {link : Str} {kind : LinkKind} {indent : Str} {n n' : Node} :
    ShownAlike c.env n n' → renderMember c link kind indent n = renderMember c link kind indent n'
  | .linked hn ht hl => by
    have hl' : NexusLink c.env n'.attrs n'.name := by
      rw [NexusLink, ← ht, ← hn]
      exact hl
    rw [member_linked hl, member_linked hl']
    simp only [isNeXusLink, renderLinked, attrGet_eq, ht, hn]
  | .dataset => rfl
  | .datatype => rfl
  | .group h => by
    rw [renderMember, renderMember, members_alike h]
private theorem members_alike {c : TreeCfg} {indent : Str} {k k' : Kids} :
    ShownAlikeKids c.env k k' → renderMembers c indent k = renderMembers c indent k'
  | .nil => rfl
  | .shown h hr => by
    rw [renderMembers, renderMembers, member_alike h, members_alike hr]
  | .other h hr => by
    rw [renderMembers, renderMembers, not_followed h, members_alike hr]
    rfl
  | .gone h hr => by
    rw [renderMembers, renderMembers, not_followed h, members_alike hr]
    rfl
  | .back h hr => by
    rw [renderMembers, renderMembers, not_followed h, members_alike hr]
    rfl
  | .broken hr => by
    rw [renderMembers, renderMembers, members_alike hr]
end

/-- **C153**: files that differ only behind links have the same report, if both are NeXus files or
both are not.  Missing: whether a file is a NeXus file is found out by following all links. -/
theorem tree_hidden_partial {env : Env} {shown : Int} {sa : Bool} {fname : Str} {f f' : H5File}
    {nexus : Bool} (ha : f.attrs = f'.attrs) (h : ShownAlikeKids env f.kids f'.kids)
    (ht : ToldNexus env f nexus) (ht' : ToldNexus env f' nexus) :
    treeReport env shown sa fname (.hdf5 f) = treeReport env shown sa fname (.hdf5 f') := by
  have told : ∀ g : H5File, ToldNexus env g nexus → isNeXusFile env (.hdf5 g) = .ok (some nexus) := by
    intro g hg
    cases nexus with
    | true => exact ((isNeXusFile_spec env).2.2.1 g).2 hg
    | false => exact ((isNeXusFile_spec env).2.2.2.1 g).2 hg
  simp only [treeReport, told f ht, told f' ht', renderFile, ha]
  rw [members_alike (c := ⟨env, _, sa, shown⟩) h]

end Punx

import Verif.Props.Reorder
import Verif.Props.Showable

/-!
# C150: the order of members and attributes, and the tree report
-/

namespace Punx
open Spec

/-- If the first output exists so does the second, with the same lines; in the same order if
attributes are hidden. -/
private def LikeOut (c : TreeCfg) (x x' : Except PyErr (List TLine)) : Prop :=
  ∀ ls, x = .ok ls → ∃ ls', x' = .ok ls' ∧ ls.Perm ls' ∧ (c.showAttrs = false → ls = ls')

private theorem LikeOut.refl (c : TreeCfg) (x : Except PyErr (List TLine)) : LikeOut c x x :=
  fun ls h => ⟨ls, h, .refl _, fun _ => rfl⟩

private theorem LikeOut.trans {c : TreeCfg} {x y z : Except PyErr (List TLine)}
    (h : LikeOut c x y) (k : LikeOut c y z) : LikeOut c x z := by
  intro ls e
  obtain ⟨l1, e1, p1, q1⟩ := h ls e
  obtain ⟨l2, e2, p2, q2⟩ := k l1 e1
  exact ⟨l2, e2, p1.trans p2, fun hc => (q1 hc).trans (q2 hc)⟩

private theorem LikeOut.append {c : TreeCfg} {x x' y y' : Except PyErr (List TLine)}
    (h : LikeOut c x x') (k : LikeOut c y y') :
    LikeOut c (do let a ← x; let b ← y; .ok (a ++ b)) (do let a ← x'; let b ← y'; .ok (a ++ b)) := by
  intro ls e
  cases hx : x with
  | error er => rw [hx] at e; cases e
  | ok a =>
    cases hy : y with
    | error er => rw [hx, hy] at e; cases e
    | ok b =>
      rw [hx, hy] at e
      cases e
      obtain ⟨a', e1, p1, q1⟩ := h a hx
      obtain ⟨b', e2, p2, q2⟩ := k b hy
      rw [e1, e2]
      exact ⟨a' ++ b', rfl, p1.append p2, fun hc => by rw [q1 hc, q2 hc]⟩

private structure LikeMember (c : TreeCfg) (m m' : Member) : Prop where
  name : m.name = m'.name
  isGroup : m.isGroup = m'.isGroup
  out : LikeOut c m.out m'.out

private theorem LikeMember.refl (c : TreeCfg) (m : Member) : LikeMember c m m :=
  ⟨rfl, rfl, .refl _ _⟩

private theorem LikeMember.trans {c : TreeCfg} {x y z : Member} (h : LikeMember c x y)
    (k : LikeMember c y z) : LikeMember c x z :=
  ⟨h.name.trans k.name, h.isGroup.trans k.isGroup, h.out.trans k.out⟩

private theorem concatE_like {c : TreeCfg} {l l' : List Member}
    (h : List.Forall₂ (LikeMember c) l l') :
    LikeOut c (concatE (l.map Member.out)) (concatE (l'.map Member.out)) := by
  induction h with
  | nil => exact .refl _ _
  | @cons a b as bs hab _ ih =>
    rw [List.map_cons, List.map_cons]
    have e : ∀ (x : Except PyErr (List TLine)) l, concatE (x :: l) =
        (do let a ← x; let b ← concatE l; .ok (a ++ b)) := by
      intro x l
      cases x with
      | error e => rfl
      | ok a =>
        rw [concatE]
        cases concatE l <;> rfl
    rw [e, e]
    exact hab.out.append ih

private theorem assemble_like {c : TreeCfg} {ms ms' : List Member}
    (h : PermBy (LikeMember c) ms ms') (d : (ms.map Member.name).Nodup) :
    LikeOut c (assemble ms) (assemble ms') := by
  obtain ⟨m, p, f⟩ := h
  have hs : sortBy (fun a b : Member => strLe a.name b.name) ms =
      sortBy (fun a b : Member => strLe a.name b.name) m := by
    have sorted : ∀ l : List Member, (sortBy (fun a b : Member => strLe a.name b.name) l).Pairwise
        (fun a b => strLe a.name b.name = true) :=
      sortBy_sorted (fun a b => strLe_total a.name b.name) (fun a b c h k => strLe_trans h k)
    refine List.Perm.eq_of_pairwise (fun x y hx hy h1 h2 => ?_) (sorted ms) (sorted m)
      (((sortBy_perm ms).trans p).trans (sortBy_perm m).symm)
    exact List.inj_on_of_nodup_map d (mem_sortBy.1 hx) (p.mem_iff.2 (mem_sortBy.1 hy))
      (strLe_antisymm h1 h2)
  have f2 := forall₂_sortBy (le := fun a b : Member => strLe a.name b.name)
    (le' := fun a b : Member => strLe a.name b.name)
    (fun a a' b b' h k => by rw [h.name, k.name]) f
  rw [assemble, assemble, hs, ← List.map_append, ← List.map_append]
  refine concatE_like (List.rel_append (forall₂_filter ?_ f2) (forall₂_filter ?_ f2))
  · exact fun a b h => by rw [h.isGroup]
  · exact fun a b h => h.isGroup

private theorem renderAttrs_like {c : TreeCfg} {indent : Str} {a a' extra : List (Str × Val)}
    (h : a.Perm a') : LikeOut c (renderAttrs c indent a extra) (renderAttrs c indent a' extra) := by
  intro ls e
  rw [renderAttrs] at e ⊢
  cases hc : c.showAttrs with
  | false =>
    rw [hc] at e
    cases e
    exact ⟨[], rfl, .refl _, fun _ => rfl⟩
  | true =>
    rw [hc, if_pos rfl] at e
    rw [if_pos rfl]
    have f := (mapE_ok.1 e).flip
    obtain ⟨r, h1, h2⟩ := List.perm_comp_forall₂ (h.append_right extra).symm f
    exact ⟨r, mapE_ok.2 h1.flip, h2.symm, fun x => by cases x⟩

private theorem renderHead_like {c : TreeCfg} {a a' : List (Str × Val)} {name indent : Str}
    {k : LinkKind} (h : a.Perm a') (d : (a.map (·.1)).Nodup) :
    LikeOut c (renderHead c a name indent k) (renderHead c a' name indent k) := by
  have e : nxClassText c.env a' = nxClassText c.env a := by
    rw [nxClassText, nxClassText, attrGet_eq, attrGet_eq, lookup_perm h d]
  rw [renderHead, renderHead, e]
  cases nxClassText c.env a with
  | error e => exact .refl _ _
  | ok cls =>
    intro ls e
    have := renderAttrs_like (c := c) (indent := indent) (extra := externalAttrs k) h
    cases hr : renderAttrs c indent a (externalAttrs k) with
    | error er => rw [hr] at e; cases e
    | ok b =>
      obtain ⟨b', e1, p, q⟩ := this b hr
      rw [hr] at e
      cases e
      rw [e1]
      exact ⟨_, rfl, p.cons _, fun hc => by rw [q hc]⟩

private theorem renderDataset_like {c : TreeCfg} {oname name indent : Str}
    {a a' : List (Str × Val)} {info : DataInfo} (h : a.Perm a') (d : (a.map (·.1)).Nodup) :
    LikeOut c (renderDataset c oname a info name indent)
      (renderDataset c oname a' info name indent) := by
  have e : renderAsLink c oname a' = renderAsLink c oname a := by
    rw [renderAsLink, renderAsLink, attrGet_eq, attrGet_eq, lookup_perm h d]
  have e2 : renderLinked c a' name indent = renderLinked c a name indent := by
    rw [renderLinked, renderLinked, attrGet_eq, attrGet_eq, lookup_perm h d]
  rw [renderDataset, renderDataset, e, e2]
  cases renderAsLink c oname a with
  | error er => exact .refl _ _
  | ok b =>
    cases b with
    | true => exact .refl _ _
    | false => exact LikeOut.append (.refl _ (renderData c info name indent)) (renderAttrs_like h)

private theorem renderMember_name (c : TreeCfg) (link : Str) (k : LinkKind) (indent : Str)
    (n : Node) : (renderMember c link k indent n).name = link := by
  cases n <;> (rw [renderMember]; split <;> rfl)

private theorem renderMembers_names (c : TreeCfg) (indent : Str) : (ks : Kids) →
    (renderMembers c indent ks).map Member.name = ks.toList.map (·.1)
  | .nil => rfl
  | .cons l k n rest => by
    rw [renderMembers, Kids.toList, List.map_cons, List.map_cons, renderMembers_names c indent rest]
    congr 1
    split
    · exact renderMember_name ..
    · rfl
  | .broken l k rest => by
    rw [renderMembers, Kids.toList, List.map_cons, List.map_cons, renderMembers_names c indent rest]

private theorem link_like {c : TreeCfg} {oname link indent : Str} {a a' : List (Str × Val)}
    (h : a.Perm a') (d : (a.map (·.1)).Nodup) :
    isNeXusLink c.env a' oname = isNeXusLink c.env a oname ∧
      renderLinked c a' link indent = renderLinked c a link indent := by
  constructor
  · rw [isNeXusLink, isNeXusLink, attrGet_eq, attrGet_eq, lookup_perm h d]
  · rw [renderLinked, renderLinked, attrGet_eq, attrGet_eq, lookup_perm h d]

mutual
private theorem renderMember_like {c : TreeCfg} {link : Str} {k : LinkKind} {indent : Str} :
    {n n' : Node} → SameNode n n' → Distinct n →
    LikeMember c (renderMember c link k indent n) (renderMember c link k indent n')
  | _, _, .dataset (n := oname) (a := a) (a' := a') (d := info) h, d => by
    rw [Distinct] at d
    obtain ⟨e1, e2⟩ := link_like (c := c) (oname := oname) (link := link)
      (indent := indent ++ s%"  ") h d
    rw [renderMember, renderMember, e1, e2]
    cases isNeXusLink c.env a oname with
    | error e => exact .refl _ _
    | ok b =>
      cases b with
      | true => exact .refl _ _
      | false =>
        exact ⟨rfl, rfl, LikeOut.append (renderDataset_like h d) (.refl _ _)⟩
  | _, _, .datatype (n := oname) (a := a) (a' := a') h, d => by
    rw [Distinct] at d
    obtain ⟨e1, e2⟩ := link_like (c := c) (oname := oname) (link := link)
      (indent := indent ++ s%"  ") h d
    rw [renderMember, renderMember, e1, e2]
    exact .refl _ _
  | _, _, .group (n := oname) (a := a) (a' := a') (ks := ks) (ks' := ks') h hk, d => by
    rw [Distinct] at d
    obtain ⟨e1, e2⟩ := link_like (c := c) (oname := oname) (link := link)
      (indent := indent ++ s%"  ") h d.1
    have hm := renderMembers_like (c := c) (indent := indent ++ s%"  ") hk d.2.2
    rw [renderMember, renderMember, e1, e2]
    cases isNeXusLink c.env a oname with
    | error e => exact .refl _ _
    | ok b =>
      cases b with
      | true => exact .refl _ _
      | false =>
        refine ⟨rfl, rfl, LikeOut.append (renderHead_like h d.1) (assemble_like hm ?_)⟩
        rw [renderMembers_names]
        exact d.2.1
private theorem renderMembers_like {c : TreeCfg} {indent : Str} : {ks ks' : Kids} →
    SameKids ks ks' → DistinctKids ks →
    PermBy (LikeMember c) (renderMembers c indent ks) (renderMembers c indent ks')
  | _, _, .nil, _ => .of_forall₂ .nil
  | _, _, .cons h k, d => by
    rw [DistinctKids] at d
    rw [renderMembers, renderMembers]
    refine .cons ?_ (renderMembers_like k d.2)
    split
    · exact renderMember_like h d.1
    · exact .refl _ _
  | _, _, .broken k, d => by
    rw [DistinctKids] at d
    rw [renderMembers, renderMembers]
    exact .cons (.refl _ _) (renderMembers_like k d)
  | _, _, .swap (l := l) (l' := l') (k := k) (k' := k') (o := o) (o' := o') (r := r), _ => by
    have e : ∀ l k o r, ∃ m, renderMembers c indent (linkTo l k o r) =
        m :: renderMembers c indent r ∧ ∀ r', renderMembers c indent (linkTo l k o r') =
        m :: renderMembers c indent r' := by
      intro l k o r
      cases o with
      | none => exact ⟨_, by rw [linkTo, renderMembers], fun r' => by rw [linkTo, renderMembers]⟩
      | some n => exact ⟨_, by rw [linkTo, renderMembers], fun r' => by rw [linkTo, renderMembers]⟩
    obtain ⟨m, h1, h2⟩ := e l k o r
    obtain ⟨m', h1', h2'⟩ := e l' k' o' r
    rw [h2, h1', h2', h1]
    exact .perm_left (.swap _ _ _)
      (.of_forall₂ (List.forall₂_same.2 fun x _ => LikeMember.refl c x))
  | _, _, .trans h k, d =>
    PermBy.trans (R := LikeMember c) (fun _ _ _ h k => h.trans k) (renderMembers_like h d)
      (renderMembers_like k (h.distinct d))
end

private theorem GroupOf.like {env : Env} {s : Str} {n n' : Node} (h : Like n n')
    (g : GroupOf env s n) : GroupOf env s n' := by
  obtain ⟨name, a, ks, v, rfl, hv, ht⟩ := g
  have e := h.lookup s%"NX_class"
  cases h.same with
  | @group _ _ a' _ ks' p k =>
    exact ⟨name, a', ks', v, rfl, e.symm.trans hv, ht⟩

/-- **C150**: if the members of groups and the attributes of objects come in another order the
report has the same lines, and if attributes are hidden the same lines in the same order - if it
can still be told whether the file is a NeXus file, which looks at the members in their order. -/
theorem tree_order_partial {env : Env} {shown : Int} {sa : Bool} {fname : Str} {f f' : H5File}
    {ts : List Str} (h : SameFile f f') (hw : WellNamedFile f)
    (ht : ∃ nexus, ToldNexus env f' nexus)
    (hr : treeReport env shown sa fname (.hdf5 f) = .ok (some ts)) :
    ∃ ts', treeReport env shown sa fname (.hdf5 f') = .ok (some ts') ∧ ts.Perm ts' ∧
      (sa = false → ts = ts') := by
  obtain ⟨f0, b, ls, e0, hb, hl, rfl⟩ := treeReport_ok.1 hr
  cases e0
  have links := h.kids.links
  have distinct : ∀ {l : Str} {n : Node} {ks : Kids}, DistinctKids ks → (l, some n) ∈ ks.toList →
      Distinct n := by
    intro l n ks
    induction ks using Kids.rec (motive_1 := fun _ => True) with
    | nil => intro _ hm; cases hm
    | cons l' k n' rest _ ih =>
      intro d hm
      rw [DistinctKids] at d
      rcases List.mem_cons.1 hm with e | hm
      · cases e; exact d.1
      · exact ih d.2 hm
    | broken l' k rest ih =>
      intro d hm
      rw [DistinctKids] at d
      rcases List.mem_cons.1 hm with e | hm
      · cases e
      · exact ih d hm
    | group => trivial
    | dataset => trivial
    | datatype => trivial
  have entry : (∃ l n, (l, some n) ∈ f.kids.toList ∧ GroupOf env s%"NXentry" n) ↔
      ∃ l n, (l, some n) ∈ f'.kids.toList ∧ GroupOf env s%"NXentry" n := by
    have one : ∀ {g g' : H5File}, PermBy SameLink g.kids.toList g'.kids.toList →
        DistinctKids g.kids → (∃ l n, (l, some n) ∈ g.kids.toList ∧ GroupOf env s%"NXentry" n) →
        ∃ l n, (l, some n) ∈ g'.kids.toList ∧ GroupOf env s%"NXentry" n := by
      rintro g g' p d ⟨l, n, hm, hg⟩
      obtain ⟨⟨l', o⟩, hy, -, hrel⟩ := p.mem hm
      cases hrel with
      | some hs => exact ⟨l', _, hy, GroupOf.like ⟨hs, distinct d hm⟩ hg⟩
    exact ⟨one links hw.2.2.distinct,
      one h.kids.symm.links (h.kids.distinct hw.2.2.distinct)⟩
  have told : ∀ (b : Bool) (g : H5File), isNeXusFile env (.hdf5 g) = .ok (some b) ↔
      ToldNexus env g b := by
    intro b g
    cases b with
    | true => exact (isNeXusFile_spec env).2.2.1 g
    | false => exact (isNeXusFile_spec env).2.2.2.1 g
  have val : ∀ (b : Bool) (g : H5File), ToldNexus env g b → (b = true ↔
      ∃ l n, (l, some n) ∈ g.kids.toList ∧ GroupOf env s%"NXentry" n) := by
    intro b g hb
    cases b with
    | true =>
      obtain ⟨bf, l, n, af, e, hg, -⟩ := hb
      exact iff_of_true rfl ⟨l, n, by rw [e]; simp, hg⟩
    | false => exact iff_of_false (by simp) fun ⟨l, n, hm, hg⟩ => (hb l n hm).1 hg
  cases b with
  | none => exact absurd hb ((isNeXusFile_spec env).2.2.2.2 f)
  | some b =>
    obtain ⟨b', hb'⟩ := ht
    have e : b = b' := by
      have h1 := val b f ((told b f).1 hb)
      have h2 := val b' f' hb'
      rw [← entry] at h2
      exact Bool.eq_iff_iff.2 (h1.trans h2.symm)
    subst e
    have key : LikeOut ⟨env, b, sa, shown⟩ (renderFile ⟨env, b, sa, shown⟩ fname f)
        (renderFile ⟨env, b, sa, shown⟩ fname f') := by
      rw [renderFile, renderFile]
      refine LikeOut.append (renderHead_like h.attrs hw.1)
        (assemble_like (renderMembers_like h.kids hw.2.2.distinct) ?_)
      rw [renderMembers_names]
      exact hw.2.1
    obtain ⟨ls', e1, p, q⟩ := key ls hl
    exact ⟨_, treeReport_ok.2 ⟨f', some b, ls', rfl, (told b f').2 hb', e1, rfl⟩, p.map _,
      fun hs => by rw [q hs]⟩

end Punx

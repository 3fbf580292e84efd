import Verif.Props.H5Tree

/-!
# C39, C40, C41: attributes, broken links and arrays in the tree report
-/

namespace Punx
open Spec

theorem forall₂_mem_left {α β : Type} {R : α → β → Prop} {l : List α} {l' : List β}
    (h : List.Forall₂ R l l') {a : α} (ha : a ∈ l) : ∃ b, b ∈ l' ∧ R a b := by
  induction h with
  | nil => cases ha
  | cons hxy _ ih =>
    rcases List.mem_cons.1 ha with rfl | ha
    · exact ⟨_, by simp, hxy⟩
    · obtain ⟨b, hb, hr⟩ := ih ha
      exact ⟨b, by simp [hb], hr⟩

/-! ## C38: one header for each object -/

theorem showsEntry_headers {env : Env} {sa : Bool} {ls : List TLine} {e : TreeEntry}
    (h : ShowsEntry env sa ls e) :
    ∃ hd, ls.filter (fun l => l.tag = .header) = [hd] ∧ ShowsHeader env hd.text e := by
  obtain ⟨hd, arr, as, rfl, ht, hs, _, harr, has⟩ := h
  refine ⟨hd, ?_, hs⟩
  have h1 : arr.filter (fun l => decide (l.tag = .header)) = [] := by
    rw [List.filter_eq_nil_iff]
    intro l hl
    simp [(harr l hl).1]
  have h2 : as.filter (fun l => decide (l.tag = .header)) = [] := by
    rw [List.filter_eq_nil_iff]
    intro l hl
    cases sa with
    | true =>
      simp only [if_true] at has
      obtain ⟨a, _, ha⟩ := forall₂_mem_left has hl
      simp [ha.1]
    | false =>
      simp only [Bool.false_eq_true, if_false] at has
      rw [has] at hl
      cases hl
  simp [ht, h1, h2]

/-- The header lines are, in order, the entries of the outline. -/
theorem tree_headers (c : TreeCfg) (fname : Str) (f : H5File) (ls : List TLine)
    (h : renderFile c fname f = .ok ls) :
    List.Forall₂ (fun l e => ShowsHeader c.env l.text e) (ls.filter (fun l => l.tag = .header))
      (outlineFile c.env c.isNeXus
        (if c.isNeXus then fname ++ s%" : NeXus data file" else fname) f) := by
  obtain ⟨blocks, rfl, hb⟩ := tree_shows_all c fname f ls h
  clear h
  generalize outlineFile _ _ _ _ = es at hb ⊢
  induction hb with
  | nil => exact .nil
  | cons he _ ih =>
    obtain ⟨hd, hf, hs⟩ := showsEntry_headers he
    simp only [List.flatten_cons, List.filter_append, hf]
    exact .cons hs ih

theorem arrange_perm (ms : List Outlined) : (arrange ms).Perm (ms.flatMap Outlined.entries) := by
  unfold arrange
  rw [← List.flatMap_append]
  refine List.Perm.flatMap_right _ ?_
  exact (List.perm_append_comm.trans (List.filter_append_perm _ _)).trans (sortBy_perm ms)

mutual
theorem outlineMember_perm (env : Env) (isNeXus : Bool) (d : Nat) (link : Str) (kind : LinkKind) :
    ∀ n, (outlineMember env isNeXus d link kind n).entries.Perm
      (listMember env isNeXus d link kind n)
  | .group oname attrs kids => by
    rw [outlineMember, listMember]
    split
    · exact .refl _
    · exact .cons _ ((arrange_perm _).trans (outlineMembers_perm env isNeXus (d + 1) kids))
  | .dataset .. => by rw [listMember]; simp
  | .datatype .. => by rw [listMember]; simp
theorem outlineMembers_perm (env : Env) (isNeXus : Bool) (d : Nat) :
    ∀ kids, ((outlineMembers env isNeXus d kids).flatMap Outlined.entries).Perm
      (listMembers env isNeXus d kids)
  | .nil => .refl _
  | .cons link kind n rest => by
    rw [outlineMembers, listMembers, List.flatMap_cons]
    refine List.Perm.append ?_ (outlineMembers_perm env isNeXus d rest)
    split
    · exact outlineMember_perm env isNeXus d link kind n
    · exact .refl _
  | .broken link kind rest => by
    rw [outlineMembers, listMembers, List.flatMap_cons]
    exact .cons _ (outlineMembers_perm env isNeXus d rest)
end

/-- The outline has every member of every group once: it is a rearrangement of the file. -/
theorem outline_complete (env : Env) (isNeXus : Bool) (title : Str) (f : H5File) :
    (outlineFile env isNeXus title f).Perm
      (⟨0, title, .group f.attrs, f.attrs⟩ :: listMembers env isNeXus 1 f.kids) :=
  .cons _ ((arrange_perm _).trans (outlineMembers_perm env isNeXus 1 f.kids))

/-- Below a group: first what is not shown as a group, then groups, each in order of names. -/
theorem arrange_order (ms : List Outlined) :
    ∃ items groups : List Outlined, (items ++ groups).Perm ms ∧
      (∀ m ∈ items, m.isGroup = false) ∧ (∀ m ∈ groups, m.isGroup = true) ∧
      items.Pairwise (fun a b => strLe a.name b.name = true) ∧
      groups.Pairwise (fun a b => strLe a.name b.name = true) ∧
      arrange ms = items.flatMap Outlined.entries ++ groups.flatMap Outlined.entries := by
  have hs : (sortBy (fun a b : Outlined => strLe a.name b.name) ms).Pairwise
      (fun a b => strLe a.name b.name = true) :=
    sortBy_sorted (le := fun a b : Outlined => strLe a.name b.name)
      (fun _ _ => strLe_total _ _) (fun _ _ _ h1 h2 => strLe_trans h1 h2) ms
  exact ⟨_, _, (List.perm_append_comm.trans (List.filter_append_perm _ _)).trans (sortBy_perm ms),
    fun m hm => by simpa using (List.mem_filter.1 hm).2, fun m hm => (List.mem_filter.1 hm).2,
    hs.filter _, hs.filter _, rfl⟩

/-! ## C39: attributes -/

/-- The lines other than those of attributes. -/
def noAttrs (ls : List TLine) : List TLine := ls.filter (fun l => l.tag ≠ .attr)

theorem noAttrs_append (a b : List TLine) : noAttrs (a ++ b) = noAttrs a ++ noAttrs b :=
  List.filter_append ..

theorem noAttrs_flatten (l : List (List TLine)) :
    noAttrs l.flatten = (l.map noAttrs).flatten := List.filter_flatten

theorem renderAttrs_tags {c : TreeCfg} {indent : Str} {attrs extra : List (Str × Val)}
    {ls : List TLine} (h : renderAttrs c indent attrs extra = .ok ls) : noAttrs ls = [] := by
  unfold renderAttrs at h
  split at h
  · have := mapE_ok.1 h
    rw [noAttrs, List.filter_eq_nil_iff]
    intro l hl
    obtain ⟨a, _, ha⟩ := forall₂_mem_left this hl
    unfold renderAttr at ha
    simp only [bind, Except.bind] at ha
    split at ha
    · cases ha
    · injection ha with ha
      simp [← ha]
  · injection h with h
    rw [← h]; rfl

/-- Settings with attributes hidden. -/
def TreeCfg.hide (c : TreeCfg) : TreeCfg := { c with showAttrs := false }

theorem renderAttrs_hide (c : TreeCfg) (indent : Str) (attrs extra : List (Str × Val)) :
    renderAttrs c.hide indent attrs extra = .ok [] := rfl

theorem renderLinked_tags {c : TreeCfg} {attrs : List (Str × Val)} {name indent : Str}
    {ls : List TLine} (h : renderLinked c attrs name indent = .ok ls) : noAttrs ls = ls := by
  unfold renderLinked at h
  simp only [bind, Except.bind] at h
  split at h
  · cases h
  · split at h
    · cases h
    · injection h with h
      rw [← h]; rfl

theorem renderData_tags {c : TreeCfg} {di : DataInfo} {name indent : Str} {ls : List TLine}
    (h : renderData c di name indent = .ok ls) : noAttrs ls = ls := by
  unfold renderData at h
  simp only [bind, Except.bind] at h
  split at h
  · cases h
  split at h
  · cases h
  split at h
  · split at h
    · cases h
    · injection h with h
      rw [← h]; rfl
  · injection h with h
    rw [← h]; rfl
  · injection h with h
    rw [← h]; rfl
  · cases h
  · split at h
    · split at h
      · injection h with h
        rw [← h]; rfl
      · injection h with h
        rw [← h]; rfl
    · injection h with h
      rw [← h]; rfl

theorem renderHead_hide {c : TreeCfg} {attrs : List (Str × Val)} {name indent : Str}
    {kind : LinkKind} {ls : List TLine} (h : renderHead c attrs name indent kind = .ok ls) :
    renderHead c.hide attrs name indent kind = .ok (noAttrs ls) := by
  unfold renderHead at h ⊢
  rw [renderAttrs_hide]
  show (do let cls ← nxClassText c.env attrs; _) = _
  simp only [bind, Except.bind] at h ⊢
  split at h
  · cases h
  rename_i t ht
  split at h
  · cases h
  rename_i a ha
  injection h with h
  subst h
  have := renderAttrs_tags ha
  simp only [noAttrs, ne_eq, decide_not] at this
  simp [noAttrs, this]

/-- The member with attributes hidden. -/
def Hides (m m' : Member) : Prop :=
  m.name = m'.name ∧ m.isGroup = m'.isGroup ∧ ∀ ls, m.out = .ok ls → m'.out = .ok (noAttrs ls)

theorem concat_hides {ms ms' : List Member} (h : List.Forall₂ Hides ms ms')
    {outs : List (List TLine)} (ho : ms.map Member.out = outs.map Except.ok) :
    ms'.map Member.out = (outs.map noAttrs).map Except.ok := by
  induction h generalizing outs with
  | nil =>
    cases outs with
    | nil => rfl
    | cons _ _ => cases ho
  | @cons m o ms os hmo _ ih =>
    cases outs with
    | nil => cases ho
    | cons l outs =>
      simp only [List.map_cons, List.cons.injEq] at ho
      simp only [List.map_cons]
      rw [hmo.2.2 l ho.1, ih ho.2]

theorem assemble_hides {ms ms' : List Member} (h : List.Forall₂ Hides ms ms') {ls : List TLine}
    (hl : assemble ms = .ok ls) : assemble ms' = .ok (noAttrs ls) := by
  unfold assemble at hl ⊢
  obtain ⟨outs, ho, rfl⟩ := concatE_ok.1 hl
  have hs := forall₂_sortBy (le := fun a b => strLe a.name b.name)
    (le' := fun a b => strLe a.name b.name) (fun a a' b b' h h' => by
    simp only [h.1, h'.1]) h
  obtain ⟨o1, o2, rfl, h1, h2⟩ := List.append_eq_map_iff.1 ho
  refine concatE_ok.2 ⟨o1.map noAttrs ++ o2.map noAttrs, ?_, ?_⟩
  · rw [List.map_append]
    congr 1
    · exact concat_hides (forall₂_filter (fun m o h => by rw [h.2.1]) hs) h1.symm
    · exact concat_hides (forall₂_filter (fun m o h => h.2.1) hs) h2.symm
  · rw [noAttrs_flatten, List.map_append]

theorem renderUnfollowed_hides {c : TreeCfg} {link : Str} {kind : LinkKind} {indent : Str}
    {ls : List TLine} (h : renderUnfollowed c link kind indent = .ok ls) :
    renderUnfollowed c.hide link kind indent = .ok (noAttrs ls) := by
  have miss : ∀ k : LinkKind, (do
      let a ← renderAttrs c (indent ++ s%"  ") (externalAttrs k) []
      Except.ok (⟨.header, indent ++ s%"  " ++ link ++ s%": missing external file"⟩ :: a) :
        Except PyErr (List TLine)) = .ok ls →
      noAttrs ls = [⟨.header, indent ++ s%"  " ++ link ++ s%": missing external file"⟩] := by
    intro k h
    simp only [bind, Except.bind] at h
    split at h
    · cases h
    · rename_i as ha
      injection h with h
      subst h
      have := renderAttrs_tags ha
      simp only [noAttrs, ne_eq, decide_not] at this
      simp [noAttrs, this]
  cases kind with
  | soft path => injection h with h; rw [← h]; rfl
  | hard => rw [miss .hard h]; rfl
  | external file path ex => rw [miss (.external file path ex) h]; rfl

theorem renderDataset_hide {c : TreeCfg} {oname : Str} {attrs : List (Str × Val)} {di : DataInfo}
    {name indent : Str} {ls : List TLine} (h : renderDataset c oname attrs di name indent = .ok ls) :
    renderDataset c.hide oname attrs di name indent = .ok (noAttrs ls) := by
  have e1 : renderAsLink c.hide oname attrs = renderAsLink c oname attrs := rfl
  have e2 : renderLinked c.hide attrs name indent = renderLinked c attrs name indent := rfl
  have e3 : renderData c.hide di name indent = renderData c di name indent := rfl
  unfold renderDataset at h ⊢
  rw [e1, e2, e3, renderAttrs_hide]
  simp only [bind, Except.bind] at h ⊢
  split at h
  · cases h
  rename_i r hr
  cases r with
  | true =>
    simp only [if_true] at h ⊢
    rw [h, renderLinked_tags h]
  | false =>
    simp only [Bool.false_eq_true, if_false] at h ⊢
    split at h
    · cases h
    rename_i x hx
    split at h
    · cases h
    rename_i y hy
    injection h with h
    subst h
    simp only [noAttrs_append, renderAttrs_tags hy, renderData_tags hx]

mutual
theorem renderMember_hides (c : TreeCfg) (link : Str) (kind : LinkKind) (indent : Str) :
    ∀ n : Node, Hides (renderMember c link kind indent n) (renderMember c.hide link kind indent n)
  | .group oname attrs kids => by
    have ih := renderMembers_hides c (indent ++ s%"  ") kids
    rw [renderMember, renderMember]
    show Hides _ (match isNeXusLink c.env attrs oname with
      | .error e => _
      | .ok true => _
      | .ok false => _)
    cases hb : isNeXusLink c.env attrs oname with
    | error e => exact ⟨rfl, rfl, fun ls h => by cases h⟩
    | ok b =>
      cases b with
      | true => exact ⟨rfl, rfl, fun ls h => h.trans (by rw [renderLinked_tags h])⟩
      | false =>
        refine ⟨rfl, rfl, fun ls h => ?_⟩
        simp only [bind, Except.bind] at h ⊢
        split at h
        · cases h
        rename_i hd hhd
        split at h
        · cases h
        rename_i m hm
        injection h with h
        subst h
        rw [renderHead_hide hhd, assemble_hides ih hm, noAttrs_append]
  | .dataset oname attrs di => by
    rw [renderMember, renderMember]
    show Hides _ (match isNeXusLink c.env attrs oname with
      | .error e => _
      | .ok true => _
      | .ok false => _)
    cases hb : isNeXusLink c.env attrs oname with
    | error e => exact ⟨rfl, rfl, fun ls h => by cases h⟩
    | ok b =>
      cases b with
      | true => exact ⟨rfl, rfl, fun ls h => h.trans (by rw [renderLinked_tags h])⟩
      | false =>
        refine ⟨rfl, rfl, fun ls h => ?_⟩
        simp only [bind, Except.bind] at h ⊢
        split at h
        · cases h
        rename_i s hs
        split at h
        · cases h
        rename_i a ha
        injection h with h
        subst h
        rw [renderDataset_hide hs, renderAttrs_hide, noAttrs_append, renderAttrs_tags ha]
  | .datatype oname attrs => by
    rw [renderMember, renderMember]
    show Hides _ (match isNeXusLink c.env attrs oname with
      | .error e => _
      | .ok true => _
      | .ok false => _)
    cases hb : isNeXusLink c.env attrs oname with
    | error e => exact ⟨rfl, rfl, fun ls h => by cases h⟩
    | ok b =>
      cases b with
      | true => exact ⟨rfl, rfl, fun ls h => h.trans (by rw [renderLinked_tags h])⟩
      | false => exact ⟨rfl, rfl, fun ls h => by cases h⟩
theorem renderMembers_hides (c : TreeCfg) (indent : Str) :
    ∀ kids : Kids, List.Forall₂ Hides (renderMembers c indent kids)
      (renderMembers c.hide indent kids)
  | .nil => .nil
  | .cons link kind n rest => by
    rw [renderMembers, renderMembers]
    refine .cons ?_ (renderMembers_hides c indent rest)
    by_cases hf : followed kind = true
    · rw [if_pos hf, if_pos hf]
      exact renderMember_hides c link kind indent n
    · rw [if_neg hf, if_neg hf]
      exact ⟨rfl, rfl, fun ls h => renderUnfollowed_hides h⟩
  | .broken link kind rest => by
    rw [renderMembers, renderMembers]
    exact .cons ⟨rfl, rfl, fun ls h => renderUnfollowed_hides h⟩ (renderMembers_hides c indent rest)
end

/-- Hiding attributes removes the lines of attributes and changes nothing else. -/
theorem hide_attributes (c : TreeCfg) (fname : Str) (f : H5File) (ls : List TLine)
    (h : renderFile { c with showAttrs := true } fname f = .ok ls) :
    renderFile { c with showAttrs := false } fname f = .ok (ls.filter (fun l => l.tag ≠ .attr)) := by
  unfold renderFile at h ⊢
  simp only [bind, Except.bind] at h ⊢
  split at h
  · cases h
  rename_i hd hhd
  split at h
  · cases h
  rename_i m hm
  injection h with h
  subst h
  have h1 := renderHead_hide hhd
  have h2 := assemble_hides (renderMembers_hides { c with showAttrs := true } [] f.kids) hm
  simp only [TreeCfg.hide] at h1 h2
  rw [h1, h2, ← noAttrs, noAttrs_append]

/-- What a report is: the lines of an HDF5 file that exists. -/
theorem treeReport_ok {env : Env} {shown : Int} {sa : Bool} {fname : Str} {fs : FileState}
    {ts : List Str} : treeReport env shown sa fname fs = .ok (some ts) ↔
      ∃ f b ls, fs = .hdf5 f ∧ isNeXusFile env fs = .ok b ∧
        renderFile ⟨env, b.getD false, sa, shown⟩ fname f = .ok ls ∧ ts = ls.map TLine.text := by
  cases fs with
  | missing => simp [treeReport]
  | notHdf5 => simp [treeReport]
  | hdf5 f =>
    simp only [treeReport]
    cases hb : isNeXusFile env (.hdf5 f) with
    | error e => simp
    | ok b =>
      simp only
      cases hr : renderFile ⟨env, b.getD false, sa, shown⟩ fname f with
      | error e =>
        simp only [reduceCtorEq, false_iff]
        rintro ⟨f', b', ls, h1, h2, h3, _⟩
        injection h1 with h1
        injection h2 with h2
        subst h1; subst h2
        rw [hr] at h3
        cases h3
      | ok ls =>
        simp only [Except.ok.injEq, Option.some.injEq]
        constructor
        · rintro rfl
          exact ⟨f, b, ls, rfl, rfl, hr, rfl⟩
        · rintro ⟨f', b', ls', h1, h2, h3, rfl⟩
          injection h1 with h1
          subst h1; subst h2
          rw [hr] at h3
          injection h3 with h3
          rw [h3]

/-- Reports with and without attributes. -/
theorem report_hide_attributes (env : Env) (shown : Int) (fname : Str) (fs : FileState)
    (ts : List Str) (h : treeReport env shown true fname fs = .ok (some ts)) :
    ∃ ls : List TLine, ts = ls.map TLine.text ∧
      treeReport env shown false fname fs =
        .ok (some ((ls.filter (fun l => l.tag ≠ .attr)).map TLine.text)) ∧
      ∀ l ∈ ls, l.tag = .attr → ∃ d s, l.text = spaces d ++ s%"  @" ++ s := by
  obtain ⟨f, b, ls, h1, h2, h3, rfl⟩ := treeReport_ok.1 h
  refine ⟨ls, rfl, treeReport_ok.2 ⟨f, b, _, h1, h2,
    hide_attributes ⟨env, b.getD false, true, shown⟩ fname f ls h3, rfl⟩, ?_⟩
  intro l hl ht
  obtain ⟨blocks, rfl, hb⟩ := tree_shows_all _ fname f ls h3
  obtain ⟨bl, hbl, hl⟩ := List.mem_flatten.1 hl
  obtain ⟨e, _, hd, arr, as, rfl, hdt, _, _, harr, has⟩ := forall₂_mem_left hb hbl
  rcases List.mem_append.1 hl with hl | hl
  · rcases List.mem_cons.1 hl with rfl | hl
    · rw [hdt] at ht; cases ht
    · rw [(harr l hl).1] at ht; cases ht
  · obtain ⟨a, _, ha⟩ := forall₂_mem_left has hl
    obtain ⟨_, t, _, htx⟩ := ha
    exact ⟨e.depth, a.1 ++ s%" = " ++ t, by rw [htx]; simp⟩

end Punx

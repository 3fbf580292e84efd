import Verif.Props.Reorder

/-!
# C107: the order of members and attributes, lines on names, values, groups and definitions
-/

namespace Punx
open Spec

/-! ## looking up -/

theorem find_like {n n' : Str} {a a' : List (Str × Val)} {ks ks' : Kids}
    (h : Like (.group n a ks) (.group n' a' ks')) (c : Str) :
    Option.Rel (Option.Rel Like) (ks.find c) (ks'.find c) := by
  have hd := h.distinct
  have hd' := h.symm.distinct
  rw [Distinct] at hd hd'
  cases h.same with
  | group _ k =>
    have hl := k.links
    have deep : ∀ (o : Node) (l : Str), (l, some o) ∈ ks.toList → Distinct o := by
      intro o l hm
      have := hd.2.2
      clear hl k h hd
      induction ks using Kids.rec (motive_1 := fun _ => True) with
      | dataset => trivial
      | datatype => trivial
      | group => trivial
      | nil => cases hm
      | cons l' k' m r _ ih =>
        rw [DistinctKids] at this
        rw [Kids.toList] at hm
        rcases List.mem_cons.1 hm with e | hm
        · cases e; exact this.1
        · exact ih hm this.2
      | broken l' k' r ih =>
        rw [DistinctKids] at this
        rw [Kids.toList] at hm
        rcases List.mem_cons.1 hm with e | hm
        · cases e
        · exact ih hm this
    rw [Kids.find, Kids.find]
    cases e : ks.toList.lookup c with
    | none =>
      rw [lookup_none_iff.2]
      · exact .none
      · intro v hv
        obtain ⟨y, hy, hs⟩ := (hl.symm (S := fun y x => SameLink x y) fun _ _ h => h).mem hv
        refine lookup_none_iff.1 e y.2 ?_
        have : y = (c, y.2) := Prod.ext hs.1 rfl
        rwa [this] at hy
    | some o =>
      obtain ⟨y, hy, hs⟩ := hl.mem (mem_of_lookup e)
      have : y = (c, y.2) := Prod.ext hs.1.symm rfl
      rw [this] at hy
      rw [lookup_of_mem hd'.2.1 hy]
      refine .some ?_
      have hr := hs.2
      simp only at hr
      generalize y.2 = o' at hr
      cases hr with
      | none => exact .none
      | some hr => exact .some ⟨hr, deep _ _ (mem_of_lookup e)⟩

theorem resolve_like : (ps : List Str) → {s s' : Node} → Like s s' →
    Option.Rel Like (resolve s ps) (resolve s' ps)
  | [], _, _, h => .some h
  | c :: cs, s, s', h => by
    cases hs : h.same with
    | dataset => exact .none
    | datatype => exact .none
    | group _ k =>
      rw [resolve, resolve]
      have := find_like h c
      generalize Kids.find c _ = x at this
      generalize Kids.find c _ = y at this
      cases this with
      | none => exact .none
      | some this => cases this with
        | none => exact .none
        | some this => exact resolve_like cs this

theorem linkExists_like : (ps : List Str) → {s s' : Node} → Like s s' →
    linkExists s ps = linkExists s' ps
  | [], _, _, h => rfl
  | [c], s, s', h => by
    cases hs : h.same with
    | dataset => rfl
    | datatype => rfl
    | group _ k =>
      rw [linkExists, linkExists]
      have := find_like h c
      generalize Kids.find c _ = x at this
      generalize Kids.find c _ = y at this
      cases this <;> rfl
  | c :: d :: cs, s, s', h => by
    cases hs : h.same with
    | dataset => rfl
    | datatype => rfl
    | group _ k =>
      rw [linkExists, linkExists]
      have := find_like h c
      generalize Kids.find c _ = x at this
      generalize Kids.find c _ = y at this
      cases this with
      | none => rfl
      | some this => cases this with
        | none => rfl
        | some this => exact linkExists_like (d :: cs) this

theorem startNode_like {f f' : H5File} (hf : Like f.root f'.root) {g g' : Node} (h : Like g g')
    (p : Str) : Like (startNode f g p) (startNode f' g' p) := by
  rw [startNode, startNode]
  split
  · exact hf
  · exact h

theorem h5contains_like {f f' : H5File} (hf : Like f.root f'.root) {g g' : Node} (h : Like g g')
    (p : Str) : h5contains f g p = h5contains f' g' p := by
  refine h5contains_congr (groupThere_congr (resolve_like _ (startNode_like hf h p)) ?_)
    (linkExists_like _ (startNode_like hf h p))
  intro m m' h
  cases h.same <;> rfl

theorem h5get_like {f f' : H5File} (hf : Like f.root f'.root) {g g' : Node} (h : Like g g')
    {p : Str} {n : Node} (e : h5get f g p = .ok (some n)) :
    ∃ n', h5get f' g' p = .ok (some n') ∧ Like n n' := by
  rw [h5get] at e ⊢
  split at e
  · cases e
  · rename_i hp
    rw [if_neg hp]
    have := resolve_like (pathParts p) (startNode_like hf h p)
    injection e with e
    rw [e] at this
    generalize resolve _ _ = y at this
    cases this with
    | some k => exact ⟨_, rfl, k⟩

theorem h5get_none_like {f f' : H5File} (hf : Like f.root f'.root) {g g' : Node} (h : Like g g')
    {p : Str} (e : h5get f g p = .ok none) : h5get f' g' p = .ok none := by
  rw [h5get] at e ⊢
  split at e
  · cases e
  · rename_i hp
    rw [if_neg hp]
    have := resolve_like (pathParts p) (startNode_like hf h p)
    injection e with e
    rw [e] at this
    generalize resolve _ _ = y at this
    cases this
    rfl

/-! ## objects of items -/

theorem LikeObj.asGroup {o o' : H5Obj} (h : LikeObj o o') {g : Node} (e : o.asGroup = some g) :
    ∃ g', o'.asGroup = some g' ∧ Like g g' := by
  cases h with
  | file h => cases e; exact ⟨_, rfl, h⟩
  | node h =>
    cases hs : h.same with
    | dataset => cases e
    | datatype => cases e
    | group => cases e; exact ⟨_, rfl, h⟩
  | val => cases e
  | none => cases e

theorem LikeObj.node_inv {o' : H5Obj} {n : Node} (h : LikeObj (.node n) o') :
    ∃ n', o' = .node n' ∧ Like n n' := by
  cases h with
  | node h => exact ⟨_, rfl, h⟩

theorem LikeObj.isGroup {o o' : H5Obj} (h : LikeObj o o') : isHdf5Group o = isHdf5Group o' := by
  cases h with
  | file => rfl
  | node h => cases h.same <;> rfl
  | val => rfl
  | none => rfl

theorem LikeObj.isDataset {o o' : H5Obj} (h : LikeObj o o') :
    isHdf5Dataset o = isHdf5Dataset o' := by
  cases h with
  | file => rfl
  | node h => cases h.same <;> rfl
  | val => rfl
  | none => rfl

theorem LikeObj.name? {o o' : H5Obj} (h : LikeObj o o') : o.name? = o'.name? := by
  cases h with
  | file => rfl
  | node h => exact congrArg some h.name
  | val => rfl
  | none => rfl

theorem LikeObj.attrs? {o o' : H5Obj} (h : LikeObj o o') {attrs : List (Str × Val)}
    (e : o.attrs? = some attrs) : ∃ attrs', o'.attrs? = some attrs' ∧ attrs.Perm attrs' ∧
      ∀ k, attrs.lookup k = attrs'.lookup k := by
  cases h with
  | file h => cases e; exact ⟨_, rfl, h.attrs, h.lookup⟩
  | node h => cases e; exact ⟨_, rfl, h.attrs, h.lookup⟩
  | val => cases e
  | none => cases e

/-! ## corresponding items of files -/

/-- Files and lists of items that correspond to one another. -/
structure LikeFile (f f' : H5File) (items items' : List Item) : Prop where
  root : Like f.root f'.root
  items : PermBy LikeItem items items'

theorem LikeFile.symm {f f' : H5File} {items items' : List Item} (h : LikeFile f f' items items') :
    LikeFile f' f items' items := ⟨h.root.symm, h.items.symm fun _ _ h => h.symm⟩

variable {env : Env} {mgr : Manager} {f f' : H5File} {items items' : List Item}

theorem Linked.like {o o' : Item} (h : LikeItem o o') (hl : Linked env o) : Linked env o' := by
  obtain ⟨attrs, a, h1, h2, h3⟩ := hl
  obtain ⟨attrs', k1, _, k3⟩ := h.core.obj.attrs? h1
  refine ⟨attrs', a, k1, h.core.addr ▸ h2, ?_⟩
  rw [TargetElsewhere] at h3 ⊢
  rwa [← k3]

theorem CarriesAttr.like (S : LikeFile f f' items items') {o : Item} {a k : Str} {v : Val}
    (h : CarriesAttr items o a k v) : ∃ o', CarriesAttr items' o' a k v ∧ LikeItem o o' := by
  obtain ⟨o', hm, hl⟩ := S.items.mem h.mem
  obtain ⟨attrs, h1, h2⟩ := h.attr
  obtain ⟨attrs', k1, k2, _⟩ := hl.core.obj.attrs? h1
  exact ⟨o', ⟨hm, hl.core.classpath ▸ h.nexus, hl.core.addr ▸ h.addr, attrs', k1,
    k2.mem_iff.1 h2⟩, hl⟩

theorem NameLine.like (S : LikeFile f f' items items') {l : Line} (h : NameLine env mgr items l) :
    NameLine env mgr items' l := by
  cases h with
  | object hm hn hc hr =>
    obtain ⟨it', hm', hl⟩ := S.items.mem hm
    obtain ⟨n', e, _⟩ := (hn ▸ hl.core.obj).node_inv
    rw [hl.core.addr]
    refine .object hm' e (hl.core.classpath ▸ hc) ?_
    rwa [← hl.core.classpath, ← hl.core.name]
  | member hm hn hc hp hx hr =>
    obtain ⟨it', hm', hl⟩ := S.items.mem hm
    obtain ⟨n', e, _⟩ := (hn ▸ hl.core.obj).node_inv
    obtain ⟨p', hp', hlp⟩ := hl.parent hp
    rw [hl.core.addr]
    refine .member hm' e (hl.core.classpath ▸ hc) hp' (fun hx' => hx (Linked.like hlp.symm hx')) ?_
    rwa [← hl.core.name]
  | attr hc hn hx hr =>
    obtain ⟨o', hc', hl⟩ := CarriesAttr.like S hc
    exact .attr hc' hn (fun hx' => hx (Linked.like hl.symm hx')) hr
  | cls hc hn ht =>
    obtain ⟨o', hc', hl⟩ := CarriesAttr.like S hc
    exact .cls hc' hn ht

theorem PathOk.like (hf : Like f.root f'.root) {done ps : List Str} (h : PathOk env mgr f done ps) :
    PathOk env mgr f' done ps := by
  intro pre p post e
  obtain ⟨h1, h2⟩ := h pre p post e
  exact ⟨h1, by rwa [← h5contains_like hf hf]⟩

theorem TargetOk.like (hf : Like f.root f'.root) {t : Str} (h : TargetOk env mgr f t) :
    TargetOk env mgr f' t := by
  obtain ⟨u, h1, h2, h3⟩ := h
  exact ⟨u, h1, PathOk.like hf h2, by rwa [← h5contains_like hf hf]⟩

theorem okIf_congr {P Q : Prop} (h : P ↔ Q) (st : Status) : okIf P st = okIf Q st := by
  rw [propext h]

theorem h5get_some_iff_like (hf : Like f.root f'.root) {g g' : Node} (h : Like g g') {p : Str} :
    (∃ m, h5get f g p = .ok (some m)) ↔ ∃ m, h5get f' g' p = .ok (some m) := by
  constructor
  · rintro ⟨m, e⟩
    obtain ⟨m', e', _⟩ := h5get_like hf h e
    exact ⟨m', e'⟩
  · rintro ⟨m, e⟩
    obtain ⟨m', e', _⟩ := h5get_like hf.symm h.symm e
    exact ⟨m', e'⟩

theorem ValueLine.like (S : LikeFile f f' items items') {l : Line}
    (h : ValueLine env mgr f items l) : ValueLine env mgr f' items' l := by
  cases h with
  | cls hc ht =>
    obtain ⟨o', hc', hl⟩ := CarriesAttr.like S hc
    exact .cls hc' ht
  | target hc ht =>
    obtain ⟨o', hc', hl⟩ := CarriesAttr.like S hc
    rw [okIf_congr ⟨TargetOk.like S.root, TargetOk.like S.root.symm⟩]
    exact .target hc' ht
  | signalName hc hg ht hr =>
    obtain ⟨o', hc', hl⟩ := CarriesAttr.like S hc
    exact .signalName hc' (hl.core.obj.isGroup ▸ hg) ht hr
  | signal hc ho hg ht =>
    obtain ⟨o', hc', hl⟩ := CarriesAttr.like S hc
    obtain ⟨g', e, hgl⟩ := (ho ▸ hl.core.obj).node_inv
    rw [h5contains_like S.root hgl]
    exact .signal hc' e (hl.core.obj.isGroup ▸ hg) ht
  | fieldSignal hc hd =>
    obtain ⟨o', hc', hl⟩ := CarriesAttr.like S hc
    exact .fieldSignal hc' (hl.core.obj.isDataset ▸ hd)
  | otherSignal hc hd hg =>
    obtain ⟨o', hc', hl⟩ := CarriesAttr.like S hc
    exact .otherSignal hc' (hl.core.obj.isDataset ▸ hd) (hl.core.obj.isGroup ▸ hg)
  | axisName hc ha hn hr =>
    obtain ⟨o', hc', hl⟩ := CarriesAttr.like S hc
    exact .axisName hc' ha hn hr
  | axis hc ha hn hg =>
    obtain ⟨o', hc', hl⟩ := CarriesAttr.like S hc
    obtain ⟨g', e, hgl⟩ := hl.core.obj.asGroup hg
    rw [okIf_congr (h5get_some_iff_like S.root hgl)]
    exact .axis hc' ha hn e
  | axes hc =>
    obtain ⟨o', hc', hl⟩ := CarriesAttr.like S hc
    exact .axes hc'
  | other hc hk =>
    obtain ⟨o', hc', hl⟩ := CarriesAttr.like S hc
    exact .other hc' hk

/-! ## groups -/

theorem namesMember_like (hf : Like f.root f'.root) {g g' : Node} (h : Like g g') {v : Val} :
    NamesMember env f g v ↔ NamesMember env f' g' v := by
  rw [NamesMember, NamesMember]
  simp only [h5contains_like hf h]

theorem attrLines_like (hf : Like f.root f'.root) {g g' : Node} (h : Like g g') (a cp : Str)
    (d : ClassDef) : attrLines env f g a cp d = attrLines env f' g' a cp d := by
  funext ka
  rw [attrLines, attrLines, okIf_congr (namesMember_like hf h)]

theorem members_like {g g' : Node} (h : Like g g') {l : Line}
    (hl : l ∈ (members g).map memberLine) : l ∈ (members g').map memberLine := by
  obtain ⟨m, hm, rfl⟩ := List.mem_map.1 hl
  cases h.same with
  | dataset => cases hm
  | datatype => cases hm
  | group _ k =>
    rw [members] at hm
    obtain ⟨x, hx, e⟩ := List.mem_filterMap.1 hm
    obtain ⟨y, hy, hs⟩ := k.links.mem hx
    have hr := hs.2
    rw [e] at hr
    generalize ho : y.2 = o at hr
    cases hr with
    | some hr =>
      rename_i m'
      refine List.mem_map.2 ⟨m', ?_, ?_⟩
      · rw [members]
        exact List.mem_filterMap.2 ⟨y, hy, ho⟩
      · cases hr <;> rfl

theorem groupLines_like (hf : Like f.root f'.root) {g g' : Node} (h : Like g g')
    {classes : Dict Str ClassDef} {a cp c : Str} {l : Line}
    (hl : l ∈ groupLines env f classes g a cp c) : l ∈ groupLines env f' classes g' a cp c := by
  rw [groupLines] at hl ⊢
  cases hd : Dict.get? classes c with
  | none => rwa [hd] at hl
  | some d =>
    rw [hd] at hl
    simp only at hl ⊢
    rw [attrLines_like hf h, h.sorted] at hl
    simp only [List.mem_append] at hl ⊢
    have hdef : ∀ t ns, definedLines f g a t ns = definedLines f' g' a t ns := by
      intro t ns
      rw [definedLines, definedLines]
      simp only [h5contains_like hf h]
    rw [hdef, hdef] at hl
    exact hl.imp_left fun hl => hl.imp_left fun hl => hl.imp_left fun hl => hl.imp_right
      (members_like h)

theorem GroupClass.like {g g' : Node} (h : Like g g') {cp c : Str}
    (hc : GroupClass env cp g.attrs c) : GroupClass env cp g'.attrs c := by
  rw [GroupClass] at hc ⊢
  rwa [← nxClassOf_like h]

theorem GroupLine.like (S : LikeFile f f' items items') {l : Line}
    (h : GroupLine env mgr f items l) : GroupLine env mgr f' items' l := by
  cases h with
  | nonNexus hm hg hc =>
    obtain ⟨it', hm', hl⟩ := S.items.mem hm
    obtain ⟨g', e, hgl⟩ := hl.core.obj.asGroup hg
    rw [hgl.name]
    exact .nonNexus hm' e (hl.core.classpath ▸ hc)
  | nexus hm hg hc hcl hx =>
    obtain ⟨it', hm', hl⟩ := S.items.mem hm
    obtain ⟨g', e, hgl⟩ := hl.core.obj.asGroup hg
    refine .nexus hm' e (hl.core.classpath ▸ hc)
      (GroupClass.like hgl (hl.core.classpath ▸ hcl)) ?_
    rw [← hl.core.classpath, ← hgl.name]
    exact groupLines_like S.root hgl hx

/-! ## application definitions -/

theorem Like.dataset_inv {n : Str} {a : List (Str × Val)} {d : DataInfo} {m : Node}
    (h : Like (.dataset n a d) m) : ∃ a', m = .dataset n a' d := by
  cases h.same with
  | dataset => exact ⟨_, rfl⟩

theorem Declares.like (hf : Like f.root f'.root) {g g' : Node} (h : Like g g') {name : Str}
    (hd : Declares env f g name) : Declares env f' g' name := by
  obtain ⟨n, a, d, e, hv⟩ := hd
  obtain ⟨m, e', hl⟩ := h5get_like hf h e
  obtain ⟨a', rfl⟩ := hl.dataset_inv
  exact ⟨n, a', d, e', hv⟩

theorem DeclaredBy.like (S : LikeFile f f' items items') {g : Node} {name : Str}
    (h : DeclaredBy env f items g name) : ∃ g', DeclaredBy env f' items' g' name ∧ Like g g' := by
  obtain ⟨it, hm, hi, p, hp, hg, hd⟩ := h
  obtain ⟨it', hm', hl⟩ := S.items.mem hm
  obtain ⟨p', hp', hlp⟩ := hl.parent hp
  obtain ⟨g', hg', hgl⟩ := hlp.core.obj.asGroup hg
  refine ⟨g', ⟨it', hm', ?_, p', hp', hg', Declares.like S.root hgl hd⟩, hgl⟩
  rw [IsDefinition] at hi ⊢
  rwa [← hl.core.classpath]

theorem RequiredIn.like (S : LikeFile f f' items items') {g : Node} {fld : Str × FieldSpec}
    (h : RequiredIn env mgr f items g fld) :
    ∃ g', RequiredIn env mgr f' items' g' fld ∧ Like g g' := by
  obtain ⟨name, ad, gname, entry, more, h1, h2⟩ := h
  obtain ⟨g', h1', hl⟩ := DeclaredBy.like S h1
  exact ⟨g', ⟨name, ad, gname, entry, more, h1', h2⟩, hl⟩

theorem HasOneOf.like {n n' : Node} (h : Like n n') {ts : List (Option Str)}
    (hh : HasOneOf env n ts) :
    HasOneOf env n' ts := by
  obtain ⟨m, a, d, rfl, ht⟩ := hh
  obtain ⟨a', rfl⟩ := h.dataset_inv
  exact ⟨m, a', d, rfl, ht⟩

theorem DefinitionLine.like (S : LikeFile f f' items items') {l : Line}
    (h : DefinitionLine env mgr f items l) : DefinitionLine env mgr f' items' l := by
  cases h with
  | known hd =>
    obtain ⟨g', hd', hl⟩ := DeclaredBy.like S hd
    rw [hl.name]
    exact .known hd'
  | category hd hc =>
    obtain ⟨g', hd', hl⟩ := DeclaredBy.like S hd
    rw [hl.name]
    exact .category hd' hc
  | todo hd hc =>
    obtain ⟨g', hd', hl⟩ := DeclaredBy.like S hd
    rw [hl.name]
    exact .todo hd' hc
  | there hr hg =>
    obtain ⟨g', hr', hl⟩ := RequiredIn.like S hr
    obtain ⟨n', e, hn⟩ := h5get_like S.root hl hg
    rw [hn.name]
    exact .there hr' e
  | missing hr hg =>
    obtain ⟨g', hr', hl⟩ := RequiredIn.like S hr
    rw [hl.name]
    exact .missing hr' (h5get_none_like S.root hl hg)
  | value hr hg he =>
    obtain ⟨g', hr', hl⟩ := RequiredIn.like S hr
    obtain ⟨n', e, hn⟩ := h5get_like S.root hl hg
    rw [hn.name, okIf_congr ⟨HasOneOf.like hn, HasOneOf.like hn.symm⟩]
    exact .value hr' e he

end Punx

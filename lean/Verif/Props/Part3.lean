import Verif.Props.Part2
import Verif.Props.Expected2

/-!
# C113: a group is judged by its own content
-/

namespace Punx
open Spec

/-- The object `n` is at `t` in the file `f` and at `t'` in the file `f'`, with the same class
path. -/
structure CommonPart (env : Env) (f f' : H5File) (n : Node) (t t' : Site) : Prop where
  named : WellNamedFile f
  named' : WellNamedFile f'
  here : InFile env f t
  here' : InFile env f' t'
  node : t.node = n
  node' : t'.node = n
  box : t.box.classpath = t'.box.classpath

variable {env : Env} {mgr : Manager} {f f' : H5File} {n : Node} {t t' : Site}

theorem CommonPart.path (S : CommonPart env f f' n t t') : t.path = n.name := by
  rw [← (S.here.named S.named).name, S.node]

theorem CommonPart.path' (S : CommonPart env f f' n t t') : t'.path = n.name := by
  rw [← (S.here'.named S.named').name, S.node']

theorem CommonPart.symm (S : CommonPart env f f' n t t') : CommonPart env f' f n t' t :=
  ⟨S.named', S.named, S.here', S.here, S.node', S.node, S.box.symm⟩

/-- The address is that of the object or of an object in it. -/
def Within' (n : Node) (a : Str) : Prop := a = n.name ∨ ∃ r, a = n.name ++ '/' :: r

theorem InFile.under {s t : Site} (h : InFile env f t) (hu : Under env t s) : InFile env f s := by
  obtain ⟨j, l, m, hj, h1⟩ := h
  exact ⟨j, l, m, hj, h1.trans' hu⟩

theorem CommonPart.not_root (S : CommonPart env f f' n t t') : ¬ Within' n s%"/" := by
  obtain ⟨q, l, e, hl, _⟩ := (S.here.named S.named).last
  rw [S.path] at e
  cases l with
  | nil => exact absurd rfl hl
  | cons c l =>
    rintro (h | ⟨r, h⟩)
    · rw [e] at h
      have := congrArg List.length h
      simp at this
      omega
    · rw [e] at h
      have := congrArg List.length h
      simp at this
      omega

/-- The objects of the part have counterparts in the other file. -/
theorem CommonPart.object (S : CommonPart env f f' n t t') {o : Item} (ho : o ∈ contents env f)
    (hob : o.obj.attrs? ≠ none) {a : Str} (ha : o.addr = some a) (hin : Within' n a) :
    ∃ s s', o = s.item env ∧ InFile env f s ∧ Under env t s ∧ InFile env f' s' ∧
      s'.item env ∈ contents env f' ∧ s.path = a ∧ s.node = s'.node ∧
      Alike o (s'.item env) ∧ (s = t ∨ Alike s.box s'.box) := by
  rcases object_site ho hob with rfl | ⟨s, hs, rfl⟩
  · cases ha
    exact absurd hin S.not_root
  · have hp : s.path = a := by
      have : s.node.name = a := Option.some.inj ha
      rw [← this, (hs.named S.named).name]
    have hu : Under env t s := by
      refine under_of_path S.named S.here hs ?_
      rw [S.path, hp]
      exact hin
    obtain ⟨s', hu', e1, e2, e3, e4⟩ := under_alike (S.node.trans S.node'.symm)
      (S.path.trans S.path'.symm) S.box hu
    have hs' := S.here'.under hu'
    refine ⟨s, s', rfl, hs, hu, hs', hs'.mem, hp, e1, ?_, e4⟩
    rw [Site.item, Site.item, e1]
    exact alike_member e3 _ _ _

/-- An attribute whose address is in the part belongs to an object of the part. -/
theorem within_attr {a k : Str} (hn : '@' ∉ n.name) (ha : '@' ∉ a)
    (h : (∃ r, a ++ '@' :: k = n.name ++ '/' :: r) ∨ ∃ j, a ++ '@' :: k = n.name ++ '@' :: j) :
    Within' n a := by
  have key : ∀ (x y u v : Str), '@' ∉ x → '@' ∉ y → x ++ '@' :: u = y ++ '@' :: v → x = y := by
    intro x
    induction x with
    | nil =>
      intro y u v _ hy e
      cases y with
      | nil => rfl
      | cons c y => exact absurd (by rw [← (List.cons.inj e).1]; exact List.mem_cons_self) hy
    | cons c x ih =>
      intro y u v hx hy e
      cases y with
      | nil => exact absurd (by rw [(List.cons.inj e).1]; exact List.mem_cons_self) hx
      | cons d y =>
        obtain ⟨e1, e2⟩ := List.cons.inj e
        rw [e1, ih y u v (fun h => hx (List.mem_cons_of_mem _ h))
          (fun h => hy (List.mem_cons_of_mem _ h)) e2]
  rcases h with ⟨r, h⟩ | ⟨j, h⟩
  · rcases List.append_eq_append_iff.1 h with ⟨z, e1, e2⟩ | ⟨z, e1, e2⟩
    · cases z with
      | nil => simp at e2
      | cons c z =>
        exfalso
        apply hn
        rw [e1, ← (List.cons.inj e2).1]
        simp
    · cases z with
      | nil => simp at e2
      | cons c z => exact .inr ⟨z, by rw [e1, (List.cons.inj e2).1]⟩
  · exact .inl (key _ _ _ _ ha hn h)

/-- The addresses of objects have no `@`. -/
theorem object_addr (hw : WellNamedFile f) {o : Item} (ho : o ∈ contents env f)
    (hob : o.obj.attrs? ≠ none) {a : Str} (ha : o.addr = some a) : '@' ∉ a := by
  rcases object_site ho hob with rfl | ⟨s, hs, rfl⟩
  · cases ha
    decide
  · have : s.node.name = a := Option.some.inj ha
    rw [← this, (hs.named hw).name]
    exact (hs.named hw).at'

theorem Spec.CarriesAttr.object {items : List Item} {o : Item} {a k : Str} {v : Val}
    (h : CarriesAttr items o a k v) : o.obj.attrs? ≠ none := by
  obtain ⟨attrs, h1, _⟩ := h.attr
  rw [h1]
  exact fun h => by cases h

/-- Attributes of the part have counterparts. -/
theorem CommonPart.attr (S : CommonPart env f f' n t t') {o : Item} {a k : Str} {v : Val}
    (hc : CarriesAttr (contents env f) o a k v) {st : Str} {x : Status}
    (hl : OwnLine n (some (a ++ '@' :: k), st, x)) :
    ∃ s s' : Site, o = s.item env ∧ Under env t s ∧ s.node = s'.node ∧
      Alike o (s'.item env) ∧ (k, v) ∈ s.node.attrs ∧
      CarriesAttr (contents env f') (s'.item env) a k v := by
  have hna : '@' ∉ n.name := by rw [← S.path]; exact (S.here.named S.named).at'
  have ha := object_addr S.named hc.mem hc.object hc.addr
  have hin : Within' n a := by
    obtain ⟨b, e, h⟩ := hl
    cases e
    rcases h with ⟨h, _⟩ | ⟨h, _⟩
    · exact absurd (by rw [← h]; simp) hna
    · exact within_attr hna ha h
  obtain ⟨s, s', e, hs, hu, hs', hm, hp, e1, al, _⟩ := S.object hc.mem hc.object hc.addr hin
  obtain ⟨attrs, h1, h2⟩ := hc.attr
  refine ⟨s, s', e, hu, e1, al, ?_, hm, al.classpath ▸ hc.nexus, al.addr ▸ hc.addr, attrs,
    al.obj ▸ h1, h2⟩
  subst e
  cases h1
  exact h2

theorem Spec.Linked.alike {x y : Item} (h : Alike x y) (hl : Linked env x) : Linked env y := by
  obtain ⟨attrs, a, h1, h2, h3⟩ := hl
  exact ⟨attrs, a, h.obj ▸ h1, h.addr ▸ h2, h3⟩

/-! ## lines on names -/

theorem Spec.OwnLine.within {a test : Str} {st : Status} (h : OwnLine n (some a, test, st))
    (ha : '@' ∉ a) : Within' n a := by
  obtain ⟨b, e, h⟩ := h
  cases e
  rcases h with ⟨h, _⟩ | ⟨h | ⟨k, h⟩, _⟩
  · exact .inl h
  · exact .inr h
  · exact absurd (by rw [h]; simp) ha

theorem CommonPart.object' (S : CommonPart env f f' n t t') {o : Item} (ho : o ∈ contents env f)
    {m : Node} (hm : o.obj = .node m) {test : Str} {st : Status}
    (hl : OwnLine n (o.addr, test, st)) :
    ∃ s s', o = s.item env ∧ InFile env f s ∧ Under env t s ∧ InFile env f' s' ∧
      s'.item env ∈ contents env f' ∧ s.node = s'.node ∧
      Alike o (s'.item env) ∧ (s = t ∨ Alike s.box s'.box) := by
  have hob : o.obj.attrs? ≠ none := by rw [hm]; exact fun h => by cases h
  obtain ⟨a, ha, _⟩ := id hl
  have ha' : o.addr = some a := ha
  have hat := object_addr S.named ho hob ha'
  rw [ha'] at hl
  obtain ⟨s, s', h1, h2, h3, h4, h5, _, h7, h8, h9⟩ := S.object ho hob ha' (hl.within hat)
  exact ⟨s, s', h1, h2, h3, h4, h5, h7, h8, h9⟩

theorem Spec.NameLine.part (S : CommonPart env f f' n t t') (hat : '@' ∉ (t.item env).classpath)
    {l : Line} (hl : OwnLine n l) (h : NameLine env mgr (contents env f) l) :
    NameLine env mgr (contents env f') l := by
  cases h with
  | object h1 h2 h3 h4 =>
    obtain ⟨s, s', rfl, _, _, _, hm, _, al, _⟩ := S.object' h1 h2 hl
    rw [al.addr]
    rw [al.classpath, al.name] at h4
    exact .object hm (al.obj ▸ h2) (al.classpath ▸ h3) h4
  | @member it p m st h1 h2 h3 h4 h5 h6 =>
    obtain ⟨s, s', rfl, _, _, _, hm, _, al, hb⟩ := S.object' h1 h2 hl
    rcases hb with rfl | hb
    · exact absurd h3 hat
    · rw [al.addr]
      rw [al.name] at h6
      refine .member (p := s'.box) hm (al.obj ▸ h2) (al.classpath ▸ h3) rfl ?_ h6
      cases h4
      exact fun hc => h5 (Linked.alike hb.symm hc)
  | attr h1 h2 h3 h4 =>
    obtain ⟨s, s', _, _, _, al, _, hc⟩ := S.attr h1 hl
    exact .attr hc h2 (fun hk => h3 (Linked.alike al.symm hk)) h4
  | cls h1 h2 h3 =>
    obtain ⟨s, s', _, _, _, al, _, hc⟩ := S.attr h1 hl
    exact .cls hc h2 h3

/-! ## lines on values -/

theorem under_all {P : Node → Prop} {s t : Site} (hu : Under env t s) (h : AllNodes P t.node) :
    AllNodes P s.node := by
  induction hu with
  | refl => exact h
  | @step s j n l a ks m _ h2 h3 ih =>
    rw [h2, AllNodes] at ih
    exact allKids_get ks ih.2 h3
where
  allKids_get : (ks : Kids) → AllKids P ks → {j : Nat} → {l : Str} → {m : Node} →
      ks.toList[j]? = some (l, some m) → AllNodes P m
    | .nil, _, j, l, m, h => by simp [Kids.toList] at h
    | .cons l k n rest, hk, 0, l', m, h => by
      rw [Kids.toList] at h
      cases h
      rw [AllKids] at hk
      exact hk.1
    | .cons l k n rest, hk, j + 1, l', m, h => by
      rw [Kids.toList] at h
      rw [AllKids] at hk
      exact allKids_get rest hk.2 h
    | .broken l k rest, hk, 0, l', m, h => by
      rw [Kids.toList] at h
      cases h
    | .broken l k rest, hk, j + 1, l', m, h => by
      rw [Kids.toList] at h
      rw [AllKids] at hk
      exact allKids_get rest hk h

theorem allNodes_head {P : Node → Prop} {n : Node} (h : AllNodes P n) : P n := by
  cases n <;> rw [AllNodes] at h
  · exact h
  · exact h
  · exact h.1

theorem Spec.ValueLine.part (S : CommonPart env f f' n t t') (hna : AllNodes (NoAbsolute env) n)
    {l : Line} (hl : OwnLine n l) (h : ValueLine env mgr f (contents env f) l) :
    ValueLine env mgr f' (contents env f') l := by
  have rel : ∀ {s : Site} {k : Str} {v : Val} {x : Str}, Under env t s → (k, v) ∈ s.node.attrs →
      k ∈ [s%"signal", s%"axes", s%"default"] →
      (TextOf env v x ∨ ∃ names, AxesOf env v names ∧ x ∈ names) → ¬ s%"/" <+: x := by
    intro s k v x hu hk hk' hx
    have := under_all (P := NoAbsolute env) hu (S.node.symm ▸ hna)
    exact allNodes_head this k v x hk hk' hx
  cases h with
  | cls h1 h2 =>
    obtain ⟨s, s', _, _, _, al, _, hc⟩ := S.attr h1 hl
    exact .cls hc h2
  | @target o a t v h1 h2 =>
    exfalso
    obtain ⟨b, e, h⟩ := hl
    cases e
    rcases h with ⟨_, h⟩ | ⟨_, _, h⟩
    · simp [ownTests] at h
    · exact h ⟨List.suffix_append _ _, rfl⟩
  | signalName h1 h2 h3 h4 =>
    obtain ⟨s, s', _, _, _, al, _, hc⟩ := S.attr h1 hl
    exact .signalName hc (al.obj ▸ h2) h3 h4
  | signal h1 h2 h3 h4 =>
    obtain ⟨s, s', _, hu, _, al, hk, hc⟩ := S.attr (k := s%"signal") h1 hl
    rw [h5contains_relative (f' := f') (rel hu hk (by simp) (.inl h4))]
    exact .signal hc (al.obj ▸ h2) (al.obj ▸ h3) h4
  | fieldSignal h1 h2 =>
    obtain ⟨s, s', _, _, _, al, _, hc⟩ := S.attr h1 hl
    exact .fieldSignal hc (al.obj ▸ h2)
  | otherSignal h1 h2 h3 =>
    obtain ⟨s, s', _, _, _, al, _, hc⟩ := S.attr h1 hl
    exact .otherSignal hc (al.obj ▸ h2) (al.obj ▸ h3)
  | axisName h1 h2 h3 h4 =>
    obtain ⟨s, s', _, _, _, al, _, hc⟩ := S.attr h1 hl
    exact .axisName hc h2 h3 h4
  | axis h1 h2 h3 h4 =>
    obtain ⟨s, s', _, hu, _, al, hk, hc⟩ := S.attr (k := s%"axes") h1 hl
    rw [h5get_relative (f' := f') (rel hu hk (by simp) (.inr ⟨_, h2, h3⟩))]
    exact .axis hc h2 h3 (al.obj ▸ h4)
  | axes h1 =>
    obtain ⟨s, s', _, _, _, al, _, hc⟩ := S.attr h1 hl
    exact .axes hc
  | other h1 h2 =>
    obtain ⟨s, s', _, _, _, al, _, hc⟩ := S.attr h1 hl
    exact .other hc h2

/-! ## lines on groups -/

theorem item_group {x : Item} (hx : x ∈ contents env f) {g : Node} (hg : x.obj.asGroup = some g) :
    (x = rootOf f ∧ g = f.root) ∨ ∃ s, InFile env f s ∧ x = s.item env ∧ g = s.node := by
  have ho : x.obj.attrs? ≠ none := by
    intro h
    cases hc : x.obj with
    | file => rw [hc] at h; cases h
    | node => rw [hc] at h; cases h
    | val => rw [hc] at hg; cases hg
    | none => rw [hc] at hg; cases hg
  rcases object_site hx ho with rfl | ⟨s, hs, rfl⟩
  · left
    refine ⟨rfl, ?_⟩
    exact (Option.some.inj hg).symm
  · right
    refine ⟨s, hs, rfl, ?_⟩
    have : H5Obj.asGroup (.node s.node) = some g := hg
    cases hn : s.node with
    | group => rw [hn] at this; exact (Option.some.inj this).symm
    | dataset => rw [hn] at this; cases this
    | datatype => rw [hn] at this; cases this

theorem attrs_of_group {x : Item} {g : Node} (hg : x.obj.asGroup = some g) :
    x.obj.attrs? ≠ none := by
  intro h
  cases hc : x.obj with
  | file => rw [hc] at h; cases h
  | node => rw [hc] at h; cases h
  | val => rw [hc] at hg; cases hg
  | none => rw [hc] at hg; cases hg

/-- Groups of the part have counterparts. -/
theorem CommonPart.group (S : CommonPart env f f' n t t') {x : Item} (hx : x ∈ contents env f) {g : Node}
    (hg : x.obj.asGroup = some g) (hin : Within' n g.name) :
    ∃ s s', x = s.item env ∧ g = s.node ∧ InFile env f s ∧ Under env t s ∧ InFile env f' s' ∧
      s'.item env ∈ contents env f' ∧ s.node = s'.node ∧
      Alike x (s'.item env) ∧ (s = t ∨ Alike s.box s'.box) := by
  rcases item_group hx hg with ⟨rfl, rfl⟩ | ⟨s, hs, rfl, rfl⟩
  · exact absurd hin S.not_root
  · have ha : (s.item env).addr = some s.node.name := rfl
    obtain ⟨r, r', e, h2, h3, h4, h5, h6, h7, h8, h9⟩ := S.object hx (attrs_of_group hg) ha hin
    have : s = r := by
      refine path_unique S.named hs h2 ?_
      rw [h6, (hs.named S.named).name]
    subst this
    exact ⟨s, r', rfl, rfl, hs, h3, h4, h5, h7, h8, h9⟩

theorem group_noAt (hw : WellNamedFile f) {x : Item} (hx : x ∈ contents env f) {g : Node}
    (hg : x.obj.asGroup = some g) : '@' ∉ g.name := by
  rcases item_group hx hg with ⟨rfl, rfl⟩ | ⟨s, hs, rfl, rfl⟩
  · intro h
    have h' : '@' ∈ s%"/" := h
    revert h'
    decide
  · rw [(hs.named hw).name]
    exact (hs.named hw).at'

/-- A member of a group that is inside of the part, and not the part itself, is a member of a group
of the part. -/
theorem member_within (hw : WellNamedFile f) (S : CommonPart env f f' n t t') {x : Item}
    (hx : x ∈ contents env f) {g : Node} (hg : x.obj.asGroup = some g) {gn l : Str}
    {a : List (Str × Val)} {ks : Kids} {m : Node} (e : g = .group gn a ks)
    (hm : (l, some m) ∈ ks.toList) (hr : ∃ r, m.name = n.name ++ '/' :: r) : Within' n g.name := by
  obtain ⟨r, hr⟩ := hr
  obtain ⟨j, hj⟩ := List.getElem?_of_mem hm
  rcases item_group hx hg with ⟨rfl, rfl⟩ | ⟨s, hs, rfl, rfl⟩
  · exfalso
    rw [H5File.root] at e
    cases e
    obtain ⟨_, w2, _, w4⟩ := wellNamedKids_get f.kids hw.2.2 hj
    rw [wellNamed_name w4] at hr
    have hr' : '/' :: l = n.name ++ '/' :: r := hr
    obtain ⟨q, l', e, _, _⟩ := (S.here.named S.named).last
    rw [S.path] at e
    rw [e] at hr'
    cases q with
    | nil => exact w2 (by rw [(List.cons.inj hr').2]; simp)
    | cons c q => exact w2 (by rw [(List.cons.inj hr').2]; simp)
  · have hgd := (hs.named hw).good
    rw [e, WellNamed] at hgd
    obtain ⟨_, w2, _, w4⟩ := wellNamedKids_get ks hgd.2.2.2 hj
    rw [wellNamed_name w4] at hr
    rw [(hs.named hw).name]
    exact path_step w2 hr

theorem NamesMember.relative {g : Node} {v : Val}
    (h : ∀ s, TextOf env v s → ¬ s%"/" <+: s) :
    NamesMember env f g v ↔ NamesMember env f' g v := by
  constructor
  · rintro ⟨s, h1, h2⟩
    exact ⟨s, h1, by rw [← h5contains_relative (h s h1)]; exact h2⟩
  · rintro ⟨s, h1, h2⟩
    exact ⟨s, h1, by rw [h5contains_relative (h s h1)]; exact h2⟩

theorem groupLines_relative (hs : SimpleNames mgr.classes) {g : Node} (hna : NoAbsolute env g)
    (a cp c : Str) : groupLines env f mgr.classes g a cp c = groupLines env f' mgr.classes g a cp c := by
  rw [groupLines, groupLines]
  cases hc : Dict.get? mgr.classes c with
  | none => rfl
  | some d =>
    obtain ⟨d1, d2⟩ := hs c d hc
    have e1 : (sortByName g.attrs).flatMap (attrLines env f g a cp d) =
        (sortByName g.attrs).flatMap (attrLines env f' g a cp d) := by
      refine List.flatMap_congr fun ka hka => ?_
      have hka' : ka ∈ g.attrs := (sortBy_perm g.attrs).mem_iff.1 hka
      rw [attrLines, attrLines]
      cases Dict.get? d.attrs ka.1 with
      | none => rfl
      | some spec =>
        by_cases hp : PointsInside cp ka.1
        · rw [NamesMember.relative (f' := f') (g := g) (v := ka.2)]
          intro s hs'
          refine hna ka.1 ka.2 s hka' ?_ (.inl hs')
          rcases hp with hp | ⟨hp, _⟩
          · simp [hp]
          · simp [hp]
        · simp only [if_neg hp]
    have e2 : ∀ (test : Str) (names : List Str), (∀ x ∈ names, '/' ∉ x) →
        definedLines f g a test names = definedLines f' g a test names := by
      intro test names hn
      rw [definedLines, definedLines]
      refine List.map_congr_left fun x hx => ?_
      have hx' : x ∈ names := (sortBy_perm names).mem_iff.1 hx
      rw [h5contains_relative (f' := f') (not_absolute (hn x hx'))]
    simp only [e1]
    rw [e2 _ (d.fields.map (·.1)), e2 _ (d.groups.map (·.1))]
    · intro x hx
      obtain ⟨y, hy, rfl⟩ := List.mem_map.1 hx
      exact (d2 y hy).1
    · intro x hx
      obtain ⟨y, hy, rfl⟩ := List.mem_map.1 hx
      exact d1 y hy

/-- The lines on a group are at the group, at an attribute of it, or at a member. -/
theorem groupLines_addr {classes : Dict Str ClassDef} {g : Node} {a cp c : Str} {l : Line}
    (h : l ∈ groupLines env f classes g a cp c) :
    l.1 = some a ∨ (∃ k, l.1 = some (a ++ '@' :: k)) ∨ ∃ m ∈ members g, l = memberLine m := by
  rw [groupLines] at h
  cases hc : Dict.get? classes c with
  | none =>
    rw [hc] at h
    simp only [List.mem_cons, List.not_mem_nil, or_false] at h
    rcases h with rfl | rfl <;> exact .inl rfl
  | some d =>
    rw [hc] at h
    simp only [List.mem_append, List.mem_cons, List.not_mem_nil, or_false] at h
    rcases h with ((((h | h) | h) | h) | h) | h
    · rcases h with rfl | rfl <;> exact .inl rfl
    · obtain ⟨ka, _, h⟩ := List.mem_flatMap.1 h
      right; left
      refine ⟨ka.1, ?_⟩
      rw [attrLines] at h
      rcases List.mem_cons.1 h with rfl | h
      · rfl
      · split at h
        · cases h
        · rcases List.mem_append.1 h with h | h
          · split at h
            · cases h
            · rcases List.mem_singleton.1 h with rfl
              rfl
          · split at h
            · cases h
            · split at h
              · rcases List.mem_singleton.1 h with rfl
                rfl
              · rcases List.mem_singleton.1 h with rfl
                rfl
    · obtain ⟨m, hm, rfl⟩ := List.mem_map.1 h
      exact .inr (.inr ⟨m, hm, rfl⟩)
    · rw [definedLines] at h
      obtain ⟨x, _, rfl⟩ := List.mem_map.1 h
      exact .inl rfl
    · rw [definedLines] at h
      obtain ⟨x, _, rfl⟩ := List.mem_map.1 h
      exact .inl rfl
    · subst h
      exact .inl rfl

theorem memberLine_addr (m : Node) : (memberLine m).1 = some m.name ∧
    (memberLine m).2.1 ∉ ownTests := by
  cases m <;> exact ⟨rfl, by simp [memberLine, ownTests]⟩

theorem Spec.OwnLine.below {a test : Str} {st : Status} (h : OwnLine n (some a, test, st))
    (ha : '@' ∉ a) (ht : test ∉ ownTests) : ∃ r, a = n.name ++ '/' :: r := by
  obtain ⟨b, e, h⟩ := h
  cases e
  rcases h with ⟨_, h⟩ | ⟨h | ⟨k, h⟩, _⟩
  · exact absurd h ht
  · exact h
  · exact absurd (by rw [h]; simp) ha

theorem mem_members {g m : Node} (h : m ∈ members g) :
    ∃ n a ks l, g = .group n a ks ∧ (l, some m) ∈ ks.toList := by
  cases g with
  | group n a ks =>
    rw [members] at h
    obtain ⟨⟨l, o⟩, hx, e⟩ := List.mem_filterMap.1 h
    cases e
    exact ⟨n, a, ks, l, rfl, hx⟩
  | dataset => cases h
  | datatype => cases h

theorem member_at (hw : WellNamedFile f) {x : Item} (hx : x ∈ contents env f) {g : Node}
    (hg : x.obj.asGroup = some g) {gn l : Str} {a : List (Str × Val)} {ks : Kids} {m : Node}
    (e : g = .group gn a ks) (hm : (l, some m) ∈ ks.toList) : '@' ∉ m.name := by
  obtain ⟨j, hj⟩ := List.getElem?_of_mem hm
  rcases item_group hx hg with ⟨rfl, rfl⟩ | ⟨s, hs, rfl, rfl⟩
  · rw [H5File.root] at e
    cases e
    have := named_rootKid hw hj
    have h2 := this.name
    rw [show m.name = (rootKid f j l m).path from h2]
    exact this.at'
  · have := (hs.named hw).kid (env := env) e hj
    have h2 := this.name
    rw [show m.name = (s.kid env j l m).path from h2]
    exact this.at'

theorem Spec.GroupLine.part (S : CommonPart env f f' n t t') (hs : SimpleNames mgr.classes)
    (hna : AllNodes (NoAbsolute env) n) {l : Line} (hl : OwnLine n l)
    (h : GroupLine env mgr f (contents env f) l) : GroupLine env mgr f' (contents env f') l := by
  cases h with
  | @nonNexus it g h1 h2 h3 =>
    have hin := hl.within (group_noAt S.named h1 h2)
    obtain ⟨s, s', rfl, rfl, _, _, _, hm, _, al, _⟩ := S.group h1 h2 hin
    exact .nonNexus hm (al.obj ▸ h2) (al.classpath ▸ h3)
  | @nexus it g c _ h1 h2 h3 h4 h5 =>
    have hat := group_noAt S.named h1 h2
    have hin : Within' n g.name := by
      have hna' : '@' ∉ n.name := by rw [← S.path]; exact (S.here.named S.named).at'
      obtain ⟨ad, test, st⟩ := l
      rcases groupLines_addr h5 with e | ⟨k, e⟩ | ⟨m, hm, e⟩
      · cases e
        exact hl.within hat
      · cases e
        obtain ⟨b, e, h⟩ := hl
        cases e
        rcases h with ⟨h, _⟩ | ⟨h, _⟩
        · exact absurd (by rw [← h]; simp) hna'
        · exact within_attr hna' hat h
      · obtain ⟨gn, a, ks, lk, eg, hk⟩ := mem_members hm
        obtain ⟨e1, e2⟩ := memberLine_addr m
        rw [← e] at e1 e2
        cases e1
        refine member_within S.named S h1 h2 eg hk ?_
        exact hl.below (member_at S.named h1 h2 eg hk) e2
    obtain ⟨s, s', rfl, rfl, _, hu, _, hm, _, al, _⟩ := S.group h1 h2 hin
    have hn : NoAbsolute env s.node := allNodes_head (under_all hu (S.node.symm ▸ hna))
    rw [groupLines_relative (f' := f') hs hn, al.classpath] at h5
    exact .nexus hm (al.obj ▸ h2) (al.classpath ▸ h3) (al.classpath ▸ h4) h5

/-! ## lines on definitions -/

theorem attribute_not_definition (o : Item) (i : Nat) (ka : Str × Val) :
    ¬ IsDefinition (attributeItem o i ka) := by
  have key : ∀ x : Str, '@' ∉ x → (attributeItem o i ka).classpath = x →
      x = s%"non-NeXus content" := by
    intro x hx e
    rw [attributeItem] at e
    simp only at e
    split at e
    · rename_i h
      rw [← e, h]
    · exact absurd (by rw [← e]; simp) hx
  rintro (h | h)
  · exact absurd (key _ (by decide) h) (by decide)
  · exact absurd (key _ (by decide) h) (by decide)

/-- Declarations in the part have counterparts. -/
theorem CommonPart.declared (S : CommonPart env f f' n t t') {g : Node} {name : Str}
    (h : DeclaredBy env f (contents env f) g name) (hin : Within' n g.name) :
    DeclaredBy env f' (contents env f') g name := by
  obtain ⟨it, h1, h2, p, h3, h4, h5⟩ := h
  have hd : Declares env f' g name := by
    obtain ⟨m, a, d, e, h⟩ := h5
    exact ⟨m, a, d, by rw [← h5get_relative (f := f) (not_absolute (by decide))]; exact e, h⟩
  rcases mem_contents_iff h1 with rfl | ⟨s, hs, rfl⟩ | ⟨o, i, ka, rfl⟩
  · cases h3
  · have hbox : s.box = p := Option.some.inj h3
    have hbelow : ∃ r, s.path = n.name ++ '/' :: r := by
      rcases hs.cases with ⟨j, l, m, hj, rfl⟩ | ⟨u, j, gn, l, a, ks, m, hu, hn, hj, rfl⟩
      · exfalso
        rw [← hbox] at h4
        cases h4
        exact S.not_root hin
      · have hc : (s' : Item) → s' = containerOf (u.item env) u.node.attrs →
            s'.obj.asGroup = some g → g = u.node := by
          rintro _ rfl hg
          rw [containerOf] at hg
          split at hg
          · cases hl : (attributeItems (u.item env) 0 (sortByName u.node.attrs)).getLast? with
            | none =>
              rw [hl] at hg
              have : H5Obj.asGroup (.node u.node) = some g := hg
              rw [hn] at this ⊢
              exact (Option.some.inj this).symm
            | some x =>
              rw [hl] at hg
              obtain ⟨i, ka, _, rfl⟩ := mem_attributeItems (List.mem_of_getLast? hl)
              cases hg
          · have : H5Obj.asGroup (.node u.node) = some g := hg
            rw [hn] at this ⊢
            exact (Option.some.inj this).symm
        have eg := hc p hbox.symm h4
        rw [eg, (hu.named S.named).name] at hin
        rcases hin with e | ⟨r, e⟩
        · exact ⟨l, by rw [Site.kid, e]⟩
        · exact ⟨r ++ '/' :: l, by rw [Site.kid, e]; simp⟩
    have hna : s.node.name = s.path := (hs.named S.named).name
    have hin' : Within' n s.path := .inr hbelow
    obtain ⟨r, r', e, h6, _, _, h9, h10, _, al, hb⟩ := S.object (a := s.path) h1
      (fun h => by cases h) (by rw [← hna]; rfl) hin'
    have : s = r := path_unique S.named hs h6 h10.symm
    subst this
    rcases hb with rfl | hb
    · exfalso
      obtain ⟨r, hr⟩ := hbelow
      rw [S.path] at hr
      have := congrArg List.length hr
      simp at this
    · refine ⟨r'.item env, h9, ?_, r'.box, rfl, ?_, hd⟩
      · rw [IsDefinition, ← al.classpath]
        exact h2
      · rw [← hb.obj, hbox]
        exact h4
  · exact absurd h2 (attribute_not_definition o i ka)

theorem DeclaredBy.item {g : Node} {name : Str} (h : DeclaredBy env f (contents env f) g name) :
    ∃ x ∈ contents env f, x.obj.asGroup = some g := by
  obtain ⟨it, h1, h2, p, h3, h4, h5⟩ := h
  rcases mem_contents_iff h1 with rfl | ⟨s, hs, rfl⟩ | ⟨o, i, ka, rfl⟩
  · cases h3
  · have hbox : s.box = p := Option.some.inj h3
    rcases hs.cases with ⟨j, l, m, hj, rfl⟩ | ⟨u, j, gn, l, a, ks, m, hu, hn, hj, rfl⟩
    · refine ⟨rootOf f, by rw [contents]; exact List.mem_cons_self, ?_⟩
      rw [← hbox] at h4
      exact h4
    · refine ⟨u.item env, hu.mem, ?_⟩
      have hb : containerOf (u.item env) u.node.attrs = p := hbox
      rw [← hb, containerOf] at h4
      split at h4
      · cases hl : (attributeItems (u.item env) 0 (sortByName u.node.attrs)).getLast? with
        | none => rw [hl] at h4; exact h4
        | some x =>
          rw [hl] at h4
          obtain ⟨i, ka, _, rfl⟩ := mem_attributeItems (List.mem_of_getLast? hl)
          cases h4
      · exact h4
  · exact absurd h2 (attribute_not_definition o i ka)

theorem Spec.DefinitionLine.part (S : CommonPart env f f' n t t') (hs : SimpleNames mgr.classes)
    {l : Line} (hl : OwnLine n l) (h : DefinitionLine env mgr f (contents env f) l) :
    DefinitionLine env mgr f' (contents env f') l := by
  have at_group : ∀ {g name test st}, DeclaredBy env f (contents env f) g name →
      OwnLine n (some g.name, test, st) → Within' n g.name := by
    intro g name test st hd hl
    obtain ⟨x, hx, hg⟩ := DeclaredBy.item hd
    exact hl.within (group_noAt S.named hx hg)
  have required : ∀ {g fld}, RequiredIn env mgr f (contents env f) g fld → Within' n g.name →
      RequiredIn env mgr f' (contents env f') g fld := by
    rintro g fld ⟨name, ad, gname, entry, more, h1, h2, h3, h4⟩ hin
    exact ⟨name, ad, gname, entry, more, S.declared h1 hin, h2, h3, h4⟩
  have simple : ∀ {g fld}, RequiredIn env mgr f (contents env f) g fld → '/' ∉ fld.1 := by
    rintro g fld ⟨name, ad, gname, entry, more, h1, h2, h3, h4⟩
    exact ((hs name ad h2).2 (gname, entry) (by rw [h3]; exact List.mem_cons_self)).2 fld h4
  have at_member : ∀ {g m fld test st}, RequiredIn env mgr f (contents env f) g fld →
      h5get f g fld.1 = .ok (some m) → OwnLine n (some m.name, test, st) → test ∉ ownTests →
      Within' n g.name := by
    intro g m fld test st hr hm hl ht
    have hr' := hr
    obtain ⟨name, ad, gname, entry, more, hd, _⟩ := hr'
    obtain ⟨x, hx, hg⟩ := DeclaredBy.item hd
    rcases h5get_member (simple hr) hm with rfl | ⟨gn, a, ks, lk, eg, hk⟩
    · exact .inr (hl.below (group_noAt S.named hx hg) ht)
    · exact member_within S.named S hx hg eg hk (hl.below (member_at S.named hx hg eg hk) ht)
  cases h with
  | known h1 => exact .known (S.declared h1 (at_group h1 hl))
  | category h1 h2 => exact .category (S.declared h1 (at_group h1 hl)) h2
  | todo h1 h2 => exact .todo (S.declared h1 (at_group h1 hl)) h2
  | there h1 h2 =>
    have hin := at_member h1 h2 hl (by decide)
    exact .there (required h1 hin)
      (by rw [← h5get_relative (f := f) (not_absolute (simple h1))]; exact h2)
  | @missing g fld h1 h2 =>
    have hin : Within' n g.name := by
      have h1' := h1
      obtain ⟨name, ad, gname, entry, more, hd, _⟩ := h1'
      obtain ⟨x, hx, hg⟩ := DeclaredBy.item hd
      have hna' : '@' ∉ n.name := by rw [← S.path]; exact (S.here.named S.named).at'
      obtain ⟨b, e, h⟩ := hl
      have e' : g.name ++ s%"@None" = b := Option.some.inj e
      subst e'
      rcases h with ⟨h, _⟩ | ⟨h, _⟩
      · exact absurd (by rw [← h]; simp) hna'
      · exact within_attr (k := s%"None") hna' (group_noAt S.named hx hg) h
    exact .missing (required h1 hin)
      (by rw [← h5get_relative (f := f) (not_absolute (simple h1))]; exact h2)
  | value h1 h2 h3 =>
    have hin := at_member h1 h2 hl (by decide)
    exact .value (required h1 hin)
      (by rw [← h5get_relative (f := f) (not_absolute (simple h1))]; exact h2) h3

end Punx

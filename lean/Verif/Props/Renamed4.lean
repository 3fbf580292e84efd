import Verif.Props.Renamed3
import Verif.Props.Whole2

/-!
# C134: renamed groups and fields, faults
-/

namespace Punx
open Spec

variable {env : Env} {mgr : Manager} {mins : Dict (Str × Str) Int} {Free : Str → Prop}
  {f f' : H5File} {items items' : List Item}

/-- Files with renamed groups and fields, and their items. -/
structure ReItems (env : Env) (mgr : Manager) (Free : Str → Prop) (f f' : H5File)
    (items items' : List Item) : Prop extends RePair env mgr Free f f' where
  rel : List.Forall₂ (RItem Free f f') items items'

theorem ReItems.flip (S : ReItems env mgr Free f f' items items') :
    ReItems env mgr Free f' f items' items := ⟨S.toRePair.symm, rItems_symm S.rel⟩

theorem ReItems.of (S : RePair env mgr Free f f') :
    ReItems env mgr Free f f' (contents env f) (contents env f') := ⟨S, contents_re S⟩

theorem ReItems.mem (S : ReItems env mgr Free f f' items items') {x : Item} (hx : x ∈ items) :
    ∃ y ∈ items', RItem Free f f' x y := forall₂_mem S.rel hx

/-! ## objects of items -/

theorem RObj.attrs (S : RePair env mgr Free f f') {o o' : H5Obj} (h : RObj f f' o o')
    {a : List (Str × Val)} (e : o.attrs? = some a) : ∃ a' n n', o'.attrs? = some a' ∧
      SamePlace f f' n n' ∧ ReAttrs env Free f f' n n' a a' ∧ Owner f o n ∧ Owner f' o' n' := by
  cases h with
  | file => cases e; exact ⟨_, _, _, rfl, .root, S.ren.attrs, .inr ⟨rfl, rfl⟩, .inr ⟨rfl, rfl⟩⟩
  | node h => cases e; exact ⟨_, _, _, rfl, h, re_attrs (S.node h).re, .inl rfl, .inl rfl⟩
  | val => cases e

theorem Owner.name {o : H5Obj} {n : Node} (h : Owner f o n) : o.name? = some n.name := by
  rcases h with rfl | ⟨rfl, rfl⟩ <;> rfl

theorem Owner.group {o : H5Obj} {n g : Node} (h : Owner f o n) (e : o.asGroup = some g) : g = n := by
  rcases h with rfl | ⟨rfl, rfl⟩
  · cases n <;> cases e
    rfl
  · cases e
    rfl

theorem RObj.group (S : RePair env mgr Free f f') {o o' : H5Obj} (h : RObj f f' o o') {g : Node}
    (e : o.asGroup = some g) : ∃ g', o'.asGroup = some g' ∧ SamePlace f f' g g' := by
  cases h with
  | file => cases e; exact ⟨_, rfl, .root⟩
  | @node n n' h =>
    have hr := (S.node h).re
    cases hr with
    | dataset => cases e
    | datatype => cases e
    | group => cases e; exact ⟨_, rfl, h⟩
  | val => cases e

theorem RObj.toNode {o o' : H5Obj} (h : RObj f f' o o') {n : Node} (e : o = .node n) :
    ∃ n', o' = .node n' ∧ SamePlace f f' n n' := by
  subst e
  cases h with
  | node h => exact ⟨_, rfl, h⟩

theorem RObj.isGroup (S : RePair env mgr Free f f') {o o' : H5Obj} (h : RObj f f' o o') :
    isHdf5Group o = isHdf5Group o' := by
  cases h with
  | file => rfl
  | val => rfl
  | node h =>
    have hr := (S.node h).re
    cases hr <;> rfl

theorem RObj.dataset (S : RePair env mgr Free f f') {o o' : H5Obj} (h : RObj f f' o o') {n : Str}
    {a : List (Str × Val)} {d : DataInfo} (e : o = .node (.dataset n a d)) :
    ∃ n' a', o' = .node (.dataset n' a' d) := by
  subst e
  cases h with
  | node h =>
    have hr := (S.node h).re
    cases hr with
    | dataset => exact ⟨_, _, rfl⟩

theorem RItem.outside {x y : Item} (h : RItem Free f f' x y)
    (e : x.classpath ≠ s%"non-NeXus content") : y.classpath ≠ s%"non-NeXus content" := by
  exact fun k => e (h.core.classpath.outside_iff.2 k)

theorem parent_re {it it' p : Item} (h : List.Forall₂ (RCore Free f f') it.ancestors it'.ancestors)
    (e : it.parent = some p) :
    ∃ p', it'.parent = some p' ∧ RCore Free f f' p.toCore p'.toCore := by
  rw [Item.parent] at e ⊢
  generalize it.ancestors = l at *
  generalize it'.ancestors = l' at *
  cases h with
  | nil => cases e
  | cons x k =>
    cases e
    exact ⟨_, rfl, x⟩

/-! ## values -/

theorem RePair.linked (S : RePair env mgr Free f f') {x y : Item}
    (h : RCore Free f f' x.toCore y.toCore) (k : Linked env x) : Linked env y := by
  obtain ⟨attrs, a, h1, h2, h3⟩ := k
  obtain ⟨b, n, n', h4, _, h5, _, _⟩ := h.obj.attrs S h1
  have hs := h.spot (by rw [h1]; nofun)
  rw [h2] at hs
  generalize hb : y.addr = o at *
  cases hs with
  | @some _ a' hs =>
    refine ⟨b, a', h4, hb, ?_⟩
    rw [targetElsewhere_eq] at h3 ⊢
    obtain ⟨v, h6, h7⟩ := h3
    have hl := reAttrs_lookup h5 s%"target"
    rw [h6] at hl
    generalize hv : b.lookup s%"target" = o' at *
    cases hl with
    | @some _ v' hr =>
      refine ⟨v', rfl, fun ht => ?_⟩
      rcases hr.target rfl with ⟨rfl, hno⟩ | ⟨s, s', t1, t2, hm | ⟨rfl, hm⟩⟩
      · exact hno _ ht
      · obtain rfl := textOf_unique t2 ht
        rw [(S.moved_iff hm hs.2).2 rfl] at t1
        exact h7 t1
      · obtain rfl := textOf_unique t2 ht
        obtain ⟨_, _, _, e, _⟩ := hs.2
        exact hm (e ▸ ⟨_, rfl⟩)

theorem ReItems.carries (S : ReItems env mgr Free f f' items items') {x : Item} {a k : Str} {v : Val}
    (h : CarriesAttr items x a k v) :
    ∃ y a' v' n n', CarriesAttr items' y a' k v' ∧ RItem Free f f' x y ∧ Spot Free f f' a a' ∧
      ReAttr env Free f f' n n' k v v' ∧ SamePlace f f' n n' ∧ Owner f x.obj n ∧
      Owner f' y.obj n' := by
  obtain ⟨y, hm, hr⟩ := S.mem h.mem
  obtain ⟨attrs, h1, h2⟩ := h.attr
  obtain ⟨b, n, n', h3, h4, h5, ow, ow'⟩ := hr.core.obj.attrs S.toRePair h1
  obtain ⟨v', h6, h7⟩ := reAttrs_mem h5 h2
  have hs := hr.core.spot (by rw [h1]; nofun)
  rw [show x.toCore.addr = some a from h.addr] at hs
  generalize hb : y.toCore.addr = o at *
  cases hs with
  | some hs => exact ⟨y, _, v', n, n', ⟨hm, hr.outside h.nexus, hb, b, h3, h6⟩, hr, hs, h7, h4, ow,
      ow'⟩

theorem Spec.ReAttr.same {n n' : Node} {k : Str} {v v' : Val} (h : ReAttr env Free f f' n n' k v v')
    (hk : k ∉ [s%"target", s%"default", s%"signal", s%"axes"]) : v = v' := h.other hk

theorem corr_split {n n' : Node} {cs ds : List Str} (h : Corr Free n n' cs ds) :
    ∀ {a' b' : List Str}, ds = a' ++ b' → ∃ a b, cs = a ++ b ∧ Corr Free n n' a a' := by
  induction h with
  | fixed h =>
    rintro a' b' rfl
    exact ⟨a', b', rfl, .fixed fun c hc => h c (List.mem_append_left _ hc)⟩
  | step h1 h2 _ ih =>
    intro a' b' e
    cases a' with
    | nil => exact ⟨[], _, rfl, .fixed nofun⟩
    | cons x a' =>
      injection e with e1 e2
      subst e1
      obtain ⟨a, b, rfl, h⟩ := ih e2
      exact ⟨_ :: a, b, rfl, .step h1 h2 h⟩

theorem corr_last {n n' : Node} {cs ds : List Str} (h : Corr Free n n' cs ds)
    (hn : RNode env Free f f' n n') : ∀ {a : List Str} {p : Str}, ds = a ++ [p] →
    ∃ a' p', cs = a' ++ [p'] ∧ (p = p' ∨ Free p ∧ Free p') := by
  induction h with
  | fixed h => rintro a p rfl; exact ⟨a, p, rfl, .inl rfl⟩
  | @step s s' c c' x x' ks ks' m m' i cs ds h1 h2 h3 ih =>
    intro a p e
    cases a with
    | nil =>
      injection e with e1 e2
      subst e1 e2
      rw [h3.symm.nil]
      exact ⟨[], c, rfl, (re_get hn.re h1 h2).label.imp Eq.symm And.symm⟩
    | cons y a =>
      injection e with e1 e2
      obtain ⟨a', p', rfl, h⟩ := ih (hn.get h1 h2) e2
      exact ⟨c :: a', p', rfl, h⟩

theorem RePair.targetOk (S : RePair env mgr Free f f') {t t' : Str} (h : Moved Free f f' t t')
    (k : TargetOk env mgr f t) : TargetOk env mgr f' t' := by
  have hc := S.contains_moved h f.root f'.root
  obtain ⟨u, u', rfl, rfl, h⟩ := h
  obtain ⟨v, e, k1, k2⟩ := k
  injection e with _ e
  subst e
  refine ⟨u', rfl, ?_, hc ▸ k2⟩
  intro pre p post e
  obtain ⟨a, b, e2, hp⟩ := corr_split h (a' := pre ++ [p]) (b' := post) (by rw [e]; simp)
  obtain ⟨a', p', rfl, hpp⟩ := corr_last hp S.root rfl
  have := k1 a' p' b (by rw [e2]; simp)
  constructor
  · rcases hpp with rfl | hpp
    · exact this.1
    · exact S.free.name _ hpp.1
  · rw [List.nil_append] at this ⊢
    rw [← S.contains_moved (.of (by simp) ?_ ?_ hp) f.root]
    · exact this.2
    · intro c hc
      exact sep_notMem_split (e2 ▸ List.mem_append_left _ hc)
    · intro c hc
      refine sep_notMem_split (c := '/') (s := u') (e ▸ ?_)
      rcases List.mem_append.1 hc with hc | hc
      · exact List.mem_append_left _ hc
      · rw [List.mem_singleton.1 hc]; simp

/-- A member of a group. -/
theorem get_member {s s' t t' : Str} {a a' : List (Str × Val)} {ks ks' : Kids}
    (h : RNode env Free f f' (.group t a ks) (.group t' a' ks')) {i : Nat} {m m' : Node}
    (h3 : ks.toList[i]? = some (s, some m)) (h4 : ks'.toList[i]? = some (s', some m')) :
    h5get f (.group t a ks) s = .ok (some m) := by
  rcases re_get h.re h3 h4 with ⟨_, _, _, _, l, _, _, _⟩ | ⟨_, e, _⟩
  · have hr : ¬ s%"/" <+: s := fun k => l.slash (k.subset (List.mem_cons_self ..))
    have hp : pathParts s = [s] := by
      rw [pathParts, split_noSep l.slash, List.filter_cons_of_pos (by simpa using ⟨l.empty, l.dot⟩)]
      rfl
    rw [h5get, if_neg l.empty, startNode_relative hr, hp, resolve, find_get h.one h3]
    simp only [resolve]
  · cases e

theorem RePair.namesMember (S : RePair env mgr Free f f') {g g' : Node} (hg : SamePlace f f' g g')
    {k : Str} (hk : k = s%"signal" ∨ k = s%"default") {v v' : Val}
    (h : ReAttr env Free f f' g g' k v v') (m : NamesMember env f g v) : NamesMember env f' g' v' := by
  obtain ⟨s, hs, hc⟩ := m
  rcases hk with rfl | rfl
  · rcases h.signal rfl with ⟨rfl, hno⟩ | ⟨t, t', t1, t2, _, hm⟩
    · exact absurd hs (hno _)
    · obtain rfl := textOf_unique t1 hs
      exact ⟨t', t2, S.contains_corr hg (hm.corr (S.node hg).re) ▸ hc⟩
  · rcases h.default rfl with ⟨rfl, hno⟩ | ⟨t, t', t1, t2, _, hm⟩
    · exact absurd hs (hno _)
    · obtain rfl := textOf_unique t1 hs
      exact ⟨t', t2, S.contains_corr hg hm ▸ hc⟩

/-! ## application definitions -/

theorem RePair.declares (S : RePair env mgr Free f f') {g g' : Node} (hg : SamePlace f f' g g')
    {name : Str} (k : Declares env f g name) : Declares env f' g' name := by
  obtain ⟨n, a, d, e, hv⟩ := k
  have hp : ∀ c ∈ split '/' s%"definition", ¬ Free c := by
    intro c hc
    rw [split_noSep (by decide), List.mem_singleton] at hc
    exact hc ▸ S.free.definition
  rcases S.get_fixed hg hp with ⟨_, h, _⟩ | ⟨h, _⟩ | ⟨m, m', h1, h2, h3⟩
  · rw [h] at e; cases e
  · rw [h] at e; cases e
  · rw [h1] at e
    cases e
    have hr := (S.node h3).re
    cases hr with
    | dataset => exact ⟨_, _, _, h2, hv⟩

theorem RePair.hasOneOf (S : RePair env mgr Free f f') {n n' : Node} (h : SamePlace f f' n n')
    {ts : List (Option Str)} (k : HasOneOf env n ts) : HasOneOf env n' ts := by
  obtain ⟨m, a, d, rfl, t, ht, hv⟩ := k
  have hr := (S.node h).re
  cases hr with
  | dataset => exact ⟨_, _, _, rfl, t, ht, hv⟩

theorem RePair.isDefinition (S : RePair env mgr Free f f') {x y : Item} (h : RItem Free f f' x y)
    (hi : IsDefinition x) : IsDefinition y := by
  have hc : RePath Free x.classpath y.classpath := h.core.classpath
  rw [IsDefinition] at hi ⊢
  refine hi.imp (fun e => ?_) (fun e => ?_)
  · exact (RePath.fixed (u := s%"/NXentry") (s := s%"definition") (by decide) S.free.definition
      (by rw [e] at hc; exact hc) (by decide)).symm
  · exact (RePath.fixed (u := s%"/NXentry/NXsubentry") (s := s%"definition") (by decide)
      S.free.definition (by rw [e] at hc; exact hc) (by decide)).symm

theorem ReItems.declaredBy (S : ReItems env mgr Free f f' items items') {g : Node} {name : Str}
    (h : DeclaredBy env f items g name) :
    ∃ g', DeclaredBy env f' items' g' name ∧ SamePlace f f' g g' := by
  obtain ⟨it, hm, hi, p, hp, hg, hd⟩ := h
  obtain ⟨y, hy, hl⟩ := S.mem hm
  obtain ⟨p', hp', hlp⟩ := parent_re hl.ancestors hp
  obtain ⟨g', hg', hn⟩ := hlp.obj.group S.toRePair hg
  exact ⟨g', ⟨y, hy, S.toRePair.isDefinition hl hi, p', hp', hg', S.toRePair.declares hn hd⟩, hn⟩

theorem ReItems.requiredIn (S : ReItems env mgr Free f f' items items') {g : Node}
    {fld : Str × FieldSpec} (h : RequiredIn env mgr f items g fld) :
    (∃ g', RequiredIn env mgr f' items' g' fld ∧ SamePlace f f' g g') ∧
      ∀ c ∈ split '/' fld.1, ¬ Free c := by
  obtain ⟨name, ad, gname, entry, more, h1, h2, h3, h4⟩ := h
  obtain ⟨g', h1', hl⟩ := S.declaredBy h1
  exact ⟨⟨g', ⟨name, ad, gname, entry, more, h1', h2, h3, h4⟩, hl⟩,
    S.free.fields _ _ _ _ _ h2 h3 fld h4⟩

/-! ## default plot -/

theorem rel_some {α β : Type} {R : α → β → Prop} {o : Option α} {o' : Option β} {x : α}
    (h : Option.Rel R o o') (e : o = some x) : ∃ y, o' = some y ∧ R x y := by
  subst e
  cases h with
  | some r => exact ⟨_, rfl, r⟩

theorem ReItems.addr_rel (S : RePair env mgr Free f f') {a a' b b' : Option Str}
    (h : Option.Rel (SameAddress Free f f') a a') (k : Option.Rel (SameAddress Free f f') b b') :
    a = b ↔ a' = b' := by
  cases h with
  | none => cases k <;> simp
  | some h =>
    cases k with
    | none => simp
    | some k => simp only [Option.some.injEq, S.addr_iff h k]

theorem ReItems.itemAt (S : ReItems env mgr Free f f' items items') {a a' : Str}
    (h : Spot Free f f' a a') {x : Item} (hx : itemAt items a = some x) :
    ∃ y, Spec.itemAt items' a' = some y ∧ RItem Free f f' x y := by
  rw [Spec.itemAt] at hx ⊢
  have := forall₂_getLast? (forall₂_filter (p := fun i : Item => decide (i.addr = some a))
    (q := fun i => decide (i.addr = some a')) (fun x y r => decide_eq_decide.2
      (ReItems.addr_rel S.toRePair r.core.addr (.some h.addr))) S.rel)
  exact rel_some this hx

theorem ReItems.inGroups (S : ReItems env mgr Free f f' items items') {x y : Item}
    (h : RItem Free f f' x y) {D E R : Item} (k : InGroups items x D E R) :
    ∃ D' E' R', InGroups items' y D' E' R' ∧ RItem Free f f' D D' ∧ RItem Free f f' E E' ∧
      RItem Free f f' R R' := by
  obtain ⟨r, e, d, rest, h1, h2, h3, h4, h5, h6, h7⟩ := k
  have ha := h.core.addr
  rw [show x.toCore.addr = _ from h1] at ha
  generalize hb : y.toCore.addr = o at *
  cases ha with
  | @some _ b ha =>
    obtain ⟨p, p', q, hs, e1, rfl, hq⟩ := ha
    obtain ⟨e2, rfl⟩ := at_parts (by simp [h3]) hs.1.1 h4 hq e1
    subst e2
    obtain ⟨hat, u, u', e3, rfl, hc⟩ := id hs
    have hr : r = [] := by
      cases r with
      | nil => rfl
      | cons c r =>
        injection e3 with e3 _
        exact absurd (e3 ▸ List.mem_cons_self ..) h2.1
    subst hr
    simp only [List.nil_append, List.cons_append, List.cons.injEq, true_and] at e3
    subst e3
    rw [split_append_sep h2.2.1, split_noSep h2.2.2] at hc
    have hlen := hc.length
    obtain ⟨e', d', hu⟩ : ∃ e' d', split '/' u' = [e', d'] := by
      generalize split '/' u' = l at hlen
      match l, hlen with
      | [a, b], _ => exact ⟨a, b, rfl⟩
    have he' : '/' ∉ e' := sep_notMem_split (c := '/') (s := u') (by rw [hu]; simp)
    have hd' : '/' ∉ d' := sep_notMem_split (c := '/') (s := u') (by rw [hu]; simp)
    have hu' : u' = e' ++ '/' :: d' := by
      apply slashed_inj
      rw [hu, split_append_sep he', split_noSep hd']
    subst hu'
    rw [hu] at hc
    have hE : Spot Free f f' ('/' :: e) ('/' :: e') := by
      refine ⟨⟨?_, ?_⟩, ?_⟩
      · simpa using h3.2.1
      · have := hat.2
        simp only [List.mem_cons, List.mem_append] at this ⊢
        tauto
      · obtain ⟨a, b, e1, h1⟩ := corr_split hc (a' := [e']) (b' := [d']) rfl
        have hl := h1.length
        match a, hl with
        | [c], _ =>
          injection e1 with e1 _
          subst e1
          have hM := Moved.of (f := f) (f' := f') (cs := [e]) (ds := [e']) (by simp)
            (by simpa using h2.2.1) (by simpa using he') h1
          simpa [slashed] using hM
    obtain ⟨D', h5', lD⟩ := S.itemAt hs h5
    obtain ⟨E', h6', lE⟩ := S.itemAt hE h6
    obtain ⟨R', h7', lR⟩ := S.itemAt S.toRePair.spot_root h7
    refine ⟨D', E', R', ⟨[], e', d', rest, ?_, ⟨by simp, he', hd'⟩, ⟨by simp, ?_, ?_⟩, h4, h5', h6',
      h7'⟩, lD, lE, lR⟩
    · rw [show y.addr = _ from hb]
      simp
    · have := hE.1.2
      simpa using this
    · have := hat.2
      simp only [List.mem_cons, List.mem_append] at this
      tauto

/-- The attribute points to another attribute or to a member. -/
def IsPointer (k : Str) : Prop := k = s%"signal" ∨ k = s%"default"

theorem ReItems.names (S : ReItems env mgr Free f f' items items') {x y : Item}
    (h : RItem Free f f' x y) {k t : Str} (hk : IsPointer k) (hn : Names env x k t) :
    ∃ t', Names env y k t' ∧ Spot Free f f' t t' := by
  obtain ⟨n, attrs, v, s, h1, h2, h3, h4, rfl⟩ := hn
  obtain ⟨b, m, m', h6, h7, h8, ow, ow'⟩ := h.core.obj.attrs S.toRePair h2
  have h9 := ow.name
  have h10 := ow'.name
  rw [show x.obj.name? = _ from h9] at h1
  cases h1
  have := reAttrs_lookup h8 k
  rw [h3] at this
  generalize hb : b.lookup k = o at *
  cases this with
  | @some _ v' r =>
    rcases hk with rfl | rfl
    · rcases r.signal rfl with ⟨rfl, hno⟩ | ⟨t, t', t1, t2, hs, hm⟩
      · exact absurd h4 (hno _)
      · obtain rfl := textOf_unique t1 h4
        exact ⟨_, ⟨_, b, _, t', h10, h6, hb, t2, rfl⟩,
          S.toRePair.join h7 hs (hm.corr (S.node h7).re)⟩
    · rcases r.default rfl with ⟨rfl, hno⟩ | ⟨t, t', t1, t2, hs, hm⟩
      · exact absurd h4 (hno _)
      · obtain rfl := textOf_unique t1 h4
        exact ⟨_, ⟨_, b, _, t', h10, h6, hb, t2, rfl⟩, S.toRePair.join h7 hs hm⟩

theorem ReItems.pointsAt (S : ReItems env mgr Free f f' items items') {x y : Item}
    (h : RItem Free f f' x y) {k t : Str} (hk : IsPointer k) (hn : PointsAt env f x k t) :
    ∃ t', PointsAt env f' y k t' ∧ Spot Free f f' t t' := by
  obtain ⟨h1, g, h2, h3⟩ := hn
  obtain ⟨t', h4, h5⟩ := S.names h hk h1
  obtain ⟨g', h6, _⟩ := h.core.obj.group S.toRePair h2
  exact ⟨t', ⟨h4, g', h6, S.contains_moved h5.2 g g' ▸ h3⟩, h5⟩

/-- Pointing to a given place. -/
theorem ReItems.pointsTo (S : ReItems env mgr Free f f' items items') {x y : Item}
    (h : RItem Free f f' x y) {k t t' : Str} (hk : IsPointer k) (hn : PointsAt env f x k t)
    (ht : SameAddress Free f f' t t') : PointsAt env f' y k t' := by
  obtain ⟨s, h1, h2⟩ := S.pointsAt h hk hn
  rwa [S.addr_eq ht h2.addr]

theorem ReItems.signalMissing (S : ReItems env mgr Free f f' items items') {x y : Item}
    (h : RItem Free f f' x y) (k : SignalMissing env f items x) : SignalMissing env f' items' y := by
  obtain ⟨D, E, R, t, h1, h2, h3⟩ := k
  obtain ⟨D', E', R', h4, lD, _, _⟩ := S.inGroups h h1
  obtain ⟨t', h5, h6⟩ := S.names lD (.inl rfl) h2
  exact ⟨D', E', R', t', h4, h5,
    fun w => h3 (S.flip.pointsTo lD.symm (.inl rfl) w h6.symm.addr)⟩

theorem ReItems.plotField (S : ReItems env mgr Free f f' items items') {x y : Item}
    (h : RItem Free f f' x y) (k : ∃ t, PlotField env f items x t) :
    ∃ t, PlotField env f' items' y t := by
  obtain ⟨t, D, E, R, T, n, a, v, h1, h2, h3, h4⟩ := k
  obtain ⟨D', E', R', h5, lD, _, _⟩ := S.inGroups h h1
  obtain ⟨t', h6, h7⟩ := S.pointsAt lD (.inl rfl) h2
  obtain ⟨T', h8, lT⟩ := S.itemAt h7 h3
  obtain ⟨n', a', h9⟩ := lT.core.obj.dataset S.toRePair h4
  exact ⟨t', D', E', R', T', n', a', v, h5, h6, h8, h9⟩

theorem ReItems.niac (S : ReItems env mgr Free f f' items items') {x y : Item}
    (h : RItem Free f f' x y) (k : Niac env f items x) : Niac env f' items' y := by
  obtain ⟨⟨D, E, R, e, d, h1, h2, h3, h4, h5⟩, h6⟩ := k
  obtain ⟨D', E', R', h7, lD, lE, lR⟩ := S.inGroups h h1
  obtain ⟨e', h8, re⟩ := rel_some lE.core.addr h2
  obtain ⟨d', h9, rd⟩ := rel_some lD.core.addr h3
  exact ⟨⟨D', E', R', e', d', h7, h8, h9, S.pointsTo lR (.inr rfl) h4 re,
    S.pointsTo lE (.inr rfl) h5 rd⟩, S.plotField h h6⟩

theorem RePair.dataSignal (S : RePair env mgr Free f f') {x y : Item} (h : RItem Free f f' x y)
    (e : x.classpath = s%"/NXentry/NXdata@signal") : y.classpath = s%"/NXentry/NXdata@signal" :=
  have hc : RePath Free x.classpath y.classpath := h.core.classpath
  (RePath.fixed_attr (u := s%"/NXentry") (s := s%"NXdata") (k := s%"signal") (by decide) S.free.data
    (by decide) (by rw [e] at hc; exact hc)
    (by decide)).symm

theorem ReItems.dataSignals (S : ReItems env mgr Free f f' items items') :
    List.Forall₂ (RItem Free f f') (dataSignals items) (Spec.dataSignals items') :=
  forall₂_filter (fun _ _ h => decide_eq_decide.2 ⟨S.dataSignal h, S.flip.dataSignal h.symm⟩) S.rel

theorem split_re {α β : Type} {R : α → β → Prop} {l : List α} {l' : List β}
    (h : List.Forall₂ R l l') {before after : List α} {x : α} (e : l = before ++ x :: after) :
    ∃ before' y after', l' = before' ++ y :: after' ∧ R x y ∧ List.Forall₂ R before before' ∧
      List.Forall₂ R after after' := by
  induction before generalizing l l' with
  | nil =>
    subst e
    cases h with
    | cons hx ha => exact ⟨[], _, _, rfl, hx, .nil, ha⟩
  | cons z zs ih =>
    subst e
    cases h with
    | cons hx ha =>
      obtain ⟨b, y, c, e, h1, h2, h3⟩ := ih ha rfl
      exact ⟨_ :: b, y, c, by rw [e]; rfl, h1, .cons hx h2, h3⟩

theorem ReItems.niacPaths (S : ReItems env mgr Free f f' items items') :
    List.Forall₂ (RItem Free f f') (niacPaths env f items) (Spec.niacPaths env f' items') := by
  classical
  rw [Spec.niacPaths, Spec.niacPaths]
  exact forall₂_filter (fun x y h => decide_eq_decide.2 ⟨S.niac h, S.flip.niac h.symm⟩)
    S.dataSignals

theorem ReItems.attributePlot (S : ReItems env mgr Free f f' items items')
    (h : ∃ a, AttributePlot env f items a) : ∃ a, AttributePlot env f' items' a := by
  obtain ⟨a, h1, h2⟩ := h
  have hm : ∀ it ∈ Spec.dataSignals items', ¬ SignalMissing env f' items' it := fun y hy k => by
    obtain ⟨x, hx, hl⟩ := forall₂_mem S.flip.dataSignals hy
    exact h1 x hx (S.flip.signalMissing hl k)
  have hn := S.niacPaths
  rcases h2 with ⟨x, e, ha⟩ | ⟨hl, before, x, after, e, hp, hx⟩
  · rw [e] at hn
    generalize hx : Spec.niacPaths env f' items' = l at *
    cases hn with
    | cons r t =>
      cases t
      obtain ⟨a', h9, _⟩ := rel_some r.core.addr ha
      exact ⟨a', hm, .inl ⟨_, hx, h9⟩⟩
  · obtain ⟨b', y, c', e', hy, _, hc⟩ := split_re S.dataSignals e
    obtain ⟨t, ht⟩ := S.plotField hy ⟨a, hp⟩
    refine ⟨t, hm, .inr ⟨hn.length_eq ▸ hl, b', y, c', e', ht, ?_⟩⟩
    intro z hz k
    obtain ⟨w, hw, r⟩ := forall₂_mem (rItems_symm hc) hz
    exact hx w hw (S.flip.plotField r k)

/-! ## marks -/

theorem RePair.fieldSignal (S : RePair env mgr Free f f') {x y : Item} (h : RItem Free f f' x y)
    (hs : FieldSignal x) : FieldSignal y := by
  obtain ⟨h1, d, h2, n, a, v, h3⟩ := hs
  obtain ⟨d', h2', hd⟩ := parent_re h.ancestors h2
  obtain ⟨n', a', e⟩ := hd.obj.dataset S h3
  exact ⟨h.core.classpath.signal h1, d', h2', n', a', v, e⟩

theorem RePair.mark (S : RePair env mgr Free f f') {x y : Item} (h : RItem Free f f' x y)
    (k : Mark env x) : Mark env y := by
  obtain ⟨hs, v, e, hr⟩ := k
  have ho := h.core.obj
  rw [show x.toCore.obj = _ from e] at ho
  generalize hy : y.toCore.obj = o at *
  cases ho with
  | @val _ v' =>
    rcases h.mark v v' e hy with rfl | ⟨h1, _⟩
    · exact ⟨S.fieldSignal h hs, v, hy, hr⟩
    · exact absurd hs h1

theorem groupOf_re {x y : Item} (h : RItem Free f f' x y) :
    Option.Rel (SameAddress Free f f') (groupOf x) (groupOf y) := by
  have h2 := h.ancestors
  rw [groupOf, groupOf, Item.parent, Item.parent]
  generalize x.ancestors = l at *
  generalize y.ancestors = l' at *
  cases h2 with
  | nil => exact .none
  | cons x k =>
    cases k with
    | nil => exact .none
    | cons y k => exact y.addr

theorem ReItems.marks (S : ReItems env mgr Free f f' items items') :
    PermBy (RItem Free f f') (marks env items) (Spec.marks env items') := by
  classical
  rw [Spec.marks, Spec.marks]
  refine PermBy.filter (fun x y h => decide_eq_decide.2 ⟨S.mark h, S.flip.mark h.symm⟩) ?_
  exact .perm_left (byClasspath_perm items)
    ((PermBy.of_forall₂ S.rel).perm_right (byClasspath_perm items').symm)

theorem ReItems.marksIn (S : ReItems env mgr Free f f' items items') {g g' : Option Str}
    (h : Option.Rel (SameAddress Free f f') g g') :
    (marksIn env items g).length = (Spec.marksIn env items' g').length := by
  refine PermBy.length (R := RItem Free f f') (S.marks.filter fun _ _ r => ?_)
  exact decide_eq_decide.2 (ReItems.addr_rel S.toRePair (groupOf_re r) h)

theorem ReItems.markedGroups (S : ReItems env mgr Free f f' items items') {g : Option Str}
    (hg : g ∈ markedGroups env items) : ∃ g' ∈ Spec.markedGroups env items',
      Option.Rel (SameAddress Free f f') g g' := by
  rw [mem_markedGroups] at hg
  obtain ⟨x, hx, rfl⟩ := hg
  obtain ⟨y, hy, r⟩ := S.marks.mem hx
  exact ⟨_, mem_markedGroups.2 ⟨y, hy, rfl⟩, groupOf_re r⟩

theorem ReItems.signalPlot (S : ReItems env mgr Free f f' items items')
    (h : ∃ a, SignalPlot env items a) : ∃ a, SignalPlot env items' a := by
  obtain ⟨a, before, g, after, it, d, h1, h2, _⟩ := h
  obtain ⟨g', hg', hr⟩ := S.markedGroups (g := g) (by rw [h1]; simp)
  refine (signalPlot_exists ?_).2 ⟨g', hg', ?_⟩
  · intro y hy d' hd'
    obtain ⟨x, hx, r⟩ := S.flip.marks.mem hy
    obtain ⟨_, d, hd, n, a, v, ho⟩ := (mem_marks.1 hy).2.1
    rw [hd] at hd'
    cases hd'
    obtain ⟨_, _, hp⟩ := parent_re r.ancestors hd
    exact Option.ne_none_iff_exists'.1 (hp.there (by rw [ho]; nofun))
  · rw [← S.marksIn hr, h2]
    rfl

/-! ## faults -/

theorem groupClass_re {n n' : Node} {a a' : List (Str × Val)} (h : ReAttrs env Free f f' n n' a a')
    (cp c : Str) : GroupClass env cp a c ↔ GroupClass env cp a' c := by
  rw [GroupClass, GroupClass, reAttrs_class h]

theorem RItem.groupPath {x y : Item} (h : RItem Free f f' x y) {g : Node}
    (hg : x.obj.asGroup = some g) : x.classpath = y.classpath :=
  h.core.same (.inl (by rw [show x.toCore.obj.asGroup = _ from hg]; nofun))

theorem ReItems.hasClass (S : ReItems env mgr Free f f' items items') {c : Str}
    (h : HasClass env items c) : HasClass env items' c := by
  obtain ⟨x, hm, g, hg, hc, hcl⟩ := h
  obtain ⟨y, hy, hl⟩ := S.mem hm
  obtain ⟨g', e, hn⟩ := hl.core.obj.group S.toRePair hg
  rw [groupClass_re (re_attrs (S.node hn).re), hl.groupPath hg] at hcl
  exact ⟨y, hy, g', e, hl.outside hc, hcl⟩

theorem ReItems.plotRequired (S : ReItems env mgr Free f f' items items')
    {classes : Dict Str ClassDef} :
    PlotRequired env classes mins items ↔ PlotRequired env classes mins items' := by
  have h : ∀ c, HasClass env items c ↔ HasClass env items' c :=
    fun c => ⟨S.hasClass, S.flip.hasClass⟩
  simp only [PlotRequired, h]

/-- A group of a file, and its counterpart. -/
theorem ReItems.group (S : ReItems env mgr Free f f' items items') {it : Item} {g : Node} {c : Str}
    (hm : it ∈ items) (hg : it.obj.asGroup = some g) (hc : it.classpath ≠ s%"non-NeXus content")
    (hcl : GroupClass env it.classpath g.attrs c) : ∃ it' g', it' ∈ items' ∧
      it'.obj.asGroup = some g' ∧ it'.classpath ≠ s%"non-NeXus content" ∧
      GroupClass env it'.classpath g'.attrs c ∧ SamePlace f f' g g' ∧
      it.classpath = it'.classpath := by
  obtain ⟨y, hy, hl⟩ := S.mem hm
  obtain ⟨g', e, hn⟩ := hl.core.obj.group S.toRePair hg
  rw [groupClass_re (re_attrs (S.node hn).re), hl.groupPath hg] at hcl
  exact ⟨y, g', hy, e, hl.outside hc, hcl, hn, hl.groupPath hg⟩

/-- What is wrong with a file is also wrong with a file with renamed groups and fields, at the corresponding
place. -/
theorem ReItems.fault (S : ReItems env mgr Free f f' items items') {a : Option Str} {t : Str}
    (h : Fault env mgr mins f items a t) :
    ∃ a', Option.Rel (SameAddress Free f f') a a' ∧ Fault env mgr mins f' items' a' t := by
  have name : ∀ {x y : Item}, RItem Free f f' x y → ¬ NameOk env mgr x.name →
      ¬ NameOk env mgr y.name := by
    intro x y hl hn
    rcases hl.name with e | e
    · rwa [← e]
    · exact absurd (S.free.name _ e.1) hn
  cases h with
  | objectName hm hn hc hx hr =>
    obtain ⟨y, hy, hl⟩ := S.mem hm
    obtain ⟨n, e, _⟩ := hl.core.obj.toNode hn
    rcases hl.name with hname | hname
    · have hcp := hl.path (by rw [hn]; nofun) hname
      exact ⟨_, hl.core.addr, .objectName hy e (hcp ▸ hc) (hcp ▸ hx) (hname ▸ hr)⟩
    · exact absurd (S.free.name _ hname.1) hr
  | memberName hm hn hc hp hx hr =>
    obtain ⟨y, hy, hl⟩ := S.mem hm
    obtain ⟨n, e, _⟩ := hl.core.obj.toNode hn
    obtain ⟨p', hp', hlp⟩ := parent_re hl.ancestors hp
    exact ⟨_, hl.core.addr, .memberName hy e (hl.core.classpath.at_ hc) hp'
      (fun k => hx (S.flip.linked hlp.symm k)) (name hl hr)⟩
  | attrName hc hn hx hr =>
    obtain ⟨y, a', v', n, n', hc', hl, hs, _, _, _, _⟩ := S.carries hc
    exact ⟨_, .some (hs.attr _), .attrName hc' hn (fun k => hx (S.flip.linked hl.core.symm k)) hr⟩
  | className hc hn ht hx =>
    obtain ⟨y, a', v', n, n', hc', hl, hs, hr, hp, ow, ow'⟩ := S.carries hc
    obtain rfl := hr.same (by
      rcases hn with rfl | hn
      · decide
      · intro hk
        simp only [List.mem_cons, List.not_mem_nil, or_false] at hk
        rcases hk with rfl | rfl | rfl | rfl <;> revert hn <;> decide)
    exact ⟨_, .some (hs.attr _), .className hc' hn ht hx⟩
  | unusable hc ht hx =>
    obtain ⟨y, a', v', n, n', hc', hl, hs, hr, hp, ow, ow'⟩ := S.carries hc
    obtain rfl := hr.same (by decide)
    exact ⟨_, .some (hs.attr _), .unusable hc' ht hx⟩
  | target hc ht hx =>
    obtain ⟨y, a', v', n, n', hc', hl, hs, hr, hp, ow, ow'⟩ := S.carries hc
    rcases hr.target rfl with ⟨rfl, hno⟩ | ⟨s, s', t1, t2, hm | ⟨rfl, hm⟩⟩
    · exact absurd ht (hno _)
    · obtain rfl := textOf_unique t1 ht
      exact ⟨_, .some (hs.attr _), .target hc' t2 fun k => hx (S.flip.targetOk hm.symm k)⟩
    · refine ⟨_, .some (hs.attr _), .target hc' t2 ?_⟩
      rintro ⟨u, rfl, _⟩
      exact hm ⟨u, rfl⟩
  | signalName hc hg ht hx =>
    obtain ⟨y, a', v', n, n', hc', hl, hs, hr, hp, ow, ow'⟩ := S.carries hc
    rcases hr.signal rfl with ⟨rfl, hno⟩ | ⟨t, t', t1, t2, _, hm⟩
    · exact absurd ht (hno _)
    obtain rfl := textOf_unique t1 ht
    rcases hm.name (S.node hp).re with rfl | hf
    · exact ⟨_, .some (hs.attr _), .signalName hc' (hl.core.obj.isGroup S.toRePair ▸ hg) t2 hx⟩
    · exact absurd (S.free.name _ hf.1) hx
  | signal hc ho hg ht hx =>
    obtain ⟨y, a', v', n, n', hc', hl, hs, hr, hp, ow, ow'⟩ := S.carries hc
    rcases hr.signal rfl with ⟨rfl, hno⟩ | ⟨t, t', t1, t2, _, hm⟩
    · exact absurd ht (hno _)
    obtain rfl := textOf_unique t1 ht
    obtain ⟨g', e, _⟩ := hl.core.obj.toNode ho
    obtain rfl := ow.node ho
    obtain rfl := ow'.node e
    refine ⟨_, .some (hs.attr _), .signal hc' e (hl.core.obj.isGroup S.toRePair ▸ hg) t2 ?_⟩
    rwa [← S.contains_corr hp (hm.corr (S.node hp).re)]
  | axisName hc ha hn hx =>
    obtain ⟨y, a', v', n, n', hc', hl, hs, hr, hp, ow, ow'⟩ := S.carries hc
    rcases hr.axes rfl with ⟨rfl, hno⟩ | ⟨ns, ns', t1, t2, hm⟩
    · exact absurd ha (hno _)
    obtain rfl := axesOf_unique t1 ha
    obtain ⟨s', hs', hns⟩ := forall₂_mem hm hn
    rcases hns.name (S.node hp).re with rfl | hf
    · exact ⟨_, .some (hs.attr _), .axisName hc' t2 hs' hx⟩
    · exact absurd (S.free.name _ hf.1) hx
  | axis hc ha hn hg hx =>
    obtain ⟨y, a', v', n, n', hc', hl, hs, hr, hp, ow, ow'⟩ := S.carries hc
    rcases hr.axes rfl with ⟨rfl, hno⟩ | ⟨ns, ns', t1, t2, hm⟩
    · exact absurd ha (hno _)
    obtain rfl := axesOf_unique t1 ha
    obtain ⟨s', hs', hns⟩ := forall₂_mem hm hn
    obtain ⟨g', e, _⟩ := hl.core.obj.group S.toRePair hg
    obtain rfl := ow.group hg
    obtain rfl := ow'.group e
    rcases hns with ⟨rfl, hf⟩ | ⟨t, t', a1, a2, ks, ks', i, m, m', rfl, rfl, h3, h4⟩
    · refine ⟨_, .some (hs.attr _), .axis hc' t2 hs' e ?_⟩
      rintro ⟨m, hm⟩
      rcases S.get_fixed hp hf with ⟨_, _, h⟩ | ⟨_, h⟩ | ⟨k, k', h1, h2, _⟩
      · rw [h] at hm; cases hm
      · rw [h] at hm; cases hm
      · exact hx ⟨k, h1⟩
    · exact absurd ⟨m, get_member (S.node hp) h3 h4⟩ hx
  | unknownClass hm hg hc hcl he ht =>
    obtain ⟨y, g', hy, e, hc', hcl', hp, _⟩ := S.group hm hg hc hcl
    exact ⟨_, .some (S.spot hp).addr, .unknownClass hy e hc' hcl' he ht⟩
  | application hm hg hc hcl he ht =>
    obtain ⟨y, g', hy, e, hc', hcl', hp, _⟩ := S.group hm hg hc hcl
    exact ⟨_, .some (S.spot hp).addr, .application hy e hc' hcl' he ht⟩
  | enumeration hm hg hc hcl he hk hs hn hx =>
    obtain ⟨y, g', hy, e, hc', hcl', hp, _⟩ := S.group hm hg hc hcl
    obtain ⟨v', hk', hr⟩ := reAttrs_mem (re_attrs (S.node hp).re) hk
    obtain rfl := hr.same fun e => hn (S.free.enums _ _ he _ _ hs e)
    exact ⟨_, .some ((S.spot hp).attr _), .enumeration hy e hc' hcl' he hk' hs hn hx⟩
  | pointer hm hg hc hcl he hk hs hi hx =>
    obtain ⟨y, g', hy, e, hc', hcl', hp, hcp⟩ := S.group hm hg hc hcl
    obtain ⟨v', hk', hr⟩ := reAttrs_mem (re_attrs (S.node hp).re) hk
    refine ⟨_, .some ((S.spot hp).attr _), .pointer hy e hc' hcl' he hk' hs (hcp ▸ hi) fun k => ?_⟩
    exact hx (S.flip.namesMember hp.symm (hi.imp id And.left) hr.symm k)
  | unknownDefinition hd he =>
    obtain ⟨g', hd', hp⟩ := S.declaredBy hd
    exact ⟨_, .some (S.spot hp).addr, .unknownDefinition hd' he⟩
  | noApplication hd he hc =>
    obtain ⟨g', hd', hp⟩ := S.declaredBy hd
    exact ⟨_, .some (S.spot hp).addr, .noApplication hd' he hc⟩
  | missingField hr hg =>
    obtain ⟨⟨g', hr', hp⟩, hf⟩ := S.requiredIn hr
    rcases S.get_fixed hp hf with ⟨_, h, _⟩ | ⟨_, h⟩ | ⟨k, k', h1, h2, _⟩
    · rw [h] at hg; cases hg
    · exact ⟨_, .some ((S.spot hp).attr _), .missingField hr' h⟩
    · rw [h1] at hg; cases hg
  | wrongValue hr hg he hx =>
    obtain ⟨⟨g', hr', hp⟩, hf⟩ := S.requiredIn hr
    rcases S.get_fixed hp hf with ⟨_, h, _⟩ | ⟨h, _⟩ | ⟨k, k', h1, h2, h3⟩
    · rw [h] at hg; cases hg
    · rw [h] at hg; cases hg
    · rw [h1] at hg
      cases hg
      exact ⟨_, .some (S.spot h3).addr, .wrongValue hr' h2 he
        fun w => hx (S.flip.hasOneOf h3.symm w)⟩
  | plotSignal he hb hs =>
    obtain ⟨b', y, c', e', hy, hbb, _⟩ := split_re S.dataSignals he
    refine ⟨_, hy.core.addr, .plotSignal e' (fun i hi k => ?_) (S.signalMissing hy hs)⟩
    obtain ⟨j, hj, hr⟩ := forall₂_mem' hbb hi
    exact hb j hj (S.flip.signalMissing hr.symm k)
  | plotMarks ha hl =>
    obtain ⟨g', hg⟩ : ∃ g', Option.Rel (SameAddress Free f f') a g' := by
      cases hm : Spec.marksIn env items a with
      | nil => rw [hm] at hl; simp at hl
      | cons x l =>
        have hx : x ∈ Spec.marksIn env items a := by rw [hm]; exact List.mem_cons_self ..
        obtain ⟨h1, h2⟩ := List.mem_filter.1 hx
        obtain ⟨y, _, hr⟩ := S.marks.mem h1
        have := groupOf_re hr
        rw [of_decide_eq_true h2] at this
        exact ⟨_, this⟩
    exact ⟨g', hg, .plotMarks (fun k => ha (S.flip.attributePlot k))
      (S.marksIn hg ▸ hl)⟩
  | noPlot ha hs hr =>
    exact ⟨_, .some S.spot_root.addr, .noPlot (fun k => ha (S.flip.attributePlot k))
      (fun k => hs (S.flip.signalPlot k)) (S.plotRequired.1 hr)⟩

end Punx

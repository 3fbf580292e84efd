import Verif.Props.NxdlSchema3

/-!
# C81: the attributes of the types of a schema
-/

namespace Punx
open Spec

/-! ## kinds -/

theorem parseAttr_kind {n : XsNode} {o : SObj} (h : parseAttr n = .ok o) :
    o.kind = .attribute := by
  rw [parseAttr] at h
  simp only [] at h
  split at h
  · split at h
    · cases h
    · injection h with h; subst h; rfl
  · injection h with h; subst h; rfl

theorem parseElem_kind {n : XsNode} {o : SObj} (h : parseElem n = .ok o) :
    o.kind = .element := by
  cases n with
  | comment => cases h
  | elem xs t l a k =>
    rw [parseElem] at h
    split at h
    · cases hi : parseInline k with
      | error e => rw [hi] at h; cases h
      | ok ks => rw [hi] at h; injection h with h; subst h; rfl
    · injection h with h; subst h; rfl

theorem parseGroup_kind {n : XsNode} {o : SObj} (h : parseGroup n = .ok o) :
    o.kind = .group := by
  rw [parseGroup] at h
  cases hk : parseSeqs n.kids with
  | error e => rw [hk] at h; cases h
  | ok ks => rw [hk] at h; injection h with h; subst h; rfl

theorem mapM_mem {α β : Type} {f : α → Except PyErr β} : ∀ {l : List α} {bs : List β},
    l.mapM f = .ok bs → ∀ b, b ∈ bs ↔ ∃ a ∈ l, f a = .ok b
  | [], bs, h, b => by
    injection h with h
    subst h
    simp
  | a :: l, bs, h, b => by
    rw [List.mapM_cons] at h
    cases ha : f a with
    | error e => rw [ha] at h; cases h
    | ok b' =>
      rw [ha] at h
      cases hl : l.mapM f with
      | error e => rw [hl] at h; cases h
      | ok bs' =>
        rw [hl] at h
        injection h with h
        subst h
        rw [List.mem_cons, mapM_mem hl]
        simp only [List.exists_mem_cons_iff, ha, Except.ok.injEq]
        rw [eq_comm]

theorem parseElems_kind : ∀ {ns : List XsNode} {os : List SObj}, parseElems ns = .ok os →
    ∀ o ∈ os, o.kind = .element
  | [], os, h, o, ho => by
    rw [parseElems] at h
    injection h with h
    subst h
    cases ho
  | n :: ns, os, h, o, ho => by
    rw [parseElems] at h
    split at h
    · cases he : parseElem n with
      | error e => rw [he] at h; cases h
      | ok e =>
        rw [he] at h
        cases hr : parseElems ns with
        | error e => rw [hr] at h; cases h
        | ok rest =>
          rw [hr] at h
          injection h with h
          subst h
          rcases List.mem_cons.1 ho with rfl | ho
          · exact parseElem_kind he
          · exact parseElems_kind hr o ho
    · exact parseElems_kind h o ho

theorem parseSeqs_kind : ∀ {ns : List XsNode} {os : List SObj}, parseSeqs ns = .ok os →
    ∀ o ∈ os, o.kind = .element
  | [], os, h, o, ho => by
    rw [parseSeqs] at h
    injection h with h
    subst h
    cases ho
  | .comment :: ns, os, h, o, ho => by
    rw [parseSeqs] at h
    exact parseSeqs_kind h o ho
  | .elem xs t l a k :: ns, os, h, o, ho => by
    rw [parseSeqs] at h
    split at h
    · cases he : parseElems k with
      | error e => rw [he] at h; cases h
      | ok es =>
        rw [he] at h
        cases hr : parseSeqs ns with
        | error e => rw [hr] at h; cases h
        | ok rest =>
          rw [hr] at h
          injection h with h
          subst h
          rcases List.mem_append.1 ho with ho | ho
          · exact parseElems_kind he o ho
          · exact parseSeqs_kind hr o ho
    · exact parseSeqs_kind h o ho

theorem parseGroup_kids {n : XsNode} {o : SObj} (h : parseGroup n = .ok o) :
    ∀ c ∈ o.kids, c.kind = .element := by
  rw [parseGroup] at h
  cases hk : parseSeqs n.kids with
  | error e => rw [hk] at h; cases h
  | ok ks =>
    rw [hk] at h
    injection h with h
    subst h
    exact parseSeqs_kind hk

/-! ## the children of a type -/

theorem ownSeq_kind {n : XsNode} {ks : List SObj} (h : ownSeq n = .ok ks) :
    ∀ o ∈ ks, o.kind ≠ .attribute := by
  rw [ownSeq] at h
  cases he : (n.select s%"element").mapM parseElem with
  | error e => rw [he] at h; cases h
  | ok es =>
    rw [he] at h
    cases hg : (n.select s%"group").mapM parseGroup with
    | error e => rw [hg] at h; cases h
    | ok gs =>
      rw [hg] at h
      injection h with h
      subst h
      intro o ho
      rcases List.mem_append.1 ho with ho | ho
      · obtain ⟨a, _, ha⟩ := (mapM_mem he o).1 ho
        rw [parseElem_kind ha]; decide
      · obtain ⟨a, _, ha⟩ := (mapM_mem hg o).1 ho
        rw [parseGroup_kind ha]; decide

theorem seqs_kind {ns : List XsNode} {ss : List (List SObj)} (h : ns.mapM ownSeq = .ok ss) :
    ∀ o ∈ ss.flatten, o.kind ≠ .attribute := by
  intro o ho
  obtain ⟨ks, h1, h2⟩ := List.mem_flatten.1 ho
  obtain ⟨a, _, ha⟩ := (mapM_mem h ks).1 h1
  exact ownSeq_kind ha o h2

theorem ownExtension_attrs {s : Option (Dict (Option Str) SRef)} {e : XsNode} {ks : List SObj}
    (h : ownExtension s e = .ok ks) {o : SObj} (ho : o.kind = .attribute) :
    o ∈ ks ↔ (∃ n ∈ e.select s%"attribute", parseAttr n = .ok o) ∨
      ∃ b r, Dict.get? e.attrib s%"base" = some b ∧ refOf s (some (stripNs b)) = .ok r ∧
        o ∈ r.kids := by
  rw [ownExtension] at h
  cases hb : Dict.get? e.attrib s%"base" with
  | none =>
    rw [hb] at h
    simp only [bind, Except.bind] at h
    cases hs : (e.select s%"sequence").mapM ownSeq with
    | error x => rw [hs] at h; cases h
    | ok ss =>
      rw [hs] at h
      simp only [] at h
      cases ha : (e.select s%"attribute").mapM parseAttr with
      | error x => rw [ha] at h; cases h
      | ok as =>
        rw [ha] at h
        injection h with h
        subst h
        rw [List.nil_append, List.mem_append, mapM_mem ha]
        have : o ∉ ss.flatten := fun hx => seqs_kind hs o hx ho
        simp [this]
  | some b =>
    rw [hb] at h
    simp only [] at h
    cases hr : refOf s (some (stripNs b)) with
    | error x => rw [hr] at h; cases h
    | ok r =>
      rw [hr] at h
      simp only [bind, Except.bind, Except.map] at h
      cases hs : (e.select s%"sequence").mapM ownSeq with
      | error x => rw [hs] at h; cases h
      | ok ss =>
        rw [hs] at h
        simp only [] at h
        cases ha : (e.select s%"attribute").mapM parseAttr with
        | error x => rw [ha] at h; cases h
        | ok as =>
          rw [ha] at h
          injection h with h
          subst h
          rw [List.mem_append, List.mem_append, mapM_mem ha]
          have : o ∉ ss.flatten := fun hx => seqs_kind hs o hx ho
          simp only [this, or_false, Option.some.injEq, exists_and_left, exists_eq_left', hr,
            Except.ok.injEq]
          exact or_comm

theorem ownContent_eq {s : Option (Dict (Option Str) SRef)} {c : XsNode} {ks : List SObj}
    (h : ownContent s c = .ok ks) :
    ∃ x rest, c.kids = x :: rest ∧ x.isXs s%"extension" = true ∧ ownExtension s x = .ok ks := by
  rw [ownContent] at h
  cases hk : c.kids with
  | nil => rw [hk] at h; cases h
  | cons x rest =>
    rw [hk] at h
    cases x with
    | comment => cases h
    | elem b t l a k =>
      simp only [] at h
      split at h
      · rename_i he
        exact ⟨_, _, rfl, he, h⟩
      · cases h

theorem single_extension {c e : XsNode} (h1 : c.select s%"extension" = [e]) {x : XsNode}
    {rest : List XsNode} (h2 : c.kids = x :: rest) (h3 : x.isXs s%"extension" = true) : x = e := by
  rw [XsNode.select, h2, List.filter_cons_of_pos h3] at h1
  injection h1

/-- The attributes among the children of a complex type. -/
theorem ownComplex_attrs {s : Option (Dict (Option Str) SRef)} {t : XsNode} {ks : List SObj}
    (hsingle : ∀ c ∈ t.select s%"complexContent", ∃ e, c.select s%"extension" = [e])
    (h : ownComplex s t = .ok ks) {o : SObj} (ho : o.kind = .attribute) :
    o ∈ ks ↔ (∃ n ∈ t.select s%"attribute", parseAttr n = .ok o) ∨
      (∃ e, Extends t e ∧ ((∃ n ∈ e.select s%"attribute", parseAttr n = .ok o) ∨
        ∃ b r, Dict.get? e.attrib s%"base" = some b ∧ refOf s (some (stripNs b)) = .ok r ∧
          o ∈ r.kids)) ∨
      ∃ g ∈ t.select s%"attributeGroup", ∃ x r, Dict.get? g.attrib s%"ref" = some x ∧
        refOf s (some (stripNs x)) = .ok r ∧ o ∈ r.kids := by
  rw [ownComplex] at h
  simp only [bind, Except.bind] at h
  cases hs : (t.select s%"sequence").mapM ownSeq with
  | error x => rw [hs] at h; cases h
  | ok ss =>
    rw [hs] at h
    simp only [] at h
    cases hc : (t.select s%"complexContent").mapM (ownContent s) with
    | error x => rw [hc] at h; cases h
    | ok cs =>
      rw [hc] at h
      simp only [] at h
      cases hg : (t.select s%"group").mapM parseGroup with
      | error x => rw [hg] at h; cases h
      | ok gs =>
        rw [hg] at h
        simp only [] at h
        cases ha : (t.select s%"attribute").mapM parseAttr with
        | error x => rw [ha] at h; cases h
        | ok as =>
          rw [ha] at h
          simp only [] at h
          cases hga : (t.select s%"attributeGroup").mapM (ownAttrGroup s) with
          | error x => rw [hga] at h; cases h
          | ok gas =>
            rw [hga] at h
            injection h with h
            subst h
            have h1 : o ∉ ss.flatten := fun hx => seqs_kind hs o hx ho
            have h2 : o ∉ gs := fun hx => by
              obtain ⟨a, _, ha⟩ := (mapM_mem hg o).1 hx
              rw [parseGroup_kind ha] at ho
              cases ho
            have h3 : o ∈ cs.flatten ↔ ∃ e, Extends t e ∧
                ((∃ n ∈ e.select s%"attribute", parseAttr n = .ok o) ∨
                ∃ b r, Dict.get? e.attrib s%"base" = some b ∧
                  refOf s (some (stripNs b)) = .ok r ∧ o ∈ r.kids) := by
              rw [List.mem_flatten]
              constructor
              · rintro ⟨l, hl, hol⟩
                obtain ⟨c, hcm, hcl⟩ := (mapM_mem hc l).1 hl
                obtain ⟨x, rest, hk, hx, he⟩ := ownContent_eq hcl
                refine ⟨x, ⟨c, hcm, ?_⟩, (ownExtension_attrs he ho).1 hol⟩
                rw [XsNode.select, hk]
                exact List.mem_filter.2 ⟨List.mem_cons_self, hx⟩
              · rintro ⟨e, ⟨c, hcm, hec⟩, hor⟩
                obtain ⟨l, hcl⟩ := mapM_ok_iff.1 ⟨cs, hc⟩ c hcm
                obtain ⟨x, rest, hk, hx, he⟩ := ownContent_eq hcl
                obtain ⟨e', he'⟩ := hsingle c hcm
                have hxe := single_extension he' hk hx
                rw [he'] at hec
                have hee : e = e' := List.mem_singleton.1 hec
                subst hee
                subst hxe
                exact ⟨l, (mapM_mem hc l).2 ⟨c, hcm, hcl⟩, (ownExtension_attrs he ho).2 hor⟩
            have h4 : o ∈ gas.flatten ↔ ∃ g ∈ t.select s%"attributeGroup", ∃ x r,
                Dict.get? g.attrib s%"ref" = some x ∧
                refOf s (some (stripNs x)) = .ok r ∧ o ∈ r.kids := by
              rw [List.mem_flatten]
              constructor
              · rintro ⟨l, hl, hol⟩
                obtain ⟨g, hgm, hgl⟩ := (mapM_mem hga l).1 hl
                rw [ownAttrGroup] at hgl
                cases hx : Dict.get? g.attrib s%"ref" with
                | none => rw [hx] at hgl; cases hgl
                | some x =>
                  rw [hx] at hgl
                  simp only [] at hgl
                  cases hr : refOf s (some (stripNs x)) with
                  | error z => rw [hr] at hgl; cases hgl
                  | ok r =>
                    rw [hr] at hgl
                    injection hgl with hgl
                    exact ⟨g, hgm, x, r, hx, hr, by rw [hgl]; exact hol⟩
              · rintro ⟨g, hgm, x, r, hx, hr, hor⟩
                refine ⟨r.kids, (mapM_mem hga _).2 ⟨g, hgm, ?_⟩, hor⟩
                rw [ownAttrGroup, hx]
                simp only [hr]
                rfl
            simp only [List.mem_append, h1, h2, h3, h4, mapM_mem ha, false_or, or_false]
            rw [or_assoc, or_left_comm]

theorem ownComplex_base {s : Option (Dict (Option Str) SRef)} {t : XsNode} {ks : List SObj}
    (hsingle : ∀ c ∈ t.select s%"complexContent", ∃ e, c.select s%"extension" = [e])
    (h : ownComplex s t = .ok ks) {e : XsNode} (he : Extends t e) {b : Str}
    (hb : Dict.get? e.attrib s%"base" = some b) : ∃ r, refOf s (some (stripNs b)) = .ok r := by
  rw [ownComplex] at h
  simp only [bind, Except.bind] at h
  cases hs : (t.select s%"sequence").mapM ownSeq with
  | error x => rw [hs] at h; cases h
  | ok ss =>
    rw [hs] at h
    simp only [] at h
    cases hc : (t.select s%"complexContent").mapM (ownContent s) with
    | error x => rw [hc] at h; cases h
    | ok cs =>
      obtain ⟨c, hcm, hec⟩ := he
      obtain ⟨l, hcl⟩ := mapM_ok_iff.1 ⟨cs, hc⟩ c hcm
      obtain ⟨x, rest, hk, hx, hext⟩ := ownContent_eq hcl
      obtain ⟨e', he'⟩ := hsingle c hcm
      have hxe := single_extension he' hk hx
      rw [he'] at hec
      have hee : e = e' := List.mem_singleton.1 hec
      subst hee
      subst hxe
      rw [ownExtension, hb] at hext
      simp only [] at hext
      cases hr : refOf s (some (stripNs b)) with
      | error z => rw [hr] at hext; cases hext
      | ok r => exact ⟨r, rfl⟩

/-! ## names -/

theorem filterMap_inj {α β : Type} {f : α → Option β} : ∀ {l : List α}, (l.filterMap f).Nodup →
    ∀ {a b : α} {k : β}, a ∈ l → b ∈ l → f a = some k → f b = some k → a = b
  | [], _, _, _, _, ha, _, _, _ => by cases ha
  | x :: l, hd, a, b, k, ha, hb, h1, h2 => by
    have hsub : (l.filterMap f).Nodup :=
      hd.sublist ((List.sublist_cons_self x l).filterMap f)
    have hx : ∀ c ∈ l, f x = some k → f c = some k → False := by
      intro c hc h3 h4
      rw [List.filterMap_cons, h3] at hd
      exact (List.nodup_cons.1 hd).1 (List.mem_filterMap.2 ⟨c, hc, h4⟩)
    rcases List.mem_cons.1 ha with ea | ha'
    · rcases List.mem_cons.1 hb with eb | hb'
      · rw [ea, eb]
      · exact (hx b hb' (ea ▸ h1) h2).elim
    · rcases List.mem_cons.1 hb with eb | hb'
      · exact (hx a ha' (eb ▸ h2) h1).elim
      · exact filterMap_inj hsub ha' hb' h1 h2

theorem filterMap_disjoint {α β : Type} {f : α → Option β} {l l' : List α}
    (hd : ((l ++ l').filterMap f).Nodup) {a b : α} {k : β} (ha : a ∈ l) (hb : b ∈ l')
    (h1 : f a = some k) (h2 : f b = some k) : False := by
  rw [List.filterMap_append, List.nodup_append'] at hd
  exact hd.2.2 (List.mem_filterMap.2 ⟨a, ha, h1⟩) (List.mem_filterMap.2 ⟨b, hb, h2⟩)

section
variable {root : XsNode} (hp : PlainSchema root)
include hp

theorem type_unique {t t' : XsNode} {k : Str} (h : t ∈ root.select s%"complexType")
    (h' : t' ∈ root.select s%"complexType") (hk : HasName t k) (hk' : HasName t' k) : t = t' :=
  filterMap_inj hp.names (List.mem_append_right _ h) (List.mem_append_right _ h') hk hk'

theorem attrGroup_unique {t t' : XsNode} {k : Str} (h : t ∈ root.select s%"attributeGroup")
    (h' : t' ∈ root.select s%"attributeGroup") (hk : HasName t k) (hk' : HasName t' k) : t = t' :=
  filterMap_inj hp.names
    (List.mem_append_left _ (List.mem_append_left _ (List.mem_append_right _ h)))
    (List.mem_append_left _ (List.mem_append_left _ (List.mem_append_right _ h'))) hk hk'

theorem type_not_other {t n : XsNode} {k : Str} (h : t ∈ root.select s%"complexType")
    (h' : n ∈ root.select s%"simpleType" ++ root.select s%"attributeGroup" ++
      root.everywhere s%"group") (hk : HasName t k) (hk' : HasName n k) : False :=
  filterMap_disjoint hp.names h' h hk' hk

theorem ofGroup_iff {k : Str} {n : XsNode} : OfGroup root k n ↔
    ∃ a ∈ root.select s%"attributeGroup", HasName a k ∧ n ∈ a.select s%"attribute" := by
  constructor
  · intro h
    cases h with
    | own h1 h2 h3 => exact ⟨_, h1, h2, h3⟩
    | nested h1 h2 h3 => rw [hp.flat _ h1] at h3; cases h3
  · rintro ⟨a, h1, h2, h3⟩
    exact .own h1 h2 h3

theorem ofType_iff {t : XsNode} {k : Str} (ht : t ∈ root.select s%"complexType")
    (hk : HasName t k) {n : XsNode} : OfType root k n ↔
      n ∈ t.select s%"attribute" ∨
      (∃ e, Extends t e ∧ (n ∈ e.select s%"attribute" ∨
        ∃ b, Dict.get? e.attrib s%"base" = some b ∧ OfType root (stripNs b) n)) ∨
      ∃ g ∈ t.select s%"attributeGroup", ∃ r, Dict.get? g.attrib s%"ref" = some r ∧
        OfGroup root (stripNs r) n := by
  constructor
  · intro h
    cases h with
    | own h1 h2 h3 => rw [type_unique hp h1 ht h2 hk] at h3; exact .inl h3
    | group h1 h2 h3 h4 h5 =>
      rw [type_unique hp h1 ht h2 hk] at h3
      exact .inr (.inr ⟨_, h3, _, h4, h5⟩)
    | extension h1 h2 h3 h4 =>
      rw [type_unique hp h1 ht h2 hk] at h3
      exact .inr (.inl ⟨_, h3, .inl h4⟩)
    | extensionGroup h1 h2 h3 h4 => rw [hp.flatExtension _ h1 _ h3] at h4; cases h4
    | base h1 h2 h3 h4 h5 =>
      rw [type_unique hp h1 ht h2 hk] at h3
      exact .inr (.inl ⟨_, h3, .inr ⟨_, h4, h5⟩⟩)
  · rintro (h | ⟨e, h1, h2 | ⟨b, h2, h3⟩⟩ | ⟨g, h1, r, h2, h3⟩)
    · exact .own ht hk h
    · exact .extension ht hk h1 h2
    · exact .base ht hk h1 h2 h3
    · exact .group ht hk h1 h2 h3

omit hp in
theorem ofType_named {k : Str} {n : XsNode} (h : OfType root k n) :
    ∃ t ∈ root.select s%"complexType", HasName t k := by
  cases h <;> exact ⟨_, by assumption, by assumption⟩

end

/-! ## the section `schema` while types are read -/

/-- what is known about the section after the types `before` -/
structure Right (root : XsNode) (s : Option (Dict (Option Str) SRef)) : Prop where
  group : ∀ a ∈ root.select s%"attributeGroup", ∀ k, HasName a k →
    ∃ r, refOf s (some k) = .ok r ∧ ∀ o, o ∈ r.kids ↔
      ∃ n ∈ a.select s%"attribute", parseAttr n = .ok o
  type : ∀ k r, refOf s (some k) = .ok r →
    (∀ a ∈ root.select s%"attributeGroup", ¬ HasName a k) → ∀ o, o.kind = .attribute →
      (o ∈ r.kids ↔ ∃ n, OfType root k n ∧ parseAttr n = .ok o)

theorem refOf_note (s : Option (Dict (Option Str) SRef)) (x : Option Str) (r : SRef)
    (k : Option Str) : refOf (noteIn s x r) k = if k = x then .ok r else refOf s k := by
  rw [refOf, noteIn, refOf]
  simp only [Option.bind_some, Dict.get?_set]
  by_cases h : k = x
  · simp [h]
  · rw [if_neg (fun e => h e.symm), if_neg h]
    cases s <;> rfl

theorem right_step {root t : XsNode} (hp : PlainSchema root) {s : Option (Dict (Option Str) SRef)}
    (hr : Right root s) (ht : t ∈ root.select s%"complexType") {x : Str} (hx : HasName t x)
    {ks : List SObj} (h : ownComplex s t = .ok ks) :
    Right root (noteIn s (some x) (.other ks)) := by
  constructor
  · intro a ha k hk
    obtain ⟨r, h1, h2⟩ := hr.group a ha k hk
    refine ⟨r, ?_, h2⟩
    rw [refOf_note, if_neg, h1]
    intro e
    injection e with e
    subst e
    exact type_not_other hp ht (List.mem_append_left _ (List.mem_append_right _ ha)) hx hk
  · intro k r h1 h2 o ho
    rw [refOf_note] at h1
    split at h1
    · rename_i e
      injection e with e
      subst e
      injection h1 with h1
      subst h1
      have hb := hp.bases t ht
      have hs := hp.single t ht
      change o ∈ ks ↔ _
      rw [ownComplex_attrs hs h ho]
      constructor
      · rintro (⟨n, h3, h4⟩ | ⟨e, h3, ⟨n, h4, h5⟩ | ⟨b, r, h4, h5, h6⟩⟩ | ⟨g, h3, y, r, h4, h5, h6⟩)
        · exact ⟨n, .own ht hx h3, h4⟩
        · exact ⟨n, .extension ht hx h3 h4, h5⟩
        · obtain ⟨n, h7, h8⟩ := (hr.type _ r h5 (hb e h3 b h4) o ho).1 h6
          exact ⟨n, .base ht hx h3 h4 h7, h8⟩
        · obtain ⟨a, ha, hak⟩ := hp.refs t ht g h3 y h4
          obtain ⟨r', h7, h8⟩ := hr.group a ha _ hak
          rw [h5] at h7
          injection h7 with h7
          subst h7
          obtain ⟨n, h9, h10⟩ := (h8 o).1 h6
          exact ⟨n, .group ht hx h3 h4 (.own ha hak h9), h10⟩
      · rintro ⟨n, h3, h4⟩
        rcases (ofType_iff hp ht hx).1 h3 with h5 | ⟨e, h5, h6 | ⟨b, h6, h7⟩⟩ | ⟨g, h5, y, h6, h7⟩
        · exact .inl ⟨n, h5, h4⟩
        · exact .inr (.inl ⟨e, h5, .inl ⟨n, h6, h4⟩⟩)
        · obtain ⟨r, h8⟩ := ownComplex_base hs h h5 h6
          exact .inr (.inl ⟨e, h5, .inr ⟨b, r, h6, h8,
            (hr.type _ r h8 (hb e h5 b h6) o ho).2 ⟨n, h7, h4⟩⟩⟩)
        · obtain ⟨a, ha, hak⟩ := hp.refs t ht g h5 y h6
          obtain ⟨r', h8, h9⟩ := hr.group a ha _ hak
          obtain ⟨a', ha', hak', hn'⟩ := (ofGroup_iff hp).1 h7
          have := attrGroup_unique hp ha ha' hak hak'
          subst this
          exact .inr (.inr ⟨g, h5, y, r', h6, h8, (h9 o).2 ⟨n, hn', h4⟩⟩)
    · exact hr.type k r h1 h2 o ho

theorem right_types {root : XsNode} (hp : PlainSchema root) : ∀ {ns : List XsNode}
    {s s' : Option (Dict (Option Str) SRef)}, (∀ t ∈ ns, t ∈ root.select s%"complexType") →
    Right root s → ownComplexTypes ns s = .ok s' → Right root s' ∧
      (∀ k r, refOf s (some k) = .ok r → ∃ r', refOf s' (some k) = .ok r') ∧
      ∀ t ∈ ns, ∀ k, HasName t k → ∃ r, refOf s' (some k) = .ok r
  | [], s, s', _, hr, h => by
    injection h with h
    subst h
    exact ⟨hr, fun k r h => ⟨r, h⟩, by simp⟩
  | t :: ns, s, s', hns, hr, h => by
    rw [ownComplexTypes] at h
    have hns' : ∀ u ∈ ns, u ∈ root.select s%"complexType" :=
      fun u hu => hns u (List.mem_cons_of_mem _ hu)
    cases hn : Dict.get? t.attrib s%"name" with
    | none =>
      rw [hn] at h
      obtain ⟨h1, h2, h3⟩ := right_types hp hns' hr h
      refine ⟨h1, h2, fun u hu k hk => ?_⟩
      rcases List.mem_cons.1 hu with rfl | hu
      · rw [HasName, hn] at hk; cases hk
      · exact h3 u hu k hk
    | some x =>
      rw [hn] at h
      simp only [] at h
      cases hc : ownComplex s t with
      | error e => rw [hc] at h; cases h
      | ok ks =>
        rw [hc] at h
        have hstep := right_step hp hr (hns t (by simp)) hn hc
        obtain ⟨h1, h2, h3⟩ := right_types hp hns' hstep h
        refine ⟨h1, fun k r hkr => ?_, fun u hu k hk => ?_⟩
        · by_cases e : some k = some x
          · exact h2 k (.other ks) (by rw [refOf_note, if_pos e])
          · exact h2 k r (by rw [refOf_note, if_neg e, hkr])
        · rcases List.mem_cons.1 hu with rfl | hu
          · rw [HasName, hn] at hk
            exact h2 k (.other ks) (by rw [refOf_note, if_pos hk.symm])
          · exact h3 u hu k hk

/-- names that are neither of attribute groups nor of types have no attributes -/
theorem ownAttrGroups_refs : ∀ {ns : List XsNode} {s s' : Option (Dict (Option Str) SRef)},
    ownAttrGroups ns s = .ok s' → (ns.filterMap fun n => Dict.get? n.attrib s%"name").Nodup →
    (∀ a ∈ ns, ∀ k, HasName a k → ∃ ks, parseAttrGroup a = .ok ks ∧
      refOf s' (some k) = .ok (.other ks)) ∧
    ∀ k, (∀ a ∈ ns, ¬ HasName a k) → refOf s' (some k) = refOf s (some k)
  | [], s, s', h, _ => by
    injection h with h
    subst h
    simp
  | a :: ns, s, s', h, hd => by
    rw [ownAttrGroups] at h
    cases hp : parseAttrGroup a with
    | error e => rw [hp] at h; cases h
    | ok ks =>
      rw [hp] at h
      obtain ⟨h1, h2⟩ := ownAttrGroups_refs h
        (hd.sublist ((List.sublist_cons_self a ns).filterMap _))
      constructor
      · intro b hb k hk
        rcases List.mem_cons.1 hb with rfl | hb
        · refine ⟨ks, hp, ?_⟩
          rw [h2 k, refOf_note, if_pos hk.symm]
          intro c hc hck
          rw [List.filterMap_cons, hk] at hd
          exact (List.nodup_cons.1 hd).1 (List.mem_filterMap.2 ⟨c, hc, hck⟩)
        · exact h1 b hb k hk
      · intro k hk
        rw [h2 k fun b hb => hk b (List.mem_cons_of_mem _ hb), refOf_note, if_neg]
        exact fun e => hk a (by simp) e.symm

theorem ownGroups_refs : ∀ {ns : List XsNode} {s s' : Option (Dict (Option Str) SRef)},
    ownGroups ns s = .ok s' → ∀ k r, refOf s' (some k) = .ok r →
      (∃ n ∈ ns, HasName n k ∧ ∀ c ∈ r.kids, c.kind = .element) ∨ refOf s (some k) = .ok r
  | [], s, s', h, k, r, hk => by
    injection h with h
    subst h
    exact .inr hk
  | n :: ns, s, s', h, k, r, hk => by
    rw [ownGroups] at h
    cases hp : parseGroup n with
    | error e => rw [hp] at h; cases h
    | ok o =>
      rw [hp] at h
      simp only [bind, Except.bind] at h
      have hname := parseGroup_name hp
      cases hn : o.name with
      | none =>
        rw [hn] at h
        rcases ownGroups_refs (ns := ns) h k r hk with ⟨m, h1, h2⟩ | h1
        · exact .inl ⟨m, List.mem_cons_of_mem _ h1, h2⟩
        · exact .inr h1
      | some x =>
        rw [hn] at h
        cases hs : s with
        | none => rw [hs] at h; cases h
        | some d =>
          rw [hs] at h
          rcases ownGroups_refs (ns := ns) h k r hk with ⟨m, h1, h2⟩ | h1
          · exact .inl ⟨m, List.mem_cons_of_mem _ h1, h2⟩
          · rw [refOf_note] at h1
            split at h1
            · rename_i e
              injection h1 with h1
              subst h1
              refine .inl ⟨n, List.mem_cons_self, ?_, parseGroup_kids hp⟩
              rw [HasName, ← hname, hn, e]
            · exact .inr h1

/-- entries are kept unless a group has their name -/
theorem ownGroups_keep : ∀ {ns : List XsNode} {s s' : Option (Dict (Option Str) SRef)},
    ownGroups ns s = .ok s' → ∀ k, (∀ n ∈ ns, ¬ HasName n k) →
      refOf s' (some k) = refOf s (some k)
  | [], s, s', h, k, _ => by
    injection h with h
    rw [h]
  | n :: ns, s, s', h, k, hk => by
    rw [ownGroups] at h
    have hk' : ∀ n ∈ ns, ¬ HasName n k := fun m hm => hk m (List.mem_cons_of_mem _ hm)
    cases hp : parseGroup n with
    | error e => rw [hp] at h; cases h
    | ok o =>
      rw [hp] at h
      simp only [bind, Except.bind] at h
      have hname := parseGroup_name hp
      cases hn : o.name with
      | none => rw [hn] at h; exact ownGroups_keep (ns := ns) h k hk'
      | some x =>
        rw [hn] at h
        cases hs : s with
        | none => rw [hs] at h; cases h
        | some d =>
          rw [hs] at h
          rw [ownGroups_keep (ns := ns) h k hk', refOf_note, if_neg]
          intro e
          exact hk n (by simp) (by rw [HasName, ← hname, hn, e])

theorem startDb_ref {d : Dict (Option Str) SSimple} {k : Option Str} {r : SRef}
    (h : refOf (startDb d).schema k = .ok r) : r.kids = [] := by
  cases d with
  | nil => cases h
  | cons x xs =>
    rw [refOf] at h
    simp only [startDb, Option.bind_some] at h
    cases hg : Dict.get? (List.map (fun kv => (kv.1, SRef.simple kv.2)) (x :: xs)) k with
    | none => rw [hg] at h; cases h
    | some r' =>
      rw [hg] at h
      injection h with h
      subst h
      obtain ⟨kv, _, e⟩ := List.mem_map.1 (Dict.mem_of_get? hg)
      injection e with e1 e2
      rw [← e2]
      rfl

/-- C81, as far as it holds: in a schema as the code expects it, one declaration per line, the
attributes kept for a complex type are those that XML Schema gives to it. -/
theorem type_attributes_partial {int : Str → Option Int} {root : XsNode} {db : SchemaDb}
    (hd : DistinctLines root) (hp : PlainSchema root) (h : readSchema int root = .ok db)
    {t : XsNode} {k : Str} (ht : t ∈ root.select s%"complexType") (hk : HasName t k) :
    ∃ r, db.ref (some k) = .ok r ∧ ∀ o, o.kind = .attribute →
      (o ∈ r.kids ↔ ∃ n, OfType root k n ∧ parseAttr n = .ok o) := by
  rcases readSchema_own int hd with ⟨e, h1, _⟩ | ⟨db', h1, h2, _⟩
  · rw [h] at h1; cases h1
  rw [h] at h1
  injection h1 with h1
  subst h1
  rw [ownSchema] at h2
  simp only [bind, Except.bind] at h2
  cases hs : simpleTypes int root with
  | error e => rw [hs] at h2; cases h2
  | ok simple =>
    rw [hs] at h2
    simp only [] at h2
    cases ha : (root.everywhere s%"attribute").mapM parseAttr with
    | error e => rw [ha] at h2; cases h2
    | ok as =>
      rw [ha] at h2
      simp only [] at h2
      cases hg : ownAttrGroups (root.select s%"attributeGroup") (startDb simple).schema with
      | error e => rw [hg] at h2; cases h2
      | ok s1 =>
        rw [hg] at h2
        simp only [] at h2
        cases he : (root.everywhere s%"element").mapM parseElem with
        | error e => rw [he] at h2; cases h2
        | ok es =>
          rw [he] at h2
          simp only [] at h2
          cases hn : ownGroups (root.everywhere s%"group") s1 with
          | error e => rw [hn] at h2; cases h2
          | ok s2 =>
            rw [hn] at h2
            simp only [] at h2
            cases hc : ownComplexTypes (root.select s%"complexType") s2 with
            | error e => rw [hc] at h2; cases h2
            | ok s3 =>
              rw [hc] at h2
              injection h2 with h2
              injection h2 with _ h2
              have hnd : ((root.select s%"attributeGroup").filterMap
                  fun n => Dict.get? n.attrib s%"name").Nodup := by
                refine hp.names.sublist (List.Sublist.filterMap _ ?_)
                rw [namedNodes, List.append_assoc, List.append_assoc]
                exact (List.sublist_append_left _ _).trans (List.sublist_append_right _ _)
              obtain ⟨h3, h4⟩ := ownAttrGroups_refs hg hnd
              have hright : Right root s2 := by
                constructor
                · intro a ha k hk
                  obtain ⟨ks, h5, h6⟩ := h3 a ha k hk
                  refine ⟨.other ks, ?_, fun o => mapM_mem h5 o⟩
                  rw [ownGroups_keep hn k, h6]
                  intro n hnm hnk
                  have hnames := hp.names
                  rw [namedNodes, List.filterMap_append] at hnames
                  exact filterMap_disjoint (List.Nodup.of_append_left hnames)
                    (List.mem_append_right _ ha) hnm hk hnk
                · intro k r h5 h6 o ho
                  have hno : ∀ n, OfType root k n → False := by
                    intro n hof
                    obtain ⟨t, ht, htk⟩ := ofType_named hof
                    rcases ownGroups_refs hn k r h5 with ⟨g, h7, h8, _⟩ | h7
                    · exact type_not_other hp ht (List.mem_append_right _ h7) htk h8
                    · rw [h4 k h6] at h7
                      have hkey : some k ∈ Dict.keys simple := by
                        rw [← startDb_names]
                        exact (ref_ok_iff (startDb simple) (some k)).1 ⟨r, h7⟩
                      obtain ⟨m, h8, h9⟩ := (simpleTypes_keys hs _).1 hkey
                      exact type_not_other hp ht
                        (List.mem_append_left _ (List.mem_append_left _ h8)) htk h9
                  constructor
                  · intro hor
                    rcases ownGroups_refs hn k r h5 with ⟨g, h7, h8, h9⟩ | h7
                    · rw [h9 o hor] at ho; cases ho
                    · rw [h4 k h6] at h7
                      rw [startDb_ref h7] at hor
                      cases hor
                  · rintro ⟨n, h7, _⟩
                    exact (hno n h7).elim
              obtain ⟨h5, _, h6⟩ := right_types hp (fun t ht => ht) hright hc
              obtain ⟨r, h7⟩ := h6 t ht k hk
              refine ⟨r, by rw [ref_eq, ← h2]; exact h7, h5.type k r h7 ?_⟩
              intro a ha hak
              exact type_not_other hp ht (List.mem_append_left _ (List.mem_append_right _ ha))
                hk hak

end Punx

import Verif.Spec.SchemaParts
import Verif.Props.NxdlSchema5

/-!
# C106: the parts of elements, groups and complex types
-/

namespace Punx
open Spec

/-! ## elements and groups -/

theorem parseElems_eq : ∀ ns : List XsNode,
    parseElems ns = (ns.filter (XsNode.isXs s%"element")).mapM parseElem
  | [] => rfl
  | n :: ns => by
    rw [parseElems, parseElems_eq ns, List.filter_cons]
    split
    · rw [List.mapM_cons]; rfl
    · rfl

/-- What is in the sequences among some nodes. -/
def inSequences (ns : List XsNode) : List XsNode :=
  (ns.filter (XsNode.isXs s%"sequence")).flatMap (·.select s%"element")

theorem parseSeqs_eq : ∀ ns : List XsNode, parseSeqs ns = (inSequences ns).mapM parseElem
  | [] => rfl
  | .comment :: ns => by
    rw [parseSeqs, parseSeqs_eq ns]
    rfl
  | .elem xs t l a k :: ns => by
    rw [parseSeqs, parseSeqs_eq ns, parseElems_eq]
    have hi : inSequences (.elem xs t l a k :: ns) =
        (if XsNode.isXs s%"sequence" (.elem xs t l a k) then
          k.filter (XsNode.isXs s%"element") ++ inSequences ns else inSequences ns) := by
      rw [inSequences, List.filter_cons]
      split
      · rw [List.flatMap_cons]; rfl
      · rfl
    rw [hi]
    have hx : XsNode.isXs s%"sequence" (.elem xs t l a k) = (xs && decide (t = s%"sequence")) := rfl
    rw [hx]
    by_cases h : (xs && decide (t = s%"sequence")) = true
    · rw [if_pos h, if_pos h, List.mapM_append]
      rfl
    · rw [if_neg h, if_neg h]

theorem mapM_forall₂ {α β : Type} {f : α → Except PyErr β} : ∀ {l : List α} {bs : List β},
    l.mapM f = .ok bs ↔ List.Forall₂ (fun a b => f a = .ok b) l bs
  | [], bs => by
    constructor
    · intro h; injection h with h; subst h; exact .nil
    · intro h; cases h; rfl
  | a :: l, bs => by
    rw [List.mapM_cons]
    cases ha : f a with
    | error e =>
      constructor
      · intro h; cases h
      · intro h; cases h with | cons h1 _ => rw [ha] at h1; cases h1
    | ok b =>
      cases hl : l.mapM f with
      | error e =>
        constructor
        · intro h; cases h
        · intro h
          cases h with
          | cons _ h2 => rw [mapM_forall₂.2 h2] at hl; cases hl
      | ok bs' =>
        constructor
        · intro h
          injection h with h
          subst h
          exact .cons ha (mapM_forall₂.1 hl)
        · intro h
          cases h with
          | cons h1 h2 =>
            rw [ha] at h1
            injection h1 with h1
            rw [mapM_forall₂.2 h2] at hl
            injection hl with hl
            rw [h1, hl]
            rfl

theorem parseInline_none : ∀ {ns : List XsNode}, ns.filter (XsNode.isXs s%"complexType") = [] →
    parseInline ns = .ok []
  | [], _ => rfl
  | .comment :: ns, h => by
    rw [parseInline]
    exact parseInline_none h
  | .elem xs t l a k :: ns, h => by
    rw [List.filter_cons] at h
    have hx : XsNode.isXs s%"complexType" (.elem xs t l a k) = (xs && decide (t = s%"complexType")) := rfl
    rw [hx] at h
    rw [parseInline]
    by_cases hc : (xs && decide (t = s%"complexType")) = true
    · rw [if_pos hc] at h; cases h
    · rw [if_neg hc] at h
      rw [if_neg hc]
      exact parseInline_none h

theorem parseInline_one {t : XsNode} : ∀ {ns : List XsNode},
    ns.filter (XsNode.isXs s%"complexType") = [t] → ∀ {ks : List SObj}, parseInline ns = .ok ks →
    ∃ es as, (inSequences t.kids).mapM parseElem = .ok es ∧
      (t.select s%"attribute").mapM parseAttr = .ok as ∧ ks = es ++ as
  | [], h, _, _ => by cases h
  | .comment :: ns, h, ks, hk => by
    rw [parseInline] at hk
    exact parseInline_one (ns := ns) h hk
  | .elem xs tag l a k :: ns, h, ks, hk => by
    rw [List.filter_cons] at h
    have hx : XsNode.isXs s%"complexType" (.elem xs tag l a k) =
      (xs && decide (tag = s%"complexType")) := rfl
    rw [hx] at h
    rw [parseInline] at hk
    by_cases hc : (xs && decide (tag = s%"complexType")) = true
    · rw [if_pos hc] at h hk
      injection h with h1 h2
      subst h1
      rw [parseInline_none h2, parseSeqs_eq] at hk
      simp only [bind, Except.bind] at hk
      cases he : (inSequences k).mapM parseElem with
      | error e => rw [he] at hk; cases hk
      | ok es =>
        rw [he] at hk
        simp only [] at hk
        cases ha : (k.filter (XsNode.isXs s%"attribute")).mapM parseAttr with
        | error e => rw [ha] at hk; cases hk
        | ok as =>
          rw [ha] at hk
          injection hk with hk
          rw [List.append_nil] at hk
          exact ⟨es, as, he, ha, hk.symm⟩
    · rw [if_neg hc] at h hk
      exact parseInline_one h hk

/-- The node that a text is at: `n/xs:sequence/xs:element`. -/
theorem inSequences_mem {ns : List XsNode} {m : XsNode} : m ∈ inSequences ns ↔
    ∃ q ∈ ns, q.isXs s%"sequence" = true ∧ m ∈ q.kids ∧ m.isXs s%"element" = true := by
  simp only [inSequences, List.mem_flatMap, List.mem_filter, XsNode.select]
  constructor
  · rintro ⟨q, ⟨h1, h2⟩, h3, h4⟩; exact ⟨q, h1, h2, h3, h4⟩
  · rintro ⟨q, h1, h2, h3, h4⟩; exact ⟨q, ⟨h1, h2⟩, h3, h4⟩

/-- **C106**: what is kept of the declaration of an element: its name, the last part of the name of its
type (`str` if there is none), its limits, and the parts of the type that is written in it: the
elements in sequences, in order, then the attributes.  If there is none, or more than one, no parts. -/
theorem inline_parts {n : XsNode} {o : SObj} (h : parseElem n = .ok o) :
    o.kind = .element ∧ o.name = Dict.get? n.attrib s%"name" ∧
    o.key = some (stripNs ((Dict.get? n.attrib s%"type").getD s%"str")) ∧
    o.info.minOccurs = Dict.get? n.attrib s%"minOccurs" ∧
    o.info.maxOccurs = Dict.get? n.attrib s%"maxOccurs" ∧
    (∀ t, n.select s%"complexType" = [t] → ∃ es as, o.kids = es ++ as ∧
      List.Forall₂ (fun m c => parseElem m = .ok c)
        ((t.select s%"sequence").flatMap (·.select s%"element")) es ∧
      List.Forall₂ (fun m c => parseAttr m = .ok c) (t.select s%"attribute") as) ∧
    ((∀ t, n.select s%"complexType" ≠ [t]) → o.kids = []) := by
  cases n with
  | comment => cases h
  | elem xs tag l a k =>
    rw [parseElem] at h
    have hsel : (XsNode.elem xs tag l a k).select s%"complexType" =
      k.filter (XsNode.isXs s%"complexType") := rfl
    rw [hsel]
    split at h
    · rename_i hone
      obtain ⟨t, ht⟩ := List.length_eq_one_iff.1 hone
      cases hi : parseInline k with
      | error e => rw [hi] at h; cases h
      | ok ks =>
        rw [hi] at h
        injection h with h
        subst h
        refine ⟨rfl, rfl, rfl, rfl, rfl, ?_, fun hno => absurd ht (hno t)⟩
        intro t' ht'
        rw [ht] at ht'
        injection ht' with ht'
        subst ht'
        obtain ⟨es, as, h1, h2, h3⟩ := parseInline_one ht hi
        exact ⟨es, as, h3, mapM_forall₂.1 h1, mapM_forall₂.1 h2⟩
    · rename_i hone
      injection h with h
      subst h
      refine ⟨rfl, rfl, rfl, rfl, rfl, ?_, fun _ => rfl⟩
      intro t ht
      rw [ht] at hone
      exact absurd rfl hone

/-- **C106**: what is kept of a group: its name, the name it refers to, its limits, the elements in its
sequences. -/
theorem group_parts {n : XsNode} {o : SObj} (h : parseGroup n = .ok o) :
    o.kind = .group ∧ o.name = Dict.get? n.attrib s%"name" ∧
    o.key = (Dict.get? n.attrib s%"ref").map stripNs ∧
    o.info.minOccurs = Dict.get? n.attrib s%"minOccurs" ∧
    o.info.maxOccurs = Dict.get? n.attrib s%"maxOccurs" ∧
    List.Forall₂ (fun m c => parseElem m = .ok c)
      ((n.select s%"sequence").flatMap (·.select s%"element")) o.kids := by
  rw [parseGroup, parseSeqs_eq] at h
  cases hk : (inSequences n.kids).mapM parseElem with
  | error e => rw [hk] at h; cases h
  | ok ks =>
    rw [hk] at h
    injection h with h
    subst h
    exact ⟨rfl, rfl, rfl, rfl, rfl, mapM_forall₂.1 hk⟩

/-! ## complex types -/

theorem keeps_kind {n : XsNode} {o : SObj} (h : Keeps n o) : o.kind ≠ .attribute := by
  rcases h with ⟨_, h⟩ | ⟨_, h⟩
  · rw [parseElem_kind h]; decide
  · rw [parseGroup_kind h]; decide

theorem ownSeq_parts {p : XsNode} {ks : List SObj} (h : ownSeq p = .ok ks) (o : SObj) :
    o ∈ ks ↔ ∃ n ∈ p.kids, IsPart n ∧ Keeps n o := by
  rw [ownSeq] at h
  cases he : (p.select s%"element").mapM parseElem with
  | error e => rw [he] at h; cases h
  | ok es =>
    rw [he] at h
    cases hg : (p.select s%"group").mapM parseGroup with
    | error e => rw [hg] at h; cases h
    | ok gs =>
      rw [hg] at h
      injection h with h
      subst h
      rw [List.mem_append, mapM_mem he, mapM_mem hg]
      simp only [XsNode.select, List.mem_filter]
      constructor
      · rintro (⟨n, ⟨h1, h2⟩, h3⟩ | ⟨n, ⟨h1, h2⟩, h3⟩)
        · exact ⟨n, h1, .inl h2, .inl ⟨h2, h3⟩⟩
        · exact ⟨n, h1, .inr h2, .inr ⟨h2, h3⟩⟩
      · rintro ⟨n, h1, _, ⟨h2, h3⟩ | ⟨h2, h3⟩⟩
        · exact .inl ⟨n, ⟨h1, h2⟩, h3⟩
        · exact .inr ⟨n, ⟨h1, h2⟩, h3⟩

theorem inParticle_flat {p n : XsNode} (h : particles p = []) :
    InParticle p n ↔ n ∈ p.kids ∧ IsPart n := by
  constructor
  · intro hi
    cases hi with
    | here h1 h2 => exact ⟨h1, h2⟩
    | deeper h1 _ => rw [h] at h1; cases h1
  · rintro ⟨h1, h2⟩; exact .here h1 h2

theorem seqs_parts {t : XsNode} (hf : FlatContent t) {ss : List (List SObj)}
    (h : (t.select s%"sequence").mapM ownSeq = .ok ss) (o : SObj) :
    o ∈ ss.flatten ↔ ∃ p ∈ particles t, ∃ n, InParticle p n ∧ Keeps n o := by
  rw [List.mem_flatten, hf.1]
  constructor
  · rintro ⟨ks, h1, h2⟩
    obtain ⟨p, h3, h4⟩ := (mapM_mem h ks).1 h1
    obtain ⟨n, h5, h6, h7⟩ := (ownSeq_parts h4 o).1 h2
    exact ⟨p, h3, n, .here h5 h6, h7⟩
  · rintro ⟨p, h3, n, h4, h5⟩
    obtain ⟨ks, h6⟩ := mapM_ok_iff.1 ⟨ss, h⟩ p h3
    rw [inParticle_flat (hf.2 p h3)] at h4
    exact ⟨ks, (mapM_mem h ks).2 ⟨p, h3, h6⟩, (ownSeq_parts h6 o).2 ⟨n, h4.1, h4.2, h5⟩⟩

theorem ownExtension_parts {s : Option (Dict (Option Str) SRef)} {e : XsNode} {ks : List SObj}
    (hf : FlatContent e) (hg : e.select s%"group" = []) (h : ownExtension s e = .ok ks) {o : SObj}
    (ho : o.kind ≠ .attribute) :
    o ∈ ks ↔ (∃ n, InContent e n ∧ Keeps n o) ∨
      ∃ b r, Dict.get? e.attrib s%"base" = some b ∧ refOf s (some (stripNs b)) = .ok r ∧
        o ∈ r.kids := by
  have hin : (∃ n, InContent e n ∧ Keeps n o) ↔
      ∃ p ∈ particles e, ∃ n, InParticle p n ∧ Keeps n o := by
    constructor
    · rintro ⟨n, h1 | ⟨p, h1, h2⟩, h3⟩
      · rw [hg] at h1; cases h1
      · exact ⟨p, h1, n, h2, h3⟩
    · rintro ⟨p, h1, n, h2, h3⟩
      exact ⟨n, .inr ⟨p, h1, h2⟩, h3⟩
  rw [hin]
  have hat : ∀ {as : List SObj}, (e.select s%"attribute").mapM parseAttr = .ok as → o ∉ as := by
    intro as ha hx
    obtain ⟨n, _, hn⟩ := (mapM_mem ha o).1 hx
    exact ho (parseAttr_kind hn)
  rw [ownExtension] at h
  cases hb : Dict.get? e.attrib s%"base" with
  | none =>
    rw [hb] at h
    simp only [bind, Except.bind] at h
    cases hs : (e.select s%"sequence").mapM ownSeq with
    | error x => rw [hs] at h; cases h
    | ok ss =>
      rw [hs] at h
      simp only [] at h
      cases ha : (e.select s%"attribute").mapM parseAttr with
      | error x => rw [ha] at h; cases h
      | ok as =>
        rw [ha] at h
        injection h with h
        subst h
        rw [List.nil_append, List.mem_append, seqs_parts hf hs]
        simp [hat ha]
  | some b =>
    rw [hb] at h
    simp only [] at h
    cases hr : refOf s (some (stripNs b)) with
    | error x => rw [hr] at h; cases h
    | ok r =>
      rw [hr] at h
      simp only [bind, Except.bind, Except.map] at h
      cases hs : (e.select s%"sequence").mapM ownSeq with
      | error x => rw [hs] at h; cases h
      | ok ss =>
        rw [hs] at h
        simp only [] at h
        cases ha : (e.select s%"attribute").mapM parseAttr with
        | error x => rw [ha] at h; cases h
        | ok as =>
          rw [ha] at h
          injection h with h
          subst h
          rw [List.mem_append, List.mem_append, seqs_parts hf hs]
          simp only [hat ha, or_false, Option.some.injEq, exists_and_left, exists_eq_left', hr,
            Except.ok.injEq]
          exact or_comm

/-- The parts among the children of a complex type. -/
theorem ownComplex_parts {s : Option (Dict (Option Str) SRef)} {t : XsNode} {ks : List SObj}
    (hsingle : ∀ c ∈ t.select s%"complexContent", ∃ e, c.select s%"extension" = [e])
    (hft : FlatContent t) (hfe : ∀ e, Extends t e → FlatContent e ∧ e.select s%"group" = [])
    (hags : ∀ g ∈ t.select s%"attributeGroup", ∀ x r, Dict.get? g.attrib s%"ref" = some x →
      refOf s (some (stripNs x)) = .ok r → ∀ o ∈ r.kids, o.kind = .attribute)
    (h : ownComplex s t = .ok ks) {o : SObj} (ho : o.kind ≠ .attribute) :
    o ∈ ks ↔ (∃ n, InContent t n ∧ Keeps n o) ∨
      ∃ e, Extends t e ∧ ((∃ n, InContent e n ∧ Keeps n o) ∨
        ∃ b r, Dict.get? e.attrib s%"base" = some b ∧ refOf s (some (stripNs b)) = .ok r ∧
          o ∈ r.kids) := by
  rw [ownComplex] at h
  simp only [bind, Except.bind] at h
  cases hs : (t.select s%"sequence").mapM ownSeq with
  | error x => rw [hs] at h; cases h
  | ok ss =>
    rw [hs] at h
    simp only [] at h
    cases hc : (t.select s%"complexContent").mapM (ownContent s) with
    | error x => rw [hc] at h; cases h
    | ok cs =>
      rw [hc] at h
      simp only [] at h
      cases hg : (t.select s%"group").mapM parseGroup with
      | error x => rw [hg] at h; cases h
      | ok gs =>
        rw [hg] at h
        simp only [] at h
        cases ha : (t.select s%"attribute").mapM parseAttr with
        | error x => rw [ha] at h; cases h
        | ok as =>
          rw [ha] at h
          simp only [] at h
          cases hga : (t.select s%"attributeGroup").mapM (ownAttrGroup s) with
          | error x => rw [hga] at h; cases h
          | ok gas =>
            rw [hga] at h
            injection h with h
            subst h
            have h1 : o ∉ as := fun hx => by
              obtain ⟨n, _, hn⟩ := (mapM_mem ha o).1 hx
              exact ho (parseAttr_kind hn)
            have h2 : o ∉ gas.flatten := fun hx => by
              obtain ⟨l, hl, hol⟩ := List.mem_flatten.1 hx
              obtain ⟨g, hgm, hgl⟩ := (mapM_mem hga l).1 hl
              rw [ownAttrGroup] at hgl
              cases hx : Dict.get? g.attrib s%"ref" with
              | none => rw [hx] at hgl; cases hgl
              | some x =>
                rw [hx] at hgl
                simp only [] at hgl
                cases hr : refOf s (some (stripNs x)) with
                | error z => rw [hr] at hgl; cases hgl
                | ok r =>
                  rw [hr] at hgl
                  injection hgl with hgl
                  exact ho (hags g hgm x r hx hr o (by rw [hgl]; exact hol))
            have h3 : o ∈ cs.flatten ↔ ∃ e, Extends t e ∧
                ((∃ n, InContent e n ∧ Keeps n o) ∨
                ∃ b r, Dict.get? e.attrib s%"base" = some b ∧
                  refOf s (some (stripNs b)) = .ok r ∧ o ∈ r.kids) := by
              rw [List.mem_flatten]
              constructor
              · rintro ⟨l, hl, hol⟩
                obtain ⟨c, hcm, hcl⟩ := (mapM_mem hc l).1 hl
                obtain ⟨x, rest, hk, hx, he⟩ := ownContent_eq hcl
                have hext : Extends t x := by
                  refine ⟨c, hcm, ?_⟩
                  rw [XsNode.select, hk]
                  exact List.mem_filter.2 ⟨List.mem_cons_self, hx⟩
                exact ⟨x, hext, (ownExtension_parts (hfe x hext).1 (hfe x hext).2 he ho).1 hol⟩
              · rintro ⟨e, hext, hor⟩
                obtain ⟨c, hcm, hec⟩ := hext
                obtain ⟨l, hcl⟩ := mapM_ok_iff.1 ⟨cs, hc⟩ c hcm
                obtain ⟨x, rest, hk, hx, he⟩ := ownContent_eq hcl
                obtain ⟨e', he'⟩ := hsingle c hcm
                have hxe := single_extension he' hk hx
                have hext : Extends t e := ⟨c, hcm, hec⟩
                rw [he'] at hec
                have hee : e = e' := List.mem_singleton.1 hec
                subst hee
                subst hxe
                exact ⟨l, (mapM_mem hc l).2 ⟨c, hcm, hcl⟩,
                  (ownExtension_parts (hfe x hext).1 (hfe x hext).2 he ho).2 hor⟩
            have h4 : (∃ n, InContent t n ∧ Keeps n o) ↔
                (∃ p ∈ particles t, ∃ n, InParticle p n ∧ Keeps n o) ∨ o ∈ gs := by
              rw [mapM_mem hg]
              constructor
              · rintro ⟨n, h5 | ⟨p, h5, h6⟩, h7⟩
                · have hn := (List.mem_filter.1 h5).2
                  rcases h7 with ⟨h8, _⟩ | ⟨_, h8⟩
                  · exfalso
                    cases n with
                    | comment => cases h8
                    | elem xs tg l a k =>
                      simp only [XsNode.isXs, Bool.and_eq_true, decide_eq_true_eq] at hn h8
                      exact absurd (hn.2.symm.trans h8.2) (by decide)
                  · exact .inr ⟨n, h5, h8⟩
                · exact .inl ⟨p, h5, n, h6, h7⟩
              · rintro (⟨p, h5, n, h6, h7⟩ | ⟨n, h5, h6⟩)
                · exact ⟨n, .inr ⟨p, h5, h6⟩, h7⟩
                · exact ⟨n, .inl h5, .inr ⟨(List.mem_filter.1 h5).2, h6⟩⟩
            rw [h4]
            simp only [List.mem_append, h1, h2, h3, seqs_parts hft hs, or_false]
            rw [or_right_comm]

section
variable {root : XsNode} (hp : PlainSchema root)
include hp

theorem partOf_iff {t : XsNode} {k : Str} (ht : t ∈ root.select s%"complexType")
    (hk : HasName t k) {n : XsNode} : PartOf root k n ↔
      InContent t n ∨ ∃ e, Extends t e ∧ (InContent e n ∨
        ∃ b, Dict.get? e.attrib s%"base" = some b ∧ PartOf root (stripNs b) n) := by
  constructor
  · intro h
    cases h with
    | own h1 h2 h3 => rw [type_unique hp h1 ht h2 hk] at h3; exact .inl h3
    | extension h1 h2 h3 h4 =>
      rw [type_unique hp h1 ht h2 hk] at h3
      exact .inr ⟨_, h3, .inl h4⟩
    | base h1 h2 h3 h4 h5 =>
      rw [type_unique hp h1 ht h2 hk] at h3
      exact .inr ⟨_, h3, .inr ⟨_, h4, h5⟩⟩
  · rintro (h | ⟨e, h1, h2 | ⟨b, h2, h3⟩⟩)
    · exact .own ht hk h
    · exact .extension ht hk h1 h2
    · exact .base ht hk h1 h2 h3

omit hp in
theorem partOf_named {k : Str} {n : XsNode} (h : PartOf root k n) :
    ∃ t ∈ root.select s%"complexType", HasName t k := by
  cases h <;> exact ⟨_, by assumption, by assumption⟩

end

/-- what is known about the section after some types -/
def RightParts (root : XsNode) (s : Option (Dict (Option Str) SRef)) : Prop :=
  ∀ k r, refOf s (some k) = .ok r →
    (∀ a ∈ root.select s%"attributeGroup", ¬ HasName a k) →
    (∀ g ∈ root.everywhere s%"group", ¬ HasName g k) → ∀ o, o.kind ≠ .attribute →
      (o ∈ r.kids ↔ ∃ n, PartOf root k n ∧ Keeps n o)

theorem rightParts_step {root t : XsNode} (hp : PlainSchema root) (hc : PlainContent root)
    {s : Option (Dict (Option Str) SRef)} (hr : Right root s) (hq : RightParts root s)
    (ht : t ∈ root.select s%"complexType") {x : Str} (hx : HasName t x)
    {ks : List SObj} (h : ownComplex s t = .ok ks) :
    RightParts root (noteIn s (some x) (.other ks)) := by
  intro k r h1 h2 h2' o ho
  rw [refOf_note] at h1
  split at h1
  · rename_i e
    injection e with e
    subst e
    injection h1 with h1
    subst h1
    have hb := hp.bases t ht
    have hs := hp.single t ht
    have hag : ∀ g ∈ t.select s%"attributeGroup", ∀ x r, Dict.get? g.attrib s%"ref" = some x →
        refOf s (some (stripNs x)) = .ok r → ∀ o ∈ r.kids, o.kind = .attribute := by
      intro g hg y r hy hr' o ho
      obtain ⟨a, ha, hak⟩ := hp.refs t ht g hg y hy
      obtain ⟨r', h7, h8⟩ := hr.group a ha _ hak
      rw [hr'] at h7
      injection h7 with h7
      subst h7
      obtain ⟨n, _, hn⟩ := (h8 o).1 ho
      exact parseAttr_kind hn
    change o ∈ ks ↔ _
    rw [ownComplex_parts hs (hc.types t ht) (hc.extensions t ht) hag h ho]
    constructor
    · rintro (⟨n, h3, h4⟩ | ⟨e, h3, ⟨n, h4, h5⟩ | ⟨b, r, h4, h5, h6⟩⟩)
      · exact ⟨n, .own ht hx h3, h4⟩
      · exact ⟨n, .extension ht hx h3 h4, h5⟩
      · obtain ⟨n, h7, h8⟩ := (hq _ r h5 (hb e h3 b h4) (hc.bases t ht e h3 b h4) o ho).1 h6
        exact ⟨n, .base ht hx h3 h4 h7, h8⟩
    · rintro ⟨n, h3, h4⟩
      rcases (partOf_iff hp ht hx).1 h3 with h5 | ⟨e, h5, h6 | ⟨b, h6, h7⟩⟩
      · exact .inl ⟨n, h5, h4⟩
      · exact .inr ⟨e, h5, .inl ⟨n, h6, h4⟩⟩
      · obtain ⟨r, h8⟩ := ownComplex_base hs h h5 h6
        exact .inr ⟨e, h5, .inr ⟨b, r, h6, h8,
          (hq _ r h8 (hb e h5 b h6) (hc.bases t ht e h5 b h6) o ho).2 ⟨n, h7, h4⟩⟩⟩
  · exact hq k r h1 h2 h2' o ho

theorem rightParts_types {root : XsNode} (hp : PlainSchema root) (hpc : PlainContent root) :
    ∀ {ns : List XsNode} {s s' : Option (Dict (Option Str) SRef)},
    (∀ t ∈ ns, t ∈ root.select s%"complexType") → Right root s → RightParts root s →
    ownComplexTypes ns s = .ok s' → RightParts root s'
  | [], s, s', _, _, hq, h => by
    injection h with h
    subst h
    exact hq
  | t :: ns, s, s', hns, hr, hq, h => by
    rw [ownComplexTypes] at h
    have hns' : ∀ u ∈ ns, u ∈ root.select s%"complexType" :=
      fun u hu => hns u (List.mem_cons_of_mem _ hu)
    cases hn : Dict.get? t.attrib s%"name" with
    | none =>
      rw [hn] at h
      exact rightParts_types hp hpc hns' hr hq h
    | some x =>
      rw [hn] at h
      simp only [] at h
      cases hc : ownComplex s t with
      | error e => rw [hc] at h; cases h
      | ok ks =>
        rw [hc] at h
        exact rightParts_types hp hpc hns' (right_step hp hr (hns t (by simp)) hn hc)
          (rightParts_step hp hpc hr hq (hns t (by simp)) hn hc) h

/-- **C106**, as far as it holds: in a schema as the code expects it, the elements and groups kept for a
complex type are those that XML Schema gives to it. -/
theorem type_parts_partial {int : Str → Option Int} {root : XsNode} {db : SchemaDb}
    (hd : DistinctLines root) (hp : PlainSchema root) (hpc : PlainContent root)
    (h : readSchema int root = .ok db)
    {t : XsNode} {k : Str} (ht : t ∈ root.select s%"complexType") (hk : HasName t k) :
    ∃ r, db.ref (some k) = .ok r ∧ ∀ o, o.kind ≠ .attribute →
      (o ∈ r.kids ↔ ∃ n, PartOf root k n ∧ Keeps n o) := by
  rcases readSchema_own int hd with ⟨e, h1, _⟩ | ⟨db', h1, h2, _⟩
  · rw [h] at h1; cases h1
  rw [h] at h1
  injection h1 with h1
  subst h1
  rw [ownSchema] at h2
  simp only [bind, Except.bind] at h2
  cases hs : simpleTypes int root with
  | error e => rw [hs] at h2; cases h2
  | ok simple =>
    rw [hs] at h2
    simp only [] at h2
    cases ha : (root.everywhere s%"attribute").mapM parseAttr with
    | error e => rw [ha] at h2; cases h2
    | ok as =>
      rw [ha] at h2
      simp only [] at h2
      cases hg : ownAttrGroups (root.select s%"attributeGroup") (startDb simple).schema with
      | error e => rw [hg] at h2; cases h2
      | ok s1 =>
        rw [hg] at h2
        simp only [] at h2
        cases he : (root.everywhere s%"element").mapM parseElem with
        | error e => rw [he] at h2; cases h2
        | ok es =>
          rw [he] at h2
          simp only [] at h2
          cases hn : ownGroups (root.everywhere s%"group") s1 with
          | error e => rw [hn] at h2; cases h2
          | ok s2 =>
            rw [hn] at h2
            simp only [] at h2
            cases hc : ownComplexTypes (root.select s%"complexType") s2 with
            | error e => rw [hc] at h2; cases h2
            | ok s3 =>
              rw [hc] at h2
              injection h2 with h2
              injection h2 with _ h2
              have hnd : ((root.select s%"attributeGroup").filterMap
                  fun n => Dict.get? n.attrib s%"name").Nodup := by
                refine hp.names.sublist (List.Sublist.filterMap _ ?_)
                rw [namedNodes, List.append_assoc, List.append_assoc]
                exact (List.sublist_append_left _ _).trans (List.sublist_append_right _ _)
              obtain ⟨h3, h4⟩ := ownAttrGroups_refs hg hnd
              have hright : Right root s2 := by
                constructor
                · intro a ha k hk
                  obtain ⟨ks, h5, h6⟩ := h3 a ha k hk
                  refine ⟨.other ks, ?_, fun o => mapM_mem h5 o⟩
                  rw [ownGroups_keep hn k, h6]
                  intro n hnm hnk
                  have hnames := hp.names
                  rw [namedNodes, List.filterMap_append] at hnames
                  exact filterMap_disjoint (List.Nodup.of_append_left hnames)
                    (List.mem_append_right _ ha) hnm hk hnk
                · intro k r h5 h6 o ho
                  have hno : ∀ n, OfType root k n → False := by
                    intro n hof
                    obtain ⟨t, ht, htk⟩ := ofType_named hof
                    rcases ownGroups_refs hn k r h5 with ⟨g, h7, h8, _⟩ | h7
                    · exact type_not_other hp ht (List.mem_append_right _ h7) htk h8
                    · rw [h4 k h6] at h7
                      have hkey : some k ∈ Dict.keys simple := by
                        rw [← startDb_names]
                        exact (ref_ok_iff (startDb simple) (some k)).1 ⟨r, h7⟩
                      obtain ⟨m, h8, h9⟩ := (simpleTypes_keys hs _).1 hkey
                      exact type_not_other hp ht
                        (List.mem_append_left _ (List.mem_append_left _ h8)) htk h9
                  constructor
                  · intro hor
                    rcases ownGroups_refs hn k r h5 with ⟨g, h7, h8, h9⟩ | h7
                    · rw [h9 o hor] at ho; cases ho
                    · rw [h4 k h6] at h7
                      rw [startDb_ref h7] at hor
                      cases hor
                  · rintro ⟨n, h7, _⟩
                    exact (hno n h7).elim
              have hq : RightParts root s2 := by
                intro k r h5 h6 h6' o ho
                have h7 : refOf s1 (some k) = .ok r := by
                  rw [← ownGroups_keep hn k h6']; exact h5
                rw [h4 k h6] at h7
                constructor
                · intro hor
                  rw [startDb_ref h7] at hor
                  cases hor
                · rintro ⟨n, hof, _⟩
                  obtain ⟨t, ht, htk⟩ := partOf_named hof
                  have hkey : some k ∈ Dict.keys simple := by
                    rw [← startDb_names]
                    exact (ref_ok_iff (startDb simple) (some k)).1 ⟨r, h7⟩
                  obtain ⟨m, h8, h9⟩ := (simpleTypes_keys hs _).1 hkey
                  exact (type_not_other hp ht
                    (List.mem_append_left _ (List.mem_append_left _ h8)) htk h9).elim
              obtain ⟨_, _, h6⟩ := right_types hp (fun t ht => ht) hright hc
              obtain ⟨r, h7⟩ := h6 t ht k hk
              refine ⟨r, by rw [ref_eq, ← h2]; exact h7,
                rightParts_types hp hpc (fun t ht => ht) hright hq hc k r h7 ?_ ?_⟩
              · intro a ha hak
                exact type_not_other hp ht (List.mem_append_left _ (List.mem_append_right _ ha))
                  hk hak
              · intro g hg hgk
                exact type_not_other hp ht (List.mem_append_right _ hg) hk hgk

/-! ## the shipped schema is of this kind -/

/-- `FlatContent`, to be computed -/
def flatPartsCheck (t : XsNode) : Bool :=
  (t.kids.all fun c => !(c.isXs s%"choice" || c.isXs s%"all")) &&
    (t.select s%"sequence").all fun p => (particles p).isEmpty

theorem flatPartsCheck_sound {t : XsNode} (h : flatPartsCheck t = true) : FlatContent t := by
  rw [flatPartsCheck, Bool.and_eq_true, List.all_eq_true, List.all_eq_true] at h
  refine ⟨?_, fun p hp => List.isEmpty_iff.1 (h.2 p hp)⟩
  refine List.filter_congr fun c hc => ?_
  have := h.1 c hc
  rw [Bool.not_eq_true'] at this
  rw [this, Bool.or_false]

/-- `PlainContent`, to be computed -/
def contentCheck (root : XsNode) : Bool :=
  let cts := root.select s%"complexType"
  let exts (t : XsNode) := (t.select s%"complexContent").flatMap (·.select s%"extension")
  (cts.all flatPartsCheck) &&
  (cts.all fun t => (exts t).all fun e => flatPartsCheck e && (e.select s%"group").isEmpty) &&
  (cts.all fun t => (exts t).all fun e => (Dict.get? e.attrib s%"base").all fun b =>
    (root.everywhere s%"group").all fun g => !(decide (Dict.get? g.attrib s%"name" = some (stripNs b))))

theorem contentCheck_sound {root : XsNode} (h : contentCheck root = true) : PlainContent root := by
  simp only [contentCheck, Bool.and_eq_true, List.all_eq_true, Option.all_eq_true,
    List.mem_flatMap, List.isEmpty_iff, Bool.not_eq_true', decide_eq_false_iff_not] at h
  obtain ⟨⟨h1, h2⟩, h3⟩ := h
  exact
    { types := fun t ht => flatPartsCheck_sound (h1 t ht)
      extensions := fun t ht e he => ⟨flatPartsCheck_sound (h2 t ht e he).1, (h2 t ht e he).2⟩
      bases := fun t ht e he b hb g hg => h3 t ht e he b hb g hg }

theorem nxdlXsd_content : PlainContent (nxdlXsd 705) := contentCheck_sound (by decide +kernel)

/-- The hypotheses are met by the shipped schema; its type of definitions has a part `symbols`. -/
example : ∃ db t r o, readSchema xsdInt (nxdlXsd 705) = .ok db ∧
    t ∈ (nxdlXsd 705).select s%"complexType" ∧ HasName t s%"definitionType" ∧
    db.ref (some s%"definitionType") = .ok r ∧ o ∈ r.kids ∧ o.name = some s%"symbols" ∧
    ∃ n, PartOf (nxdlXsd 705) s%"definitionType" n ∧ Keeps n o := by
  have ht : ((nxdlXsd 705).select s%"complexType").any
      (fun t => Dict.get? t.attrib s%"name" = some s%"definitionType") = true := by decide +kernel
  obtain ⟨t, h1, h2⟩ := List.any_eq_true.1 ht
  have h2 : Dict.get? t.attrib s%"name" = some s%"definitionType" := by simpa using h2
  have h : (match readSchema xsdInt (nxdlXsd 705) with
    | .ok db => match db.ref (some s%"definitionType") with
      | .ok r => r.kids.any fun o => decide (o.kind = .element ∧ o.name = some s%"symbols")
      | .error _ => false
    | .error _ => false) = true := by decide +kernel
  cases hr : readSchema xsdInt (nxdlXsd 705) with
  | error e => rw [hr] at h; cases h
  | ok db =>
    rw [hr] at h
    simp only [] at h
    obtain ⟨r, h3, h4⟩ := type_parts_partial nxdlXsd_distinct nxdlXsd_plain nxdlXsd_content hr h1 h2
    rw [h3] at h
    obtain ⟨o, h5, h6⟩ := List.any_eq_true.1 h
    have h6 := of_decide_eq_true h6
    exact ⟨db, t, r, o, rfl, h1, h2, h3, h5, h6.2,
      (h4 o (by rw [h6.1]; decide)).1 h5⟩

/-! ## what gets lost -/

/-- The parts of a type are in a choice. -/
def choicePartXsd : XsNode :=
  .elem true s%"schema" 1 [] [
    .elem true s%"complexType" 2 [(s%"name", s%"fieldType")] [
      .elem true s%"choice" 3 [] [
        .elem true s%"element" 4 [(s%"name", s%"dimensions")] []]]]

/-- C106 is false: only sequences are looked at. -/
theorem choice_lost :
    DistinctLines choicePartXsd ∧ PlainSchema choicePartXsd ∧
    (∃ n, PartOf choicePartXsd s%"fieldType" n ∧ HasName n s%"dimensions") ∧
    ∃ db, readSchema xsdInt choicePartXsd = .ok db ∧ db.ref (some s%"fieldType") = .ok (.other []) := by
  refine ⟨by unfold DistinctLines; decide +kernel, plainCheck_sound (by decide +kernel),
    ⟨.elem true s%"element" 4 [(s%"name", s%"dimensions")] [], ?_, rfl⟩, ⟨_, rfl, rfl⟩⟩
  exact .own (t := .elem true s%"complexType" 2 [(s%"name", s%"fieldType")] [
      .elem true s%"choice" 3 [] [
        .elem true s%"element" 4 [(s%"name", s%"dimensions")] []]])
    (by simp [choicePartXsd, XsNode.select, XsNode.kids, XsNode.isXs]) rfl
    (.inr ⟨.elem true s%"choice" 3 [] [.elem true s%"element" 4 [(s%"name", s%"dimensions")] []],
      by simp [particles, XsNode.kids, XsNode.isXs],
      .here (by simp [XsNode.kids]) (.inl (by simp [XsNode.isXs]))⟩)

/-- A sequence in a sequence. -/
def innerXsd : XsNode :=
  .elem true s%"schema" 1 [] [
    .elem true s%"complexType" 2 [(s%"name", s%"fieldType")] [
      .elem true s%"sequence" 3 [] [
        .elem true s%"sequence" 4 [] [
          .elem true s%"element" 5 [(s%"name", s%"dimensions")] []]]]]

/-- C106 is false: a sequence in a sequence is not looked at. -/
theorem inner_sequence_lost :
    DistinctLines innerXsd ∧ PlainSchema innerXsd ∧
    (∃ n, PartOf innerXsd s%"fieldType" n ∧ HasName n s%"dimensions") ∧
    ∃ db, readSchema xsdInt innerXsd = .ok db ∧ db.ref (some s%"fieldType") = .ok (.other []) := by
  refine ⟨by unfold DistinctLines; decide +kernel, plainCheck_sound (by decide +kernel),
    ⟨.elem true s%"element" 5 [(s%"name", s%"dimensions")] [], ?_, rfl⟩, ⟨_, rfl, rfl⟩⟩
  exact .own (t := .elem true s%"complexType" 2 [(s%"name", s%"fieldType")] [
      .elem true s%"sequence" 3 [] [
        .elem true s%"sequence" 4 [] [
          .elem true s%"element" 5 [(s%"name", s%"dimensions")] []]]])
    (by simp [innerXsd, XsNode.select, XsNode.kids, XsNode.isXs]) rfl
    (.inr ⟨.elem true s%"sequence" 3 [] [
        .elem true s%"sequence" 4 [] [
          .elem true s%"element" 5 [(s%"name", s%"dimensions")] []]],
      by simp [particles, XsNode.kids, XsNode.isXs],
      .deeper (q := .elem true s%"sequence" 4 [] [
          .elem true s%"element" 5 [(s%"name", s%"dimensions")] []])
        (by simp [particles, XsNode.kids, XsNode.isXs])
        (.here (by simp [XsNode.kids]) (.inl (by simp [XsNode.isXs])))⟩)

/-- An element with a type that is written in it: `dim` with its attribute is found. -/
example : ∃ o, parseElem (.elem true s%"element" 1 [(s%"name", s%"dimensions")] [
      .elem true s%"complexType" 2 [] [
        .elem true s%"sequence" 3 [] [.elem true s%"element" 4 [(s%"name", s%"dim")] []],
        .elem true s%"attribute" 5 [(s%"name", s%"rank")] []]]) = .ok o ∧
    o.kids.map (·.name) = [some s%"dim", some s%"rank"] := ⟨_, rfl, rfl⟩

end Punx

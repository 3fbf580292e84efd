import Verif.Spec.TreeStored
import Verif.Props.Stored
import Verif.Props.H5Tree

/-!
# C151: how texts are stored, and the tree report
-/

namespace Punx
open Spec

private theorem decodeAll_array {bs : List (List UInt8)} : {ss : List Str} →
    bs.map asciiDecode = ss.map some → decodeAll asciiDecode bs = some ss := by
  induction bs with
  | nil =>
    intro ss h
    cases ss with
    | nil => rfl
    | cons => cases h
  | cons b bs ih =>
    intro ss h
    cases ss with
    | nil => cases h
    | cons s ss =>
      rw [List.map_cons, List.map_cons, List.cons.injEq] at h
      rw [decodeAll, h.1, ih h.2]

private theorem textOf_decoded {env : Env} {v : Val} {s : Str} (h : TextOf env v s) :
    decodeByteString env v = .ok (.str s) := by
  rcases h with rfl | ⟨b, rfl, h⟩
  · rfl
  · rw [decodeByteString, h]

private theorem arrayOf_decoded {env : Env} {v : Val} {ss : List Str} (h : ArrayOf v ss) :
    decodeByteString env v = decodeByteString env (.arrO ss) := by
  rcases h with rfl | ⟨bs, rfl, h⟩
  · rfl
  · have hl : bs.length = ss.length := by simpa using congrArg List.length h
    rw [decodeByteString, decodeByteString, decodeAll_array h, hl]

/-- The same texts give the same decoded value. -/
private theorem decode_same {env : Env} {v v' : Val} (h : SameText env v v') :
    decodeByteString env v = decodeByteString env v' := by
  cases h with
  | same => rfl
  | text h h' => rw [textOf_decoded h, textOf_decoded h']
  | array h h' => rw [arrayOf_decoded h, arrayOf_decoded h']

private theorem lookup_cases {env : Env} {a a' : List (Str × Val)}
    (h : AlikeAttrs env (fun _ => False) a a') (k : Str) :
    (a.lookup k = none ∧ a'.lookup k = none) ∨
      ∃ v v', a.lookup k = some v ∧ a'.lookup k = some v' ∧ SameText env v v' := by
  induction h with
  | nil => exact .inl ⟨rfl, rfl⟩
  | @cons x y xs ys hxy _ ih =>
    obtain ⟨k1, v1⟩ := x
    obtain ⟨k2, v2⟩ := y
    obtain ⟨e, hs, -⟩ := hxy
    cases e
    rw [List.lookup_cons, List.lookup_cons]
    cases k == k1 with
    | true => exact .inr ⟨v1, v2, rfl, rfl, hs⟩
    | false => exact ih

private theorem attrs_same {c : TreeCfg} {indent : Str} {a a' extra : List (Str × Val)}
    (h : AlikeAttrs c.env (fun _ => False) a a') :
    renderAttrs c indent a extra = renderAttrs c indent a' extra := by
  rw [renderAttrs, renderAttrs]
  congr 1
  have hm : ∀ {l l' : List (Str × Val)}, List.Forall₂ (fun x y => x.1 = y.1 ∧
      decodeByteString c.env x.2 = decodeByteString c.env y.2) l l' →
      mapE (fun a => renderAttr c.env indent a.1 a.2) l =
        mapE (fun a => renderAttr c.env indent a.1 a.2) l' := by
    intro l l' hl
    induction hl with
    | nil => rfl
    | cons hxy _ ih => rw [mapE, mapE, ih, renderAttr, renderAttr, hxy.1, hxy.2]
  refine hm (List.rel_append (h.imp fun x y e => ⟨e.1, decode_same e.2.1⟩) ?_)
  exact List.forall₂_same.2 fun _ _ => ⟨rfl, rfl⟩

private theorem array_first {env : Env} (ha : ReadsAscii env) {v : Val} {s : Str} {ss : List Str}
    (h : ArrayOf v (s :: ss)) : v = .arrO (s :: ss) ∨
      ∃ b bs, v = .arrS (b :: bs) ∧ env.dec b = some s := by
  rcases h with rfl | ⟨bs, rfl, h⟩
  · exact .inl rfl
  · cases bs with
    | nil => cases h
    | cons b bs =>
      rw [List.map_cons, List.map_cons, List.cons.injEq] at h
      exact .inr ⟨b, bs, rfl, ha _ _ h.1⟩

private theorem array_none {v : Val} (h : ArrayOf v []) : v = .arrO [] ∨ v = .arrS [] := by
  rcases h with rfl | ⟨bs, rfl, h⟩
  · exact .inl rfl
  · cases bs with
    | nil => exact .inr rfl
    | cons => cases h

private theorem class_same {env : Env} (ha : ReadsAscii env) {a a' : List (Str × Val)}
    (h : AlikeAttrs env (fun _ => False) a a') (hc : ClassNotEmpty env a) :
    nxClassText env a = nxClassText env a' := by
  rw [nxClassText, nxClassText, attrGet_eq, attrGet_eq]
  rcases lookup_cases h s%"NX_class" with ⟨e, e'⟩ | ⟨v, v', e, e', hs⟩
  · rw [e, e']
  · have hn := hc v e
    rw [e, e']
    rcases hs with _ | @⟨_, s, h, h'⟩ | @⟨_, ss, h, h'⟩
    · rfl
    · have hne : s ≠ [] := fun x => hn (x ▸ h)
      have dec0 : env.dec [] = some [] := ha [] [] rfl
      have one : ∀ {v : Val}, TextOf env v s → (match some v with
          | none => (.ok [] : Except PyErr Str)
          | some (.str s) => if s.length > 0 then .ok (':' :: s) else .ok []
          | some (.bytes b) => if b.length > 0 then (match decodeByteString env (.bytes b) with
              | .error e => .error e
              | .ok (.str s) => .ok (':' :: s)
              | .ok _ => .error .typeError) else .error .typeError
          | some (.arrO (x :: _)) => (match decodeByteString env (.str x) with
              | .error e => .error e
              | .ok (.str s) => .ok (':' :: s)
              | .ok _ => .error .typeError)
          | some (.arrS (x :: _)) => (match decodeByteString env (.bytes x) with
              | .error e => .error e
              | .ok (.str s) => .ok (':' :: s)
              | .ok _ => .error .typeError)
          | some _ => .error .typeError) = .ok (':' :: s) := by
        rintro v (rfl | ⟨b, rfl, hb⟩)
        · simp [List.length_pos_iff.2 hne]
        · have : b ≠ [] := by
            rintro rfl
            rw [dec0] at hb
            cases hb
            exact hne rfl
          simp [List.length_pos_iff.2 this, decodeByteString, hb]
      exact (one h).trans (one h').symm
    · cases ss with
      | nil =>
        rcases array_none h with rfl | rfl <;> rcases array_none h' with rfl | rfl <;> rfl
      | cons s ss =>
        rcases array_first ha h with rfl | ⟨b, bs, rfl, hb⟩ <;>
          rcases array_first ha h' with e1 | ⟨b', bs', e1, hb'⟩ <;> subst e1 <;>
          simp_all [decodeByteString]

private theorem link_same {env : Env} {oname : Str} {a a' : List (Str × Val)}
    (h : AlikeAttrs env (fun _ => False) a a') :
    isNeXusLink env a oname = isNeXusLink env a' oname := by
  rw [isNeXusLink, isNeXusLink, attrGet_eq, attrGet_eq]
  rcases lookup_cases h s%"target" with ⟨e, e'⟩ | ⟨v, v', e, e', hs⟩
  · rw [e, e']
  · rw [e, e', Option.getD_some, Option.getD_some, decode_same hs]

private theorem linked_same {c : TreeCfg} {name indent : Str} {a a' : List (Str × Val)}
    (h : AlikeAttrs c.env (fun _ => False) a a') :
    renderLinked c a name indent = renderLinked c a' name indent := by
  rw [renderLinked, renderLinked, attrGet_eq, attrGet_eq]
  rcases lookup_cases h s%"target" with ⟨e, e'⟩ | ⟨v, v', e, e', hs⟩
  · rw [e, e']
  · rw [e, e']
    dsimp only
    rw [decode_same hs]

private theorem asLink_same {c : TreeCfg} {oname : Str} {a a' : List (Str × Val)}
    (h : AlikeAttrs c.env (fun _ => False) a a') :
    renderAsLink c oname a = renderAsLink c oname a' := by
  rw [renderAsLink, renderAsLink, attrGet_eq, attrGet_eq]
  rcases lookup_cases h s%"target" with ⟨e, e'⟩ | ⟨v, v', e, e', hs⟩
  · rw [e, e']
  · rw [e, e']
    dsimp only
    rw [decode_same hs]

mutual
private theorem member_same {c : TreeCfg} (ha : ReadsAscii c.env) {link : Str} {k : LinkKind}
    {indent : Str} : {n n' : Node} → TextsAlike c.env n n' →
    renderMember c link k indent n = renderMember c link k indent n'
  | _, _, .dataset h => by
    rw [renderMember, renderMember, link_same h, linked_same h, renderDataset, renderDataset,
      asLink_same h, linked_same h, attrs_same h]
  | _, _, .datatype h => by
    rw [renderMember, renderMember, link_same h, linked_same h]
  | _, _, .group h hc hk => by
    rw [renderMember, renderMember, link_same h, linked_same h, renderHead, renderHead,
      class_same ha h hc, attrs_same h, members_same ha hk]
private theorem members_same {c : TreeCfg} (ha : ReadsAscii c.env) {indent : Str} :
    {ks ks' : Kids} → TextsAlikeKids c.env ks ks' →
    renderMembers c indent ks = renderMembers c indent ks'
  | _, _, .nil => rfl
  | _, _, .cons h k => by
    rw [renderMembers, renderMembers, member_same ha h, members_same ha k]
  | _, _, .broken k => by
    rw [renderMembers, renderMembers, members_same ha k]
end

private theorem group_same {env : Env} (ha : ReadsAscii env) {n n' : Node} {s : Str}
    (h : TextsAlike env n n') : isNeXusGroup env n s = isNeXusGroup env n' s := by
  cases h with
  | dataset => rfl
  | datatype => rfl
  | group h _ _ =>
    rw [isNeXusGroup, isNeXusGroup, attrGet_eq, attrGet_eq]
    rcases lookup_cases h s%"NX_class" with ⟨e, e'⟩ | ⟨v, v', e, e', hs⟩
    · rw [e, e']
    · rw [e, e']
      rcases hs with _ | @⟨_, s, h, h'⟩ | @⟨_, ss, h, h'⟩
      · rfl
      · rcases h with rfl | ⟨b, rfl, hb⟩ <;> rcases h' with rfl | ⟨b', rfl, hb'⟩ <;>
          simp_all [decodeByteString, bind, Except.bind]
      · cases ss with
        | nil =>
          rcases array_none h with rfl | rfl <;> rcases array_none h' with rfl | rfl <;> rfl
        | cons s ss =>
          rcases array_first ha h with rfl | ⟨b, bs, rfl, hb⟩ <;>
            rcases array_first ha h' with e1 | ⟨b', bs', e1, hb'⟩ <;> subst e1 <;>
            simp_all [decodeByteString, bind, Except.bind]

private theorem loop_same {env : Env} (ha : ReadsAscii env) : {ks ks' : Kids} →
    TextsAlikeKids env ks ks' → isNeXusFileLoop env ks.toList = isNeXusFileLoop env ks'.toList
  | _, _, .nil => rfl
  | _, _, .cons h k => by
    rw [Kids.toList, Kids.toList, isNeXusFileLoop, isNeXusFileLoop, group_same ha h,
      loop_same ha k]
  | _, _, .broken k => by
    rw [Kids.toList, Kids.toList, isNeXusFileLoop, isNeXusFileLoop, loop_same ha k]

/-- **C151**: files that store the texts in their attributes in different ways (with fixed or
variable length, one text or arrays of texts) have the same tree report, or end it with the same
exception, if classes are not empty texts. -/
theorem tree_stored_partial {env : Env} {shown : Int} {sa : Bool} {fname : Str} {f f' : H5File}
    (ha : ReadsAscii env) (h : TextsAlikeFile env f f') :
    treeReport env shown sa fname (.hdf5 f) = treeReport env shown sa fname (.hdf5 f') := by
  have e1 : isNeXusFile env (.hdf5 f) = isNeXusFile env (.hdf5 f') := by
    rw [isNeXusFile, isNeXusFile, loop_same ha h.kids]
  have e2 : ∀ b, renderFile ⟨env, b, sa, shown⟩ fname f = renderFile ⟨env, b, sa, shown⟩ fname f' := by
    intro b
    rw [renderFile, renderFile, renderHead, renderHead, class_same ha h.attrs h.cls,
      attrs_same (c := ⟨env, b, sa, shown⟩) h.attrs,
      members_same (c := ⟨env, b, sa, shown⟩) ha h.kids]
  rw [treeReport, treeReport, e1]
  simp only [e2]

end Punx

import Verif.Props.SchemaManager

/-!
# C82: groups are described once in a process
-/

namespace Punx
open Spec

theorem mem_set_cases {κ β : Type} [DecidableEq κ] : ∀ {d : Dict κ β} {x : κ} {v : β} {kv : κ × β},
    kv ∈ Dict.set d x v → kv = (x, v) ∨ kv ∈ d
  | [], x, v, kv, h => by
    rw [Dict.set] at h
    exact .inl (List.mem_singleton.1 h)
  | (y, w) :: d, x, v, kv, h => by
    rw [Dict.set] at h
    split at h
    · rename_i e
      rcases List.mem_cons.1 h with h | h
      · exact .inl h
      · exact .inr (List.mem_cons_of_mem _ h)
    · rcases List.mem_cons.1 h with h | h
      · exact .inr (h ▸ List.mem_cons_self)
      · rcases mem_set_cases h with h | h
        · exact .inl h
        · exact .inr (List.mem_cons_of_mem _ h)

theorem mem_putAll {κ β : Type} [DecidableEq κ] : ∀ {d t : Dict κ β} {kv : κ × β},
    kv ∈ Dict.putAll d t → kv ∈ d ∨ kv ∈ t
  | [], _, _, h => .inr h
  | x :: d, t, kv, h => by
    rcases mem_putAll (d := d) (t := Dict.set t x.1 x.2) h with h | h
    · exact .inl (List.mem_cons_of_mem _ h)
    · rcases mem_set_cases h with h | h
      · exact .inl (h ▸ List.mem_cons_self)
      · exact .inr h

/-- all group elements in the entries are hollow -/
def AllHollow (d : Dict (Option Str) MElem) : Prop :=
  ∀ kc ∈ d, ∀ e, Within kc.2 e → Hollow e

theorem allHollow_nil : AllHollow [] := fun _ h => by cases h

theorem allHollow_set {d : Dict (Option Str) MElem} (h : AllHollow d) {x : Option Str} {c : MElem}
    (hc : ∀ e, Within c e → Hollow e) : AllHollow (Dict.set d x c) := by
  intro kc hk
  rcases mem_set_cases hk with rfl | hk
  · exact hc
  · exact h kc hk

theorem allHollow_putAll {d t : Dict (Option Str) MElem} (hd : AllHollow d) (ht : AllHollow t) :
    AllHollow (Dict.putAll d t) := by
  intro kc hk
  rcases mem_putAll hk with hk | hk
  · exact hd kc hk
  · exact ht kc hk

/-- If `started` is set, it stays set, and the result has the property. -/
def Keeps {α : Type} (Q : α → Prop) (m : Mut Bool α) : Prop :=
  (m true).2 = true ∧ ∀ a, (m true).1 = .ok a → Q a

section
variable {α β : Type} {Q : α → Prop} {R : β → Prop}

theorem keeps_pure {a : α} (h : Q a) : Keeps Q (pure a : Mut Bool α) :=
  ⟨rfl, fun b hb => by injection hb with hb; exact hb ▸ h⟩

theorem keeps_fail (e : PyErr) : Keeps Q (Mut.fail e : Mut Bool α) := ⟨rfl, fun _ hb => by cases hb⟩

theorem keeps_lift {x : Except PyErr α} (h : ∀ a, x = .ok a → Q a) :
    Keeps Q (Mut.lift x : Mut Bool α) := ⟨rfl, h⟩

theorem keeps_bind {m : Mut Bool α} {f : α → Mut Bool β} (hm : Keeps Q m)
    (hf : ∀ a, Q a → Keeps R (f a)) : Keeps R (m >>= f) := by
  obtain ⟨h1, h2⟩ := hm
  rw [Keeps, Mut.bind_run]
  generalize m true = r at *
  obtain ⟨x, s⟩ := r
  simp only at h1
  subst h1
  cases x with
  | error e => exact ⟨rfl, fun _ hb => by cases hb⟩
  | ok a => exact hf a (h2 a rfl)

theorem keeps_fold {f : α → β → Mut Bool α} (hf : ∀ a b, Q a → Keeps Q (f a b)) :
    ∀ (l : List β) (a : α), Q a → Keeps Q (Mut.fold f l a)
  | [], _, h => keeps_pure h
  | b :: l, a, h => keeps_bind (hf a b h) fun a' h' => keeps_fold hf l a' h'
end

/-- hollow children -/
abbrev HollowParts (p : Parts) : Prop := AllHollow p.children

theorem within_recursion {e : MElem} (h : Within .recursion e) : e = .recursion := by
  cases h with
  | self => rfl
  | child h _ => cases h

theorem keeps_readElem {ty : Option Str → Mut Bool Parts} (hty : ∀ r, Keeps HollowParts (ty r))
    (n : XsNode) : Keeps (fun c => ∀ e, Within c e → Hollow e) (readElem ty n) := by
  unfold readElem
  split
  · refine keeps_bind (Q := fun _ => True) (keeps_lift fun _ _ => trivial) fun d _ => keeps_pure ?_
    intro e he
    cases he with
    | self => intro a c h; injection h with _ h; cases h
    | child h _ => cases h
  · exact keeps_fail _
  · rename_i ref x _ _
    split
    · refine ⟨rfl, ?_⟩
      intro c hc
      rw [groupElem, if_pos rfl] at hc
      injection hc with hc
      subst hc
      intro e he
      cases he with
      | self =>
        intro a c h
        injection h with _ _ h1 h2
        exact ⟨h1.symm, h2.symm⟩
      | child h h' =>
        simp only [MElem.children, List.mem_singleton] at h
        injection h with _ h
        subst h
        rw [within_recursion h']
        intro a c h
        cases h
    · rename_i hx
      unfold typedElem
      refine keeps_bind (hty _) fun p hp => keeps_pure ?_
      intro e he
      cases he with
      | self =>
        intro a c h
        injection h with h1 h2
        injection h1 with h1
        injection h2 with h2
        exact absurd ⟨h1, h2⟩ hx
      | child h h' => exact allHollow_putAll hp allHollow_nil _ h _ h'

theorem keeps_readSeqItem {ty : Option Str → Mut Bool Parts} (hty : ∀ r, Keeps HollowParts (ty r))
    (p : Parts) (n : XsNode) (hp : HollowParts p) : Keeps HollowParts (readSeqItem ty p n) := by
  unfold readSeqItem
  split
  · exact keeps_fail _
  · split
    · exact keeps_bind (keeps_readElem hty _) fun o ho => keeps_pure (allHollow_set hp ho)
    · split
      · exact keeps_pure hp
      · exact keeps_fail _

theorem addAttr_children {p q : Parts} {n : XsNode} (h : addAttr p n = .ok q) :
    q.children = p.children := by
  rw [addAttr] at h
  cases hr : readAttr n with
  | error e => rw [hr] at h; cases h
  | ok a => rw [hr] at h; injection h with h; rw [← h]

theorem keeps_readExtItem {ty : Option Str → Mut Bool Parts} (hty : ∀ r, Keeps HollowParts (ty r))
    (p : Parts) (n : XsNode) (hp : HollowParts p) : Keeps HollowParts (readExtItem ty p n) := by
  unfold readExtItem
  split
  · exact keeps_fail _
  · split
    · exact keeps_pure hp
    · split
      · exact keeps_lift fun q hq => by rw [HollowParts, addAttr_children hq]; exact hp
      · split
        · exact keeps_fold (keeps_readSeqItem hty) _ _ hp
        · exact keeps_fail _

theorem keeps_readContentItem {ty : Option Str → Mut Bool Parts}
    (hty : ∀ r, Keeps HollowParts (ty r)) (p : Parts) (n : XsNode) (hp : HollowParts p) :
    Keeps HollowParts (readContentItem ty p n) := by
  unfold readContentItem
  split
  · exact keeps_fail _
  · split
    · split
      · exact keeps_fail _
      · split
        · exact keeps_bind (hty _) fun q hq =>
            keeps_fold (keeps_readExtItem hty) _ _ (allHollow_putAll hq hp)
        · exact keeps_fail _
    · exact keeps_fail _

theorem keeps_readTypeItem {ty : Option Str → Mut Bool Parts} (hty : ∀ r, Keeps HollowParts (ty r))
    (p : Parts) (n : XsNode) (hp : HollowParts p) : Keeps HollowParts (readTypeItem ty p n) := by
  unfold readTypeItem
  split
  · exact keeps_pure hp
  · split
    · exact keeps_pure hp
    · split
      · exact keeps_lift fun q hq => by rw [HollowParts, addAttr_children hq]; exact hp
      · split
        · exact keeps_bind (hty _) fun q hq => keeps_pure (allHollow_putAll hq hp)
        · split
          · exact keeps_fold (keeps_readContentItem hty) _ _ hp
          · split
            · exact keeps_fold (keeps_readSeqItem hty) _ _ hp
            · exact keeps_fail _

theorem keeps_readTypeOf (root : XsNode) : ∀ fuel ref, Keeps HollowParts (readTypeOf root fuel ref)
  | 0, _ => by unfold readTypeOf; exact keeps_fail _
  | _ + 1, none => by unfold readTypeOf; exact keeps_fail _
  | fuel + 1, some ref => by
    unfold readTypeOf
    exact keeps_bind (Q := fun _ => True) (keeps_lift fun _ _ => trivial) fun n _ =>
      keeps_fold (keeps_readTypeItem (keeps_readTypeOf root fuel)) _ _ allHollow_nil

/-- the same for the shared objects, however the computation ends -/
def KeepsShared {α : Type} (m : Mut Shared α) : Prop :=
  ∀ s : Shared, s.started = true → HollowParts s.parts →
    (m s).2.started = true ∧ HollowParts (m s).2.parts

section
variable {α β : Type}

theorem shared_pure (a : α) : KeepsShared (pure a : Mut Shared α) := fun _ h1 h2 => ⟨h1, h2⟩
theorem shared_fail (e : PyErr) : KeepsShared (Mut.fail e : Mut Shared α) := fun _ h1 h2 => ⟨h1, h2⟩
theorem shared_lift (x : Except PyErr α) : KeepsShared (Mut.lift x : Mut Shared α) :=
  fun _ h1 h2 => ⟨h1, h2⟩

theorem shared_bind {m : Mut Shared α} {f : α → Mut Shared β} (hm : KeepsShared m)
    (hf : ∀ a, KeepsShared (f a)) : KeepsShared (m >>= f) := by
  intro s h1 h2
  obtain ⟨h3, h4⟩ := hm s h1 h2
  rw [Mut.bind_run]
  generalize m s = r at *
  obtain ⟨x, t⟩ := r
  cases x with
  | error e => exact ⟨h3, h4⟩
  | ok a => exact hf a t h3 h4

theorem shared_fold {f : α → β → Mut Shared α} (hf : ∀ a b, KeepsShared (f a b)) :
    ∀ (l : List β) (a : α), KeepsShared (Mut.fold f l a)
  | [], a => shared_pure a
  | b :: l, a => shared_bind (hf a b) fun a' => shared_fold hf l a'

theorem shared_started {Q : α → Prop} {m : Mut Bool α} {f : α → Parts → Parts} (hm : Keeps Q m)
    (hf : ∀ a, Q a → ∀ p, HollowParts p → HollowParts (f a p)) :
    KeepsShared (onStarted m >>= fun a => onParts (f a)) := by
  intro s h1 h2
  rw [Mut.bind_run]
  simp only [onStarted, h1]
  obtain ⟨h3, h4⟩ := hm
  generalize m true = r at *
  obtain ⟨x, t⟩ := r
  cases x with
  | error e => exact ⟨h3, h2⟩
  | ok a => exact ⟨h3, hf a (h4 a rfl) _ h2⟩
end

theorem shared_rootSeqItem {ty : Option Str → Mut Bool Parts} (hty : ∀ r, Keeps HollowParts (ty r))
    (n : XsNode) : KeepsShared (rootSeqItem ty n) := by
  unfold rootSeqItem
  split
  · exact shared_fail _
  · split
    · exact shared_started (keeps_readElem hty _) fun o ho p hp => allHollow_set hp ho
    · split
      · exact shared_started (hty _) fun q hq p hp => allHollow_putAll hq hp
      · exact shared_fail _

theorem shared_rootItem {ty : Option Str → Mut Bool Parts} (hty : ∀ r, Keeps HollowParts (ty r))
    (n : XsNode) : KeepsShared (rootItem' ty n) := by
  unfold rootItem'
  split
  · exact shared_fail _
  · split
    · exact shared_bind (shared_lift _) fun a _ h1 h2 => ⟨h1, h2⟩
    · split
      · exact shared_started (hty _) fun q hq p hp => allHollow_putAll hq hp
      · split
        · exact shared_fold (fun _ m => shared_rootSeqItem hty m) _ _
        · split
          · exact shared_pure _
          · exact shared_fail _

theorem shared_newManager (fuel : Nat) (int : Str → Option Int) (valid : XsNode → Option XsNode → Bool)
    (xsd types : Option XsNode) : KeepsShared (newManager fuel int valid xsd types) := by
  unfold newManager
  split
  · exact shared_fail _
  · split
    · split
      · refine shared_bind ?_ fun _ => shared_bind (shared_lift _) fun _ =>
          shared_bind (shared_lift _) fun _ => shared_pure _
        unfold readRoot
        split
        · exact shared_fail _
        · split
          · exact shared_fold (fun _ k => shared_rootItem (keeps_readTypeOf _ fuel) k) _ _
          · exact shared_fail _
      · exact shared_fail _
    · exact shared_fail _

/-- C82: once a group element was met in a process, all schema managers created later read nothing
about group elements, wherever these occur in the schema. -/
theorem groups_once (fuel : Nat) (int : Str → Option Int) (valid : XsNode → Option XsNode → Bool)
    (before : List Load) (l : Load)
    (h : (afterLoads fuel int valid before {}).started = true) :
    (∀ k c, Dict.get? (ownParts fuel int valid before l).children k = some c →
      ∀ e, Within c e → Hollow e) ∧
    (afterLoads fuel int valid (before ++ [l]) {}).started = true := by
  constructor
  · intro k c hk
    have := shared_newManager fuel int valid l.xsd l.types
      ⟨(afterLoads fuel int valid before {}).started, {}⟩ h allHollow_nil
    exact this.2 _ (Dict.mem_of_get? hk)
  · rw [afterLoads_append]
    rw [afterLoads, afterLoads]
    have := (manager_adds fuel int valid l (afterLoads fuel int valid before {}).started
      (afterLoads fuel int valid before {}).parts).2.1
    refine this.trans ?_
    exact (shared_newManager fuel int valid l.xsd l.types
      ⟨(afterLoads fuel int valid before {}).started, {}⟩ h allHollow_nil).1

/-! ## what goes wrong -/

/-- A part of the shipped `nxdlTypes.xsd`. -/
def nxTypesXsd : XsNode :=
  .elem true s%"schema" 1 [] [
    .elem true s%"simpleType" 2 [(s%"name", s%"anyUnitsAttr")] [
      .elem true s%"union" 3 [(s%"memberTypes", s%"nxdl:NX_ANGLE nxdl:NX_ANY")] []],
    .elem true s%"simpleType" 5 [(s%"name", s%"primitiveType")] [
      .elem true s%"list" 6 [(s%"itemType", s%"nxdl:NAPI")] []],
    .elem true s%"simpleType" 8 [(s%"name", s%"NX_ANGLE")] [
      .elem true s%"restriction" 9 [(s%"base", s%"xs:string")] []]]

/-- The parts of the shipped `nxdl.xsd` that concern groups. -/
def groupXsd : XsNode :=
  .elem true s%"schema" 1 [] [
    .elem true s%"element" 2 [(s%"name", s%"definition"), (s%"type", s%"nx:definitionType")] [],
    .elem true s%"complexType" 3 [(s%"name", s%"definitionType")] [
      .elem true s%"sequence" 4 [] [
        .elem true s%"group" 5 [(s%"ref", s%"nx:groupGroup")] []],
      .elem true s%"attribute" 7 [(s%"name", s%"category")] []],
    .elem true s%"complexType" 9 [(s%"name", s%"groupType")] [
      .elem true s%"group" 10 [(s%"ref", s%"nx:groupGroup")] [],
      .elem true s%"attribute" 11 [(s%"name", s%"type"), (s%"use", s%"required")] []],
    .elem true s%"group" 13 [(s%"name", s%"groupGroup")] [
      .elem true s%"sequence" 14 [] [
        .elem true s%"element" 15 [(s%"name", s%"group"), (s%"type", s%"nx:groupType")] []]]]

/-- Reading them. -/
def groupLoad : Load := ⟨some groupXsd, some nxTypesXsd⟩

/-- C82 is false: after the same schema was read a second time in a process, for instance for the
next file set, the description of group elements is lost also for the first schema manager. -/
theorem second_manager_spoils :
    ((Dict.get? (afterLoads 20 xsdInt (fun _ _ => true) [groupLoad] {}).parts.children
      (some s%"group")).map fun g => (Dict.keys g.attrs, Dict.keys g.children)) =
        some ([some s%"type"], [some s%"group"]) ∧
    ((Dict.get? (afterLoads 20 xsdInt (fun _ _ => true) [groupLoad, groupLoad] {}).parts.children
      (some s%"group")).map fun g => (Dict.keys g.attrs, Dict.keys g.children)) =
        some ([], [some s%"group"]) := by
  decide +kernel

/-- The same schema with one more attribute of definitions. -/
def olderXsd : XsNode :=
  .elem true s%"schema" 1 [] [
    .elem true s%"element" 2 [(s%"name", s%"definition"), (s%"type", s%"nx:definitionType")] [],
    .elem true s%"complexType" 3 [(s%"name", s%"definitionType")] [
      .elem true s%"attribute" 7 [(s%"name", s%"category")] [],
      .elem true s%"attribute" 8 [(s%"name", s%"svnid")] []]]

/-- Reading it. -/
def olderLoad : Load := ⟨some olderXsd, some nxTypesXsd⟩

/-- C82 is false: an attribute that only the schema of another file set declares is among the
attributes of the schema that was read last. -/
theorem leftover_attribute :
    (Dict.keys (afterLoads 20 xsdInt (fun _ _ => true) [groupLoad] {}).parts.attrs =
      [some s%"category"]) ∧
    (Dict.keys (afterLoads 20 xsdInt (fun _ _ => true) [olderLoad, groupLoad] {}).parts.attrs =
      [some s%"category", some s%"svnid"]) := by
  decide +kernel

/-- A schema in which `groupType` has an `xs:choice`. -/
def choiceXsd : XsNode :=
  .elem true s%"schema" 1 [] [
    .elem true s%"element" 2 [(s%"name", s%"definition"), (s%"type", s%"nx:definitionType")] [],
    .elem true s%"complexType" 3 [(s%"name", s%"definitionType")] [
      .elem true s%"sequence" 4 [] [
        .elem true s%"element" 5 [(s%"name", s%"group"), (s%"type", s%"nx:groupType")] []]],
    .elem true s%"complexType" 9 [(s%"name", s%"groupType")] [
      .elem true s%"choice" 10 [] [
        .elem true s%"element" 11 [(s%"name", s%"doc"), (s%"type", s%"xs:string")] []]]]

/-- C82 is false: a schema is refused when it is read first, and accepted the second time. -/
theorem refused_then_accepted :
    ((newManager 20 xsdInt (fun _ _ => true) (some choiceXsd) (some nxTypesXsd) {}).1.toBool = false) ∧
    ((newManager 20 xsdInt (fun _ _ => true) (some choiceXsd) (some nxTypesXsd)
      (afterLoads 20 xsdInt (fun _ _ => true) [⟨some choiceXsd, some nxTypesXsd⟩] {})).1.toBool
        = true) := by
  decide +kernel

end Punx

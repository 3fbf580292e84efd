import Verif.Props.Catalog

/-!
# C07, C09, C10: addresses, parents, and when the catalogue can be built
-/

namespace Punx
open Spec

/-! ## C09: parents -/

theorem objItem_parent (env : Env) (p : Item) (obj : H5Obj) (n : Str) (oid : List Nat) :
    (objItem env (some p) obj n oid).parent = some p := rfl

theorem attrItem_parent (v : Item) (j : Nat) (ka : Str × Val) :
    (attrItem v j ka).parent = some v := by
  rw [attrItem]; split <;> rfl

theorem attrItem_oid (v : Item) (j : Nat) (ka : Str × Val) :
    (attrItem v j ka).oid = (2 * j + 1) :: v.oid := by
  rw [attrItem]; split <;> rfl

theorem attrItem_obj (v : Item) (j : Nat) (ka : Str × Val) :
    (attrItem v j ka).obj = .val ka.2 := by
  rw [attrItem]; split <;> rfl

/-- `it` is in the catalogue `l` as member or attribute of the object `c`: its parent is `c`,
or — only for members of a non-NeXus group that has attributes — one of the attributes of
`c`. -/
def ContainedIn (l : List Item) (it c : Item) : Prop :=
  c ∈ l ∧ (∃ x, it.oid = x :: c.oid) ∧ c.obj.attrs?.isSome ∧
    (it.parent = some c ∨
      (c.classpath = nonNeXus ∧ c.obj.attrs? ≠ some [] ∧ (∀ v, it.obj ≠ .val v) ∧
        ∃ a ∈ l, a.parent = some c ∧ (∃ v, a.obj = .val v) ∧ it.parent = some a))

theorem ContainedIn.mono {l l' : List Item} (h : ∀ x ∈ l, x ∈ l') {it c : Item}
    (hc : ContainedIn l it c) : ContainedIn l' it c := by
  obtain ⟨h1, h2, h3, h4⟩ := hc
  refine ⟨h c h1, h2, h3, ?_⟩
  rcases h4 with h4 | ⟨h5, h6, h7, a, ha, h8⟩
  · exact .inl h4
  · exact .inr ⟨h5, h6, h7, a, h a ha, h8⟩

theorem attrItemsOf_contained {v it : Item} {j : Nat} {l : List (Str × Val)} {L : List Item}
    (hv : v ∈ L) (ho : v.obj.attrs?.isSome) (h : it ∈ attrItemsOf v j l) :
    ContainedIn L it v := by
  obtain ⟨i, ka, _, _, _, rfl⟩ := mem_attrItemsOf h
  exact ⟨hv, ⟨_, attrItem_oid v i ka⟩, ho, .inl (attrItem_parent v i ka)⟩

/-- The parent given to members of `v`. -/
theorem parentFor_cases (v : Item) (attrs : List (Str × Val)) :
    parentFor v attrs = v ∨
      (v.classpath = nonNeXus ∧ attrs ≠ [] ∧
        parentFor v attrs ∈ attrItemsOf v 0 (sortAttrs attrs)) := by
  by_cases h : v.classpath = nonNeXus
  · rw [parentFor_of_nonNexus h]
    cases hl : (attrItemsOf v 0 (sortAttrs attrs)).getLast? with
    | none => exact .inl rfl
    | some a =>
      refine .inr ⟨h, ?_, List.mem_of_getLast? hl⟩
      rintro rfl
      simp [sortAttrs, sortBy, attrItemsOf] at hl
  · exact .inl (parentFor_of_nexus h attrs)

mutual
theorem nodeItems_contained (env : Env) (parent : Item) (oid : List Nat) : (n : Node) →
    ∀ it ∈ nodeItems env parent oid n,
      (it.oid = oid ∧ it.parent = some parent ∧ (∀ v, it.obj ≠ .val v)) ∨
      ∃ c, ContainedIn (nodeItems env parent oid n) it c
  | .group n a kids, it, h => by
    rw [nodeItems] at h ⊢
    set v := objItem env (some parent) (.node (.group n a kids)) n oid with hv
    rw [List.mem_append, List.mem_cons] at h
    rcases h with (rfl | h) | h
    · exact .inl ⟨rfl, objItem_parent .., by rw [hv]; simp [objItem]⟩
    · exact .inr ⟨v, attrItemsOf_contained (by simp) rfl h⟩
    · right
      rcases kidsItems_contained env (parentFor v a) oid 0 kids it h with ⟨⟨x, h1⟩, h2, h3⟩ | ⟨c, hc⟩
      · refine ⟨v, by simp, ⟨x, h1⟩, rfl, ?_⟩
        rcases parentFor_cases v a with hp | ⟨h4, h5, h6⟩
        · rw [hp] at h2; exact .inl h2
        · refine .inr ⟨h4, ?_, h3, _, ?_, ?_, ?_, h2⟩
          · intro e; injection e with e; exact h5 e
          · simp [h6]
          · obtain ⟨i, ka, _, _, _, e⟩ := mem_attrItemsOf h6
            rw [e]; exact attrItem_parent v i ka
          · obtain ⟨i, ka, _, _, _, e⟩ := mem_attrItemsOf h6
            rw [e]; exact ⟨_, attrItem_obj v i ka⟩
      · exact ⟨c, hc.mono (fun x hx => List.mem_append_right _ hx)⟩
  | .dataset n a d, it, h => by
    rw [nodeItems] at h ⊢
    set v := objItem env (some parent) (.node (.dataset n a d)) n oid with hv
    rw [List.mem_cons] at h
    rcases h with rfl | h
    · exact .inl ⟨rfl, objItem_parent .., by rw [hv]; simp [objItem]⟩
    · exact .inr ⟨v, attrItemsOf_contained (by simp) rfl h⟩
  | .datatype n a, it, h => by
    rw [nodeItems] at h ⊢
    set v := objItem env (some parent) (.node (.datatype n a)) n oid with hv
    rw [List.mem_cons] at h
    rcases h with rfl | h
    · exact .inl ⟨rfl, objItem_parent .., by rw [hv]; simp [objItem]⟩
    · exact .inr ⟨v, attrItemsOf_contained (by simp) rfl h⟩
theorem kidsItems_contained (env : Env) (parent : Item) (oid : List Nat) (i : Nat) :
    (ks : Kids) → ∀ it ∈ kidsItems env parent oid i ks,
      ((∃ x, it.oid = x :: oid) ∧ it.parent = some parent ∧ (∀ v, it.obj ≠ .val v)) ∨
      ∃ c, ContainedIn (kidsItems env parent oid i ks) it c
  | .nil, it, h => by simp [kidsItems] at h
  | .cons l k n rest, it, h => by
    rw [kidsItems, List.mem_append] at h
    rw [kidsItems]
    rcases h with h | h
    · rcases nodeItems_contained env parent ((2 * i + 2) :: oid) n it h with ⟨h1, h2⟩ | ⟨c, hc⟩
      · exact .inl ⟨⟨_, h1⟩, h2⟩
      · exact .inr ⟨c, hc.mono (fun x hx => List.mem_append_left _ hx)⟩
    · rcases kidsItems_contained env parent oid (i + 1) rest it h with h1 | ⟨c, hc⟩
      · exact .inl h1
      · exact .inr ⟨c, hc.mono (fun x hx => List.mem_append_right _ hx)⟩
  | .broken l k rest, it, h => by simp [kidsItems] at h
end

/-- C09, full description: in a completed catalogue the root has no parent; every other item
is contained in a catalogued object `c` (one position further up), and its parent is `c`,
except that members of a non-NeXus group with attributes get one of these attributes as
parent. -/
theorem catalog_contained {env : Env} {f : H5File} (h : (catalog env f).res = .ok ()) :
    ∀ it ∈ (catalog env f).log,
      (it = rootItem f ∧ it.parent = none) ∨ ∃ c, ContainedIn (catalog env f).log it c := by
  rw [catalog_log h]
  intro it hit
  rw [fileItems, List.mem_append, List.mem_cons] at hit
  rcases hit with (rfl | hit) | hit
  · exact .inl ⟨rfl, rfl⟩
  · exact .inr ⟨_, attrItemsOf_contained (by simp [fileItems]) rfl hit⟩
  · right
    rcases kidsItems_contained env (rootItem f) [] 0 f.kids it hit with ⟨h1, h2, h3⟩ | ⟨c, hc⟩
    · exact ⟨rootItem f, by simp [fileItems], h1, rfl, .inl h2⟩
    · exact ⟨c, hc.mono (fun x hx => by rw [fileItems]; exact List.mem_append_right _ hx)⟩

/-- C09: the parent of an item is the object which contains it, for all NeXus content, all
attributes, and members of groups without attributes.  Missing to the full statement:
members of non-NeXus groups with attributes, where it is false
(`catalog_parent_fails`). -/
theorem catalog_parent_partial {env : Env} {f : H5File} (h : (catalog env f).res = .ok ())
    {it : Item} (hit : it ∈ (catalog env f).log) {x : Nat} {p : List Nat} (hp : it.oid = x :: p) :
    ∃ c ∈ (catalog env f).log, c.oid = p ∧
      ((∃ v, it.obj = .val v) ∨ c.classpath ≠ nonNeXus ∨ c.obj.attrs? = some [] →
        it.parent = some c) := by
  rcases catalog_contained h it hit with ⟨rfl, _⟩ | ⟨c, h1, ⟨y, h2⟩, h3, h4⟩
  · exact absurd hp (by simp [rootItem])
  · rw [hp] at h2
    injection h2 with _ h2
    refine ⟨c, h1, h2.symm, ?_⟩
    intro hcond
    rcases h4 with h4 | ⟨h5, h6, h7, _⟩
    · exact h4
    · rcases hcond with ⟨v, hv⟩ | hc | hc
      · exact absurd hv (h7 v)
      · exact absurd h5 hc
      · exact absurd hc h6

/-- C09 (negation): a dataset inside a non-NeXus group can have an attribute of the group,
not the group, as parent. -/
theorem catalog_parent_fails :
    ∃ (env : Env) (f : H5File), (catalog env f).res = .ok () ∧
      ∃ it ∈ (catalog env f).log, ∃ n a d, it.obj = .node (.dataset n a d) ∧
        ∃ q v, it.parent = some q ∧ q.obj = .val v := by
  refine ⟨sampleEnv, sampleFile, sampleFile_ok, ?_⟩
  rw [catalog_log sampleFile_ok]
  refine ⟨(fileItems sampleEnv sampleFile).getLastD (rootItem sampleFile), ?_, ?_⟩
  · have hne : fileItems sampleEnv sampleFile ≠ [] := by simp [fileItems]
    rw [List.getLastD_eq_getLast?, List.getLast?_eq_some_getLast hne]
    exact List.getLast_mem hne
  · exact ⟨_, _, _, rfl, _, _, rfl, rfl⟩

/-- The parent of every catalogued item is catalogued. -/
theorem catalog_parent_mem {env : Env} {f : H5File} (h : (catalog env f).res = .ok ())
    {it q : Item} (hit : it ∈ (catalog env f).log) (hq : it.parent = some q) :
    q ∈ (catalog env f).log := by
  rcases catalog_contained h it hit with ⟨_, h1⟩ | ⟨c, h1, _, _, h4⟩
  · rw [h1] at hq; simp at hq
  · rcases h4 with h4 | ⟨_, _, _, a, ha, _, _, h5⟩
    · rw [h4] at hq; injection hq with hq; exact hq ▸ h1
    · rw [h5] at hq; injection hq with hq; exact hq ▸ ha

example : ∃ it ∈ (catalog sampleEnv sampleFile).log, ∃ x p, it.oid = x :: p := by
  rw [catalog_log sampleFile_ok]
  exact ⟨attrItem (rootItem sampleFile) 0 (s%"default", .str s%"entry"), by
    rw [fileItems]; exact List.mem_append_left _ (List.mem_cons_of_mem _ (List.mem_cons_self ..)),
    _, _, rfl⟩

/-! ## C10: when the catalogue can be built -/

theorem asciiDecode_isSome (b : List UInt8) :
    (asciiDecode b).isSome ↔ ∀ x ∈ b, x.toNat < 128 := by
  induction b with
  | nil => simp [asciiDecode]
  | cons x xs ih =>
    rw [asciiDecode]
    by_cases h : x.toNat < 128 <;> simp [h, ih]

theorem decodeAll_isSome (f : List UInt8 → Option Str) (xs : List (List UInt8)) :
    (decodeAll f xs).isSome ↔ ∀ x ∈ xs, (f x).isSome := by
  induction xs with
  | nil => simp [decodeAll]
  | cons x xs ih =>
    rw [decodeAll]
    cases h1 : f x with
    | none => simp [h1]
    | some s =>
      cases h2 : decodeAll f xs with
      | none => simpa [h1, h2] using ih
      | some ss => simpa [h1, h2] using ih

/-- The link test of an object succeeds exactly if its target can be read. -/
theorem isNeXusLink_ok_iff (env : Env) (attrs : List (Str × Val)) (name : Str) :
    (∃ b, isNeXusLink env attrs name = .ok b) ↔ targetReadable env (attrs.lookup s%"target") := by
  rw [isNeXusLink, attrGet]
  cases attrs.lookup s%"target" with
  | none => simp [targetReadable, decodeByteString, pyLen, bind, Except.bind]
  | some v =>
    simp only [Option.getD_some]
    cases v with
    | str s =>
      simp only [targetReadable, decodeByteString, pyLen, bind, Except.bind, iff_true]
      cases s.length <;> simp; exact em _
    | bytes b =>
      simp only [targetReadable, decodeByteString]
      cases hb : env.dec b with
      | none => simp [bind, Except.bind]
      | some s =>
        simp only [bind, Except.bind, pyLen, Option.isSome_some, iff_true]
        cases s.length <;> simp; exact em _
    | arrO xs =>
      simp only [targetReadable, decodeByteString]
      cases xs with
      | nil => simp [bind, Except.bind, pyLen]
      | cons x xs => simp [bind, Except.bind, pyLen]
    | arrS xs =>
      simp only [targetReadable, decodeByteString]
      cases xs with
      | nil => simp [bind, Except.bind, pyLen]
      | cons x xs =>
        have h1 := decodeAll_isSome asciiDecode (x :: xs)
        simp only [asciiDecode_isSome] at h1
        cases hd : decodeAll asciiDecode (x :: xs) with
        | none =>
          rw [hd] at h1
          simp only [Option.isSome_none, Bool.false_eq_true, false_iff] at h1
          simp only [List.length_cons, gt_iff_lt, Nat.zero_lt_succ, if_true, bind, Except.bind,
            reduceCtorEq, exists_false, false_iff]
          exact fun h => h1 h.2
        | some ss =>
          rw [hd] at h1
          simp only [Option.isSome_some, true_iff] at h1
          simp only [List.length_cons, gt_iff_lt, Nat.zero_lt_succ, if_true, bind, Except.bind,
            pyLen]
          constructor
          · intro _; exact ⟨by simp, h1⟩
          · intro _
            cases ss with
            | nil => exact ⟨_, rfl⟩
            | cons s ss => exact ⟨_, rfl⟩
    | arrNum xs =>
      simp only [targetReadable, decodeByteString, bind, Except.bind, pyLen]
      cases xs with
      | nil => simp
      | cons x xs =>
        cases xs with
        | nil => simp
        | cons y ys => simp
    | list xs =>
      simp only [targetReadable, decodeByteString, bind, Except.bind, pyLen, iff_true]
      cases xs <;> simp
    | _ => simp [targetReadable, decodeByteString, bind, Except.bind, pyLen]

/-- The class of a group can be determined exactly if it can be decoded. -/
theorem decode_class_ok_iff (env : Env) (attrs : List (Str × Val)) :
    (∃ v, decodeByteString env ((attrGet attrs s%"NX_class").getD .none) = .ok v) ↔
      classReadable env (attrs.lookup s%"NX_class") := by
  rw [attrGet]
  cases attrs.lookup s%"NX_class" with
  | none => simp [classReadable, decodeByteString]
  | some v =>
    simp only [Option.getD_some]
    cases v with
    | bytes b =>
      simp only [classReadable, decodeByteString]
      cases env.dec b <;> simp
    | arrO xs =>
      simp only [classReadable, decodeByteString, iff_true]
      split <;> simp
    | arrS xs =>
      simp only [classReadable, decodeByteString]
      have h1 := decodeAll_isSome asciiDecode xs
      simp only [asciiDecode_isSome] at h1
      cases xs with
      | nil => simp
      | cons x xs =>
        simp only [List.length_cons, gt_iff_lt, Nat.zero_lt_succ, if_true]
        rw [← h1]
        cases decodeAll asciiDecode (x :: xs) <;> simp
    | _ => simp [classReadable, decodeByteString]

theorem determineClasspath_ok {env : Env} {p : Item} {n : Node} (h : NodeClassOk env n) :
    ∃ r, determineClasspath env (some p) (isHdf5Group (.node n)) (objName n.name) n.attrs =
      .ok r := by
  rw [determineClasspath]
  split
  · exact ⟨_, rfl⟩
  · split
    · exact ⟨_, rfl⟩
    · split
      · exact ⟨_, rfl⟩
      · cases n with
        | dataset m a d => exact ⟨_, rfl⟩
        | datatype m a => exact ⟨_, rfl⟩
        | group m a ks =>
          simp only [NodeClassOk] at h
          obtain ⟨v, hv⟩ := (decode_class_ok_iff env a).2 h
          simp only [isHdf5Group, if_true, Node.attrs, hv, bind, Except.bind]
          split
          · split
            · exact ⟨_, rfl⟩
            · exact ⟨_, rfl⟩
          · exact ⟨_, rfl⟩

theorem objectTypeCheck_ok_iff (env : Env) (n : Node) :
    objectTypeCheck env (.node n) = .ok () ↔ NodeTargetOk env n := by
  cases n with
  | datatype m a => simp [objectTypeCheck, NodeTargetOk]
  | dataset m a d =>
    simp only [objectTypeCheck, NodeTargetOk, Node.attrs, Node.name,
      ← isNeXusLink_ok_iff env a m]
    cases isNeXusLink env a m <;> simp [bind, Except.bind]
  | group m a ks =>
    simp only [objectTypeCheck, NodeTargetOk, Node.attrs, Node.name,
      ← isNeXusLink_ok_iff env a m]
    cases isNeXusLink env a m <;> simp [bind, Except.bind]

/-- The subject of an object can be made exactly if class path and target can be read. -/
theorem getSubject_node_ok_iff (env : Env) (p : Item) (n : Node) (attrs : List (Str × Val))
    (oid : List Nat) :
    (∃ r, (getSubject env (some p) (.node n) attrs oid).res = .ok r) ↔
      (∃ r, determineClasspath env (some p) (isHdf5Group (.node n)) (objName n.name) n.attrs =
        .ok r) ∧ NodeTargetOk env n := by
  rw [getSubject_eq, ← objectTypeCheck_ok_iff]
  have hm : mkItem env (some p) (.node n) none oid = (do
      let (cp, nx) ← determineClasspath env (some p) (isHdf5Group (.node n)) (objName n.name) n.attrs
      objectTypeCheck env (.node n)
      .ok ⟨⟨oid, .node n, objName n.name, some n.name, cp, nx⟩, p.chain⟩) := rfl
  rw [hm]
  cases determineClasspath env (some p) (isHdf5Group (.node n)) (objName n.name) n.attrs with
  | error e => simp [bind, Except.bind]
  | ok r =>
    cases objectTypeCheck env (.node n) with
    | error e => simp [bind, Except.bind]
    | ok u => simp [bind, Except.bind]

mutual
theorem catalogNode_ok_iff (env : Env) (p : Item) (oid : List Nat) : (n : Node) →
    AllNodes (NodeClassOk env) n →
    ((catalogNode env p oid n).res = .ok () ↔ Intact n ∧ AllNodes (NodeTargetOk env) n)
  | .group n a kids, hc => by
    rw [AllNodes] at hc
    rw [catalogNode, W.bind_ok_iff, Intact, AllNodes]
    have h1 := getSubject_node_ok_iff env p (.group n a kids) a oid
    constructor
    · rintro ⟨⟨v, avs⟩, h2, h3⟩
      have h4 := (catalogKids_ok_iff env (childParent v avs) oid 0 kids hc.2).1 h3
      exact ⟨h4.1, (h1.1 ⟨_, h2⟩).2, h4.2⟩
    · rintro ⟨h2, h3, h4⟩
      obtain ⟨⟨v, avs⟩, h5⟩ := h1.2 ⟨determineClasspath_ok hc.1, h3⟩
      exact ⟨(v, avs), h5,
        (catalogKids_ok_iff env (childParent v avs) oid 0 kids hc.2).2 ⟨h2, h4⟩⟩
  | .dataset n a d, hc => by
    rw [AllNodes] at hc
    have hi : Intact (.dataset n a d) := by rw [Intact] <;> simp
    rw [catalogNode, W.bind_ok_iff, AllNodes]
    have h1 := getSubject_node_ok_iff env p (.dataset n a d) a oid
    constructor
    · rintro ⟨r, h2, _⟩
      exact ⟨hi, (h1.1 ⟨_, h2⟩).2⟩
    · rintro ⟨_, h3⟩
      obtain ⟨r, h5⟩ := h1.2 ⟨determineClasspath_ok hc, h3⟩
      exact ⟨r, h5, rfl⟩
  | .datatype n a, hc => by
    rw [AllNodes] at hc
    have hi : Intact (.datatype n a) := by rw [Intact] <;> simp
    rw [catalogNode, W.bind_ok_iff, AllNodes]
    have h1 := getSubject_node_ok_iff env p (.datatype n a) a oid
    constructor
    · rintro ⟨r, h2, _⟩
      exact ⟨hi, (h1.1 ⟨_, h2⟩).2⟩
    · rintro ⟨_, h3⟩
      obtain ⟨r, h5⟩ := h1.2 ⟨determineClasspath_ok hc, h3⟩
      exact ⟨r, h5, rfl⟩
theorem catalogKids_ok_iff (env : Env) (p : Item) (oid : List Nat) (i : Nat) : (ks : Kids) →
    AllKids (NodeClassOk env) ks →
    ((catalogKids env p oid i ks).res = .ok () ↔
      IntactKids ks ∧ AllKids (NodeTargetOk env) ks)
  | .nil, _ => by simp [catalogKids, IntactKids, AllKids]
  | .cons l k n rest, hc => by
    rw [AllKids] at hc
    rw [catalogKids, W.bind_ok_iff, IntactKids, AllKids]
    have h1 := catalogNode_ok_iff env p ((2 * i + 2) :: oid) n hc.1
    have h2 := catalogKids_ok_iff env p oid (i + 1) rest hc.2
    constructor
    · rintro ⟨⟨⟩, h3, h4⟩
      have h5 := h1.1 h3
      have h6 := h2.1 h4
      exact ⟨⟨h5.1, h6.1⟩, h5.2, h6.2⟩
    · rintro ⟨⟨h3, h4⟩, h5, h6⟩
      exact ⟨(), h1.2 ⟨h3, h5⟩, h2.2 ⟨h4, h6⟩⟩
  | .broken l k rest, _ => by
    rw [catalogKids]
    simp [IntactKids]
end

/-- C10: for a file whose NX_class attributes can be decoded, the catalogue is completed
exactly if no link is broken and every `target` attribute (of the root, groups and datasets)
can be read as a link target. -/
theorem catalog_ok_iff (env : Env) (f : H5File) (hc : AllKids (NodeClassOk env) f.kids) :
    (catalog env f).res = .ok () ↔
      IntactKids f.kids ∧ targetReadable env (f.attrs.lookup s%"target") ∧
      AllKids (NodeTargetOk env) f.kids := by
  have hroot : (∃ r, (getSubject env none (.file f) f.attrs []).res = .ok r) ↔
      targetReadable env (f.attrs.lookup s%"target") := by
    rw [getSubject_eq, ← isNeXusLink_ok_iff env f.attrs s%"/"]
    have hm : mkItem env none (.file f) none [] = (do
        let _ ← (do let _ ← isNeXusLink env f.attrs s%"/"; Except.ok ())
        .ok ⟨⟨[], .file f, s%"/", some s%"/", [], none⟩, []⟩) := rfl
    rw [hm]
    cases isNeXusLink env f.attrs s%"/" <;> simp [bind, Except.bind]
  rw [catalog, W.bind_ok_iff]
  constructor
  · rintro ⟨⟨v, avs⟩, h1, h2⟩
    have h3 := (catalogKids_ok_iff env (childParent v avs) [] 0 f.kids hc).1 h2
    exact ⟨h3.1, hroot.1 ⟨_, h1⟩, h3.2⟩
  · rintro ⟨h1, h2, h3⟩
    obtain ⟨⟨v, avs⟩, h4⟩ := hroot.2 h2
    exact ⟨(v, avs), h4, (catalogKids_ok_iff env (childParent v avs) [] 0 f.kids hc).2 ⟨h1, h3⟩⟩

example : AllKids (NodeClassOk sampleEnv) sampleFile.kids := by
  simp [AllKids, AllNodes, sampleFile, NodeClassOk, classReadable]
  exact ⟨rfl, trivial⟩

/-! ## C07: addresses -/

/-- All addresses of a list of items, in order, leaving out items without address. -/
def addresses (l : List Item) : List Str := l.filterMap (·.addr)

theorem addresses_append (l m : List Item) : addresses (l ++ m) = addresses l ++ addresses m :=
  List.filterMap_append

theorem mem_addresses_attr {v : Item} {n : Str} (hv : v.addr = some n) {j : Nat}
    {l : List (Str × Val)} {a : Str} (h : a ∈ addresses (attrItemsOf v j l)) :
    ∃ k ∈ l.map (·.1), a = n ++ '@' :: k := by
  rw [addresses, List.mem_filterMap] at h
  obtain ⟨it, hit, ha⟩ := h
  obtain ⟨i, ka, hk, _, _, rfl⟩ := mem_attrItemsOf hit
  refine ⟨ka.1, List.mem_map_of_mem hk, ?_⟩
  rw [attrItem] at ha
  split at ha
  · simp at ha
  · simp [hv] at ha; exact ha.symm

theorem nodup_addresses_attr {v : Item} {n : Str} (hv : v.addr = some n) (j : Nat)
    {l : List (Str × Val)} (hl : (l.map (·.1)).Nodup) :
    (addresses (attrItemsOf v j l)).Nodup := by
  induction l generalizing j with
  | nil => simp [attrItemsOf, addresses]
  | cons ka rest ih =>
    rw [List.map_cons, List.nodup_cons] at hl
    rw [attrItemsOf, addresses, List.filterMap_cons]
    have hr := ih (j + 1) hl.2
    split
    · exact hr
    · rename_i b hb
      refine List.nodup_cons.2 ⟨?_, hr⟩
      intro hm
      obtain ⟨k, hk, e⟩ := mem_addresses_attr hv hm
      rw [attrItem] at hb
      split at hb
      · simp at hb
      · simp [hv] at hb
        rw [← hb] at e
        have : ka.1 = k := by simpa using e
        exact hl.1 (this ▸ hk)

theorem sortAttrs_nodup {a : List (Str × Val)} (h : (a.map (·.1)).Nodup) :
    ((sortAttrs a).map (·.1)).Nodup :=
  ((sortBy_perm a).map _).nodup_iff.2 h

/-- Addresses below `n` are `n` itself or continue it with `@` or `/`. -/
def Extends (n a : Str) : Prop := a = n ∨ (∃ k, a = n ++ '@' :: k) ∨ ∃ r, a = n ++ '/' :: r

theorem wellNamed_name {path : Str} {n : Node} (h : WellNamed path n) : n.name = path := by
  cases n <;> (rw [WellNamed] at h; exact h.1)

theorem slash_sep {l l' x y : Str} (h1 : '/' ∉ l) (h2 : '@' ∉ l) (h3 : '/' ∉ l') (h4 : '@' ∉ l')
    (hx : x = [] ∨ (∃ k, x = '@' :: k) ∨ ∃ r, x = '/' :: r)
    (hy : y = [] ∨ (∃ k, y = '@' :: k) ∨ ∃ r, y = '/' :: r)
    (h : l ++ x = l' ++ y) : l = l' := by
  induction l generalizing l' with
  | nil =>
    cases l' with
    | nil => rfl
    | cons b bs =>
      exfalso
      rcases hx with rfl | ⟨k, rfl⟩ | ⟨k, rfl⟩
      · simp at h
      · simp at h; exact h4 (by rw [h.1]; simp)
      · simp at h; exact h3 (by rw [h.1]; simp)
  | cons a as ih =>
    cases l' with
    | nil =>
      exfalso
      rcases hy with rfl | ⟨k, rfl⟩ | ⟨k, rfl⟩
      · simp at h
      · simp at h; exact h2 (by simp [h.1])
      · simp at h; exact h1 (by simp [h.1])
    | cons b bs =>
      simp only [List.cons_append, List.cons.injEq] at h
      rw [h.1, ih (fun m => h1 (by simp [m])) (fun m => h2 (by simp [m]))
        (fun m => h3 (by simp [m])) (fun m => h4 (by simp [m])) h.2]

mutual
theorem nodeItems_addr (env : Env) (p : Item) (oid : List Nat) (path : Str) : (n : Node) →
    WellNamed path n →
    (∀ a ∈ addresses (nodeItems env p oid n), Extends path a) ∧
    (addresses (nodeItems env p oid n)).Nodup
  | .group n a kids, h => by
    rw [WellNamed] at h
    obtain ⟨rfl, hat, hks, hk⟩ := h
    rw [nodeItems]
    set v := objItem env (some p) (.node (.group n a kids)) n oid with hv
    have hva : v.addr = some n := rfl
    obtain ⟨k1, k2⟩ := kidsItems_addr env (parentFor v a) oid 0 n kids hks hk
    have hadd : addresses (v :: attrItemsOf v 0 (sortAttrs a) ++
        kidsItems env (parentFor v a) oid 0 kids) =
        n :: (addresses (attrItemsOf v 0 (sortAttrs a)) ++
          addresses (kidsItems env (parentFor v a) oid 0 kids)) := by
      rw [List.cons_append, addresses, List.filterMap_cons, hva]
      simp [addresses]
    rw [hadd]
    constructor
    · intro x hx
      rw [List.mem_cons, List.mem_append] at hx
      rcases hx with rfl | hx | hx
      · exact .inl rfl
      · obtain ⟨k, _, e⟩ := mem_addresses_attr hva hx
        exact .inr (.inl ⟨k, e⟩)
      · obtain ⟨l, _, _, _, r, e, _⟩ := k1 x hx
        exact .inr (.inr ⟨l ++ r, by simpa using e⟩)
    · rw [List.nodup_cons, List.nodup_append]
      refine ⟨?_, nodup_addresses_attr hva 0 (sortAttrs_nodup hat), k2, ?_⟩
      · rw [List.mem_append]
        rintro (hx | hx)
        · obtain ⟨k, _, e⟩ := mem_addresses_attr hva hx
          simp at e
        · obtain ⟨l, _, _, _, r, e, _⟩ := k1 n hx
          simp at e
      · intro x hx y hy e
        subst e
        obtain ⟨k, _, e⟩ := mem_addresses_attr hva hx
        obtain ⟨l, _, _, _, r, e', _⟩ := k1 x hy
        rw [e] at e'
        simp at e'
  | .dataset n a d, h => by
    rw [WellNamed] at h
    obtain ⟨rfl, hat⟩ := h
    rw [nodeItems]
    set v := objItem env (some p) (.node (.dataset n a d)) n oid with hv
    have hva : v.addr = some n := rfl
    have hadd : addresses (v :: attrItemsOf v 0 (sortAttrs a)) =
        n :: addresses (attrItemsOf v 0 (sortAttrs a)) := by
      rw [addresses, List.filterMap_cons, hva]; rfl
    rw [hadd]
    constructor
    · intro x hx
      rcases List.mem_cons.1 hx with rfl | hx
      · exact .inl rfl
      · obtain ⟨k, _, e⟩ := mem_addresses_attr hva hx
        exact .inr (.inl ⟨k, e⟩)
    · refine List.nodup_cons.2 ⟨fun hx => ?_, nodup_addresses_attr hva 0 (sortAttrs_nodup hat)⟩
      obtain ⟨k, _, e⟩ := mem_addresses_attr hva hx
      simp at e
  | .datatype n a, h => by
    rw [WellNamed] at h
    obtain ⟨rfl, hat⟩ := h
    rw [nodeItems]
    set v := objItem env (some p) (.node (.datatype n a)) n oid with hv
    have hva : v.addr = some n := rfl
    have hadd : addresses (v :: attrItemsOf v 0 (sortAttrs a)) =
        n :: addresses (attrItemsOf v 0 (sortAttrs a)) := by
      rw [addresses, List.filterMap_cons, hva]; rfl
    rw [hadd]
    constructor
    · intro x hx
      rcases List.mem_cons.1 hx with rfl | hx
      · exact .inl rfl
      · obtain ⟨k, _, e⟩ := mem_addresses_attr hva hx
        exact .inr (.inl ⟨k, e⟩)
    · refine List.nodup_cons.2 ⟨fun hx => ?_, nodup_addresses_attr hva 0 (sortAttrs_nodup hat)⟩
      obtain ⟨k, _, e⟩ := mem_addresses_attr hva hx
      simp at e
theorem kidsItems_addr (env : Env) (p : Item) (oid : List Nat) (i : Nat) (path : Str) :
    (ks : Kids) → (ks.toList.map (·.1)).Nodup → WellNamedKids path ks →
    (∀ a ∈ addresses (kidsItems env p oid i ks), ∃ l ∈ ks.toList.map (·.1), '/' ∉ l ∧ '@' ∉ l ∧
      ∃ r, a = path ++ '/' :: (l ++ r) ∧
        l ≠ [] ∧ (r = [] ∨ (∃ k, r = '@' :: k) ∨ ∃ q, r = '/' :: q)) ∧
    (addresses (kidsItems env p oid i ks)).Nodup
  | .nil, _, _ => by simp [kidsItems, addresses]
  | .cons l k n rest, hnd, h => by
    rw [WellNamedKids] at h
    obtain ⟨h0, h1, h2, h3, h4⟩ := h
    rw [Kids.toList, List.map_cons, List.nodup_cons] at hnd
    obtain ⟨n1, n2⟩ := nodeItems_addr env p ((2 * i + 2) :: oid) (path ++ '/' :: l) n h3
    obtain ⟨r1, r2⟩ := kidsItems_addr env p oid (i + 1) path rest hnd.2 h4
    rw [kidsItems, addresses_append]
    have first : ∀ x ∈ addresses (nodeItems env p ((2 * i + 2) :: oid) n),
        ∃ r, x = path ++ '/' :: (l ++ r) ∧
          (r = [] ∨ (∃ k, r = '@' :: k) ∨ ∃ q, r = '/' :: q) := by
      intro x hx
      rcases n1 x hx with e | ⟨k, e⟩ | ⟨q, e⟩
      · exact ⟨[], by simpa using e, .inl rfl⟩
      · exact ⟨'@' :: k, by simpa using e, .inr (.inl ⟨k, rfl⟩)⟩
      · exact ⟨'/' :: q, by simpa using e, .inr (.inr ⟨q, rfl⟩)⟩
    constructor
    · intro x hx
      rcases List.mem_append.1 hx with hx | hx
      · obtain ⟨r, e, hr⟩ := first x hx
        exact ⟨l, by simp [Kids.toList], h1, h2, r, e, h0, hr⟩
      · obtain ⟨l', hl', a1, a2, a3⟩ := r1 x hx
        exact ⟨l', by simp only [Kids.toList, List.map_cons, List.mem_cons]; exact .inr hl', a1,
          a2, a3⟩
    · rw [List.nodup_append]
      refine ⟨n2, r2, ?_⟩
      intro x hx y hy e
      subst e
      obtain ⟨r, e, hr⟩ := first x hx
      obtain ⟨l', hl', a1, a2, r', e', _, hr'⟩ := r1 x hy
      rw [e] at e'
      have e'' : l ++ r = l' ++ r' := by simpa using e'
      have := slash_sep h1 h2 a1 a2 hr hr' e''
      exact hnd.1 (this ▸ hl')
  | .broken l k rest, hnd, h => by simp [kidsItems, addresses]
end

theorem addressTable_get (items : List Item) (d : Dict (Option Str) Item) (k : Option Str) :
    Dict.get? (items.foldl (fun d it => Dict.set d it.addr it) d) k =
      ((items.filter (fun it => it.addr = k)).getLast?).orElse (fun _ => Dict.get? d k) := by
  induction items generalizing d with
  | nil => simp
  | cons it items ih =>
    rw [List.foldl_cons, ih, Dict.get?_set, List.filter_cons]
    by_cases h : it.addr = k
    · simp only [h, if_true, decide_true]
      cases hl : (items.filter (fun it => it.addr = k)) with
      | nil => simp
      | cons b bs =>
        rw [List.getLast?_cons_cons, List.getLast?_cons]
        rfl
    · simp [h]

/-- `validator.addresses` holds, for each address, the last item with that address. -/
theorem addressTable_last (items : List Item) (k : Option Str) :
    Dict.get? (addressTable items) k = (items.filter (fun it => it.addr = k)).getLast? := by
  rw [addressTable, addressTable_get]
  cases (items.filter (fun it => it.addr = k)).getLast? <;> rfl

theorem filter_of_nodup_addr {l : List Item} (h : (addresses l).Nodup) {it : Item} {a : Str}
    (hm : it ∈ l) (ha : it.addr = some a) :
    l.filter (fun i => i.addr = some a) = [it] := by
  induction l with
  | nil => simp at hm
  | cons b bs ih =>
    rw [addresses, List.filterMap_cons] at h
    rw [List.filter_cons]
    rcases List.mem_cons.1 hm with rfl | hm
    · simp only [ha] at h
      rw [List.nodup_cons] at h
      simp only [ha, decide_true, if_true]
      congr 1
      rw [List.filter_eq_nil_iff]
      intro x hx hxa
      simp only [decide_eq_true_eq] at hxa
      exact h.1 (List.mem_filterMap.2 ⟨x, hx, hxa⟩)
    · have hb : b.addr ≠ some a := by
        intro e
        simp only [e] at h
        rw [List.nodup_cons] at h
        exact h.1 (List.mem_filterMap.2 ⟨it, hm, ha⟩)
      simp only [hb, decide_false]
      refine ih ?_ hm
      split at h
      · exact h
      · exact (List.nodup_cons.1 h).2

theorem fileItems_addr (env : Env) (f : H5File) (h : WellNamedFile f) :
    (addresses (fileItems env f)).Nodup := by
  obtain ⟨h1, h2, h3⟩ := h
  obtain ⟨k1, k2⟩ := kidsItems_addr env (rootItem f) [] 0 [] f.kids h2 h3
  have hva : (rootItem f).addr = some s%"/" := rfl
  have hadd : addresses (fileItems env f) =
      s%"/" :: (addresses (attrItemsOf (rootItem f) 0 (sortAttrs f.attrs)) ++
        addresses (kidsItems env (rootItem f) [] 0 f.kids)) := by
    rw [fileItems, List.cons_append, addresses, List.filterMap_cons, hva]
    simp [addresses]
  rw [hadd, List.nodup_cons, List.nodup_append]
  refine ⟨?_, nodup_addresses_attr hva 0 (sortAttrs_nodup h1), k2, ?_⟩
  · rw [List.mem_append]
    rintro (hx | hx)
    · obtain ⟨k, _, e⟩ := mem_addresses_attr hva hx
      simp at e
    · obtain ⟨l, _, _, _, r, e, h0, _⟩ := k1 _ hx
      simp at e
      exact h0 e.1
  · intro x hx y hy e
    subst e
    obtain ⟨k, _, e⟩ := mem_addresses_attr hva hx
    obtain ⟨l, _, _, h5, r, e', h0, _⟩ := k1 x hy
    rw [e] at e'
    cases l with
    | nil => exact h0 rfl
    | cons c cs =>
      simp at e'
      exact h5 (by rw [e'.1]; simp)

/-- C07: in a file whose objects report their path as name and whose object names contain
neither `/` nor `@`, no two items have the same address. -/
theorem catalog_addresses_nodup_partial {env : Env} {f : H5File} (h : (catalog env f).res = .ok ())
    (hw : WellNamedFile f) : ((catalog env f).log.filterMap (·.addr)).Nodup := by
  rw [catalog_log h]
  exact fileItems_addr env f hw

/-- C07: then `validator.addresses` finds every item that has an address. -/
theorem catalog_addresses_complete {env : Env} {f : H5File} (h : (catalog env f).res = .ok ())
    (hw : WellNamedFile f) {it : Item} {a : Str} (hit : it ∈ (catalog env f).log)
    (ha : it.addr = some a) :
    Dict.get? (addressTable (catalog env f).log) (some a) = some it := by
  have hn := catalog_addresses_nodup_partial h hw
  rw [addressTable_last, filter_of_nodup_addr hn hit ha]
  rfl

/-- /a@b (a dataset) and attribute b of group /a. -/
def collidingFile : H5File where
  attrs := []
  kids := .cons s%"a" .hard
      (.group s%"/a" [(s%"NX_class", .str s%"NXentry"), (s%"b", .int 3)] .nil)
    (.cons s%"a@b" .hard (.dataset s%"/a@b" [] (.ofVal (.int 1))) .nil)

/-- C07 (negation): with `@` in an object name two items of the NeXus content can have the
same address, and `validator.addresses` then lacks one of them. -/
theorem catalog_addresses_collide :
    ∃ (env : Env) (f : H5File), (catalog env f).res = .ok () ∧
      ∃ it ∈ (catalog env f).log, it.addr = some s%"/a@b" ∧ it.obj = .val (.int 3) ∧
        ∃ it', Dict.get? (addressTable (catalog env f).log) it.addr = some it' ∧
          ∃ n a d, it'.obj = .node (.dataset n a d) := by
  refine ⟨sampleEnv, collidingFile, rfl, ?_⟩
  rw [catalog_log (env := sampleEnv) (f := collidingFile) rfl]
  refine ⟨((fileItems sampleEnv collidingFile)[3]?).getD (rootItem collidingFile),
    ?_, rfl, rfl, ?_⟩
  · have h3 : (fileItems sampleEnv collidingFile)[3]?.isSome := rfl
    obtain ⟨x, hx⟩ := Option.isSome_iff_exists.1 h3
    rw [hx]
    exact List.mem_of_getElem? hx
  · rw [addressTable_last]
    exact ⟨_, rfl, _, _, _, rfl⟩

example : WellNamedFile sampleFile := by
  simp [WellNamedFile, sampleFile, WellNamedKids, WellNamed, Kids.toList]

end Punx

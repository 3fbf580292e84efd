import Verif.Spec.Catalog
import Verif.Lemmas.Catalog
import Mathlib.Data.List.TakeWhile

/-!
# C06–C10: the catalogue of a file
-/

namespace Punx
open Spec

/-! ## C06: complete, each thing once, containers first -/

theorem lastComp_eq_baseName (n : Str) : lastComp '/' n = baseName n := by
  have hsplit : n.reverse = n.reverse.takeWhile (· ≠ '/') ++ n.reverse.dropWhile (· ≠ '/') :=
    (List.takeWhile_append_dropWhile).symm
  have hw : '/' ∉ n.reverse.takeWhile (· ≠ '/') := by
    intro h
    have := List.mem_takeWhile_imp h
    simp at this
  cases hd : n.reverse.dropWhile (· ≠ '/') with
  | nil =>
    rw [hd, List.append_nil] at hsplit
    have hb : baseName n = n := by rw [baseName, ← hsplit, List.reverse_reverse]
    have hn : '/' ∉ n := by
      intro h
      exact hw (hsplit ▸ List.mem_reverse.2 h)
    rw [hb, lastComp, split_noSep hn]
    rfl
  | cons c t =>
    have hc : c = '/' := by
      have h0 : n.reverse.dropWhile (· ≠ '/') ≠ [] := by rw [hd]; simp
      have := List.head_dropWhile_not (· ≠ '/') h0
      simp only [hd, List.head_cons] at this
      simpa using this
    subst hc
    have hn : n = t.reverse ++ '/' :: baseName n := by
      have := congrArg List.reverse hsplit
      rw [List.reverse_reverse, List.reverse_append, hd] at this
      simpa [baseName] using this
    have hb : '/' ∉ baseName n := by
      rw [baseName]; simpa using hw
    conv_lhs => rw [hn]
    exact lastComp_append _ _ hb

theorem objName_eq (n : Str) : objName n = shortName n := by
  rw [objName, shortName, lastComp_eq_baseName]

/-- What a catalogued item is about. -/
def Item.visit (it : Item) : Visit := (it.oid, it.obj, it.name)

theorem attrItemsOf_visit (v : Item) (j : Nat) (l : List (Str × Val)) :
    (attrItemsOf v j l).map Item.visit = visitAttrs v.oid j l := by
  induction l generalizing j with
  | nil => rfl
  | cons ka rest ih =>
    rw [attrItemsOf, List.map_cons, ih, visitAttrs, attrItem]
    split <;> rfl

mutual
theorem nodeItems_visit (env : Env) (parent : Item) (oid : List Nat) : (n : Node) → Intact n →
    (nodeItems env parent oid n).map Item.visit = visitNode oid n
  | .group n a kids, h => by
    rw [Intact] at h
    rw [nodeItems, visitNode, List.map_append, List.map_cons, attrItemsOf_visit,
      kidsItems_visit env _ oid 0 kids h]
    simp [Item.visit, objItem, objName_eq, sortAttrs, sortByName]
  | .dataset n a d, _ => by
    rw [nodeItems, visitNode, List.map_cons, attrItemsOf_visit]
    simp [Item.visit, objItem, objName_eq, sortAttrs, sortByName]
  | .datatype n a, _ => by
    rw [nodeItems, visitNode, List.map_cons, attrItemsOf_visit]
    simp [Item.visit, objItem, objName_eq, sortAttrs, sortByName]
theorem kidsItems_visit (env : Env) (parent : Item) (oid : List Nat) (i : Nat) : (ks : Kids) →
    IntactKids ks → (kidsItems env parent oid i ks).map Item.visit = visitKids oid i ks
  | .nil, _ => by rw [kidsItems, visitKids]; rfl
  | .cons l k n rest, h => by
    rw [IntactKids] at h
    rw [kidsItems, visitKids, List.map_append, nodeItems_visit env _ _ n h.1,
      kidsItems_visit env _ _ (i + 1) rest h.2]
  | .broken l k rest, h => by rw [IntactKids] at h; exact h.elim
end

mutual
theorem catalogNode_intact (env : Env) (parent : Item) (oid : List Nat) : (n : Node) →
    (catalogNode env parent oid n).res = .ok () → Intact n
  | .group n a kids, h => by
    rw [catalogNode, W.bind_ok_iff] at h
    obtain ⟨⟨v, avs⟩, _, h2⟩ := h
    rw [Intact]
    exact catalogKids_intact env _ oid 0 kids h2
  | .dataset .., _ => by rw [Intact] <;> simp
  | .datatype .., _ => by rw [Intact] <;> simp
theorem catalogKids_intact (env : Env) (parent : Item) (oid : List Nat) (i : Nat) : (ks : Kids) →
    (catalogKids env parent oid i ks).res = .ok () → IntactKids ks
  | .nil, _ => by rw [IntactKids]; trivial
  | .cons l k n rest, h => by
    rw [catalogKids, W.bind_ok_iff] at h
    obtain ⟨⟨⟩, h1, h2⟩ := h
    rw [IntactKids]
    exact ⟨catalogNode_intact env _ _ n h1, catalogKids_intact env _ _ (i + 1) rest h2⟩
  | .broken l k rest, h => by rw [catalogKids] at h; simp at h
end

theorem catalog_intact {env : Env} {f : H5File} (h : (catalog env f).res = .ok ()) :
    IntactKids f.kids := by
  rw [catalog, W.bind_ok_iff] at h
  obtain ⟨⟨v, avs⟩, _, h2⟩ := h
  exact catalogKids_intact env _ [] 0 f.kids h2

/-- C06: a completed catalogue lists exactly the root, then for each group its attributes in
alphabetical order and its members in file order, recursively. -/
theorem catalog_visits {env : Env} {f : H5File} (h : (catalog env f).res = .ok ()) :
    (catalog env f).log.map Item.visit = visitFile f := by
  rw [catalog_log h, fileItems, List.map_append, List.map_cons, attrItemsOf_visit,
    kidsItems_visit env _ [] 0 f.kids (catalog_intact h), visitFile]
  rfl

/-- The alphabetical order of attributes loses and adds nothing. -/
theorem sortByName_spec (attrs : List (Str × Val)) :
    (sortByName attrs).Perm attrs ∧
    (sortByName attrs).Pairwise (fun a b => strLe a.1 b.1 = true) :=
  ⟨sortBy_perm attrs, sortBy_sorted (le := fun a b : Str × Val => strLe a.1 b.1)
    (fun _ _ => strLe_total _ _) (fun _ _ _ => strLe_trans) attrs⟩

theorem visitAttrs_length (pos : List Nat) (j : Nat) (l : List (Str × Val)) :
    (visitAttrs pos j l).length = l.length := by
  induction l generalizing j with
  | nil => rfl
  | cons ka rest ih => simp [visitAttrs, ih]

theorem sortByName_length (l : List (Str × Val)) : (sortByName l).length = l.length :=
  (sortBy_perm l).length_eq

mutual
theorem visitNode_length (pos : List Nat) : (n : Node) →
    (visitNode pos n).length = objects n + attributes n
  | .group n a kids => by
    simp only [visitNode, objects, attributes, List.length_append, List.length_cons,
      visitAttrs_length, sortByName_length, visitKids_length pos 0 kids]
    omega
  | .dataset n a d => by
    simp [visitNode, objects, attributes, visitAttrs_length, sortByName_length]; omega
  | .datatype n a => by
    simp [visitNode, objects, attributes, visitAttrs_length, sortByName_length]; omega
theorem visitKids_length (pos : List Nat) (i : Nat) : (ks : Kids) →
    (visitKids pos i ks).length = objectsKids ks + attributesKids ks
  | .nil => by simp [visitKids, objectsKids, attributesKids]
  | .cons l k n rest => by
    simp only [visitKids, objectsKids, attributesKids, List.length_append,
      visitNode_length _ n, visitKids_length pos (i + 1) rest]
    omega
  | .broken l k rest => by
    simp [visitKids, objectsKids, attributesKids, visitKids_length pos (i + 1) rest]
end

/-- C06: the number of items is the number of objects (the root included) plus the number
of attributes. -/
theorem catalog_count {env : Env} {f : H5File} (h : (catalog env f).res = .ok ()) :
    (catalog env f).log.length =
      1 + f.attrs.length + objectsKids f.kids + attributesKids f.kids := by
  have := congrArg List.length (catalog_visits h)
  rw [List.length_map] at this
  rw [this, visitFile]
  simp only [List.length_append, List.length_cons, visitAttrs_length, sortByName_length,
    visitKids_length]
  omega

/-! Positions: distinct, and a container comes first. -/

theorem visitAttrs_pos {pos : List Nat} {j : Nat} {l : List (Str × Val)} {v : Visit}
    (h : v ∈ visitAttrs pos j l) : ∃ i, j ≤ i ∧ v.1 = (2 * i + 1) :: pos := by
  induction l generalizing j with
  | nil => simp [visitAttrs] at h
  | cons ka rest ih =>
    rw [visitAttrs] at h
    rcases List.mem_cons.1 h with rfl | h
    · exact ⟨j, le_refl _, rfl⟩
    · obtain ⟨i, h1, h2⟩ := ih h
      exact ⟨i, by omega, h2⟩

mutual
theorem visitNode_pos (pos : List Nat) : (n : Node) → ∀ v ∈ visitNode pos n, pos <:+ v.1
  | .group n a kids, v, hv => by
    rw [visitNode, List.mem_append, List.mem_cons] at hv
    rcases hv with (rfl | hv) | hv
    · exact List.suffix_refl _
    · obtain ⟨i, _, h⟩ := visitAttrs_pos hv
      rw [h]; exact List.suffix_cons _ _
    · obtain ⟨j, _, h⟩ := visitKids_pos pos 0 kids v hv
      exact (List.suffix_cons _ _).trans h
  | .dataset n a d, v, hv => by
    rw [visitNode, List.mem_cons] at hv
    rcases hv with rfl | hv
    · exact List.suffix_refl _
    · obtain ⟨i, _, h⟩ := visitAttrs_pos hv
      rw [h]; exact List.suffix_cons _ _
  | .datatype n a, v, hv => by
    rw [visitNode, List.mem_cons] at hv
    rcases hv with rfl | hv
    · exact List.suffix_refl _
    · obtain ⟨i, _, h⟩ := visitAttrs_pos hv
      rw [h]; exact List.suffix_cons _ _
theorem visitKids_pos (pos : List Nat) (i : Nat) : (ks : Kids) → ∀ v ∈ visitKids pos i ks,
    ∃ j, i ≤ j ∧ ((2 * j + 2) :: pos) <:+ v.1
  | .nil, v, hv => by simp [visitKids] at hv
  | .cons l k n rest, v, hv => by
    rw [visitKids, List.mem_append] at hv
    rcases hv with hv | hv
    · exact ⟨i, le_refl _, visitNode_pos _ n v hv⟩
    · obtain ⟨j, h1, h2⟩ := visitKids_pos pos (i + 1) rest v hv
      exact ⟨j, by omega, h2⟩
  | .broken l k rest, v, hv => by
    rw [visitKids] at hv
    obtain ⟨j, h1, h2⟩ := visitKids_pos pos (i + 1) rest v hv
    exact ⟨j, by omega, h2⟩
end

theorem suffix_cons_inj {a b : Nat} {p l : List Nat} (h1 : (a :: p) <:+ l) (h2 : (b :: p) <:+ l) :
    a = b := by
  rcases List.suffix_or_suffix_of_suffix h1 h2 with h | h
  · have := h.eq_of_length (by simp)
    simpa using this
  · have := h.eq_of_length (by simp)
    simpa using this.symm

/-- Ordering of visits: `a` may precede `b` if they are at different positions and `b` is not
a container of `a`. -/
def Before (a b : Visit) : Prop := ¬ b.1 <:+ a.1

theorem visitAttrs_before (pos : List Nat) (j : Nat) (l : List (Str × Val)) :
    (visitAttrs pos j l).Pairwise Before := by
  induction l generalizing j with
  | nil => simp [visitAttrs]
  | cons ka rest ih =>
    rw [visitAttrs, List.pairwise_cons]
    refine ⟨fun v hv => ?_, ih _⟩
    obtain ⟨i, h1, h2⟩ := visitAttrs_pos hv
    rw [Before, h2]
    intro hs
    have := suffix_cons_inj hs (List.suffix_refl _)
    omega

mutual
theorem visitNode_before (pos : List Nat) : (n : Node) → (visitNode pos n).Pairwise Before
  | .group n a kids => by
    rw [visitNode, List.pairwise_append]
    refine ⟨?_, visitKids_before pos 0 kids, ?_⟩
    · rw [List.pairwise_cons]
      refine ⟨fun v hv => ?_, visitAttrs_before _ _ _⟩
      obtain ⟨i, _, h⟩ := visitAttrs_pos hv
      rw [Before, h]
      intro hs
      have := hs.length_le
      simp at this
      omega
    · intro u hu v hv
      obtain ⟨j, _, hj⟩ := visitKids_pos pos 0 kids v hv
      rw [Before]
      intro hs
      have h2 := hj.trans hs
      rw [List.mem_cons] at hu
      rcases hu with rfl | hu
      · have := h2.length_le
        simp at this
        omega
      · obtain ⟨i, _, h⟩ := visitAttrs_pos hu
        rw [h] at h2
        have := suffix_cons_inj h2 (List.suffix_refl _)
        omega
  | .dataset n a d => by
    rw [visitNode, List.pairwise_cons]
    refine ⟨fun v hv => ?_, visitAttrs_before _ _ _⟩
    obtain ⟨i, _, h⟩ := visitAttrs_pos hv
    rw [Before, h]
    intro hs
    have := hs.length_le
    simp at this
    omega
  | .datatype n a => by
    rw [visitNode, List.pairwise_cons]
    refine ⟨fun v hv => ?_, visitAttrs_before _ _ _⟩
    obtain ⟨i, _, h⟩ := visitAttrs_pos hv
    rw [Before, h]
    intro hs
    have := hs.length_le
    simp at this
    omega
theorem visitKids_before (pos : List Nat) (i : Nat) : (ks : Kids) →
    (visitKids pos i ks).Pairwise Before
  | .nil => by simp [visitKids]
  | .cons l k n rest => by
    rw [visitKids, List.pairwise_append]
    refine ⟨visitNode_before _ n, visitKids_before pos (i + 1) rest, ?_⟩
    intro u hu v hv
    obtain ⟨j, h1, h2⟩ := visitKids_pos pos (i + 1) rest v hv
    have h3 := visitNode_pos _ n u hu
    rw [Before]
    intro hs
    have := suffix_cons_inj h3 (h2.trans hs)
    omega
  | .broken l k rest => by
    rw [visitKids]; exact visitKids_before pos (i + 1) rest
end

theorem visitFile_before (f : H5File) : (visitFile f).Pairwise Before := by
  have := visitNode_before [] (.group s%"/" f.attrs f.kids)
  rw [visitNode] at this
  rw [visitFile]
  simp only [List.cons_append] at this ⊢
  rw [List.pairwise_cons] at this ⊢
  exact this

/-- C06: no two items of a catalogue are at the same position of the file (nothing is
visited twice), and an item never comes before the object that contains it. -/
theorem catalog_once_containers_first {env : Env} {f : H5File}
    (h : (catalog env f).res = .ok ()) :
    ((catalog env f).log.map (·.oid)).Nodup ∧
    (catalog env f).log.Pairwise (fun a b => ¬ b.oid <:+ a.oid) := by
  have hv := catalog_visits h
  have hp := visitFile_before f
  rw [← hv, List.pairwise_map] at hp
  refine ⟨?_, hp⟩
  rw [List.Nodup, List.pairwise_map]
  exact hp.imp (fun {a b} hab e => hab (by
    show b.oid <:+ a.oid
    rw [e]
    exact List.suffix_refl _))

/-! ## Sample files for the examples -/

/-- Run time with UTF-8 replaced by ASCII, enough for examples. -/
def sampleEnv : Env where
  dec := asciiDecode
  word := fun c => c.isAlphanum || c == '_'
  isdigit := fun s => !s.isEmpty && s.all (·.isDigit)
  int := fun s => if s = s%"1" then some 1 else none
  str := fun _ => s%"?"

/-- /entry (NXentry) with a dataset, an attribute and a non-NeXus group. -/
def sampleFile : H5File where
  attrs := [(s%"default", .str s%"entry")]
  kids := .cons s%"entry" .hard
    (.group s%"/entry" [(s%"default", .str s%"data"), (s%"NX_class", .bytes [78, 88, 101])]
      (.cons s%"title" .hard (.dataset s%"/entry/title" [] (.ofVal (.str s%"t")))
      (.cons s%"other" .hard
        (.group s%"/entry/other" [(s%"note", .int 3)]
          (.cons s%"x" .hard (.dataset s%"/entry/other/x" [] (.ofVal (.int 1))) .nil))
        .nil))) .nil

theorem sampleFile_ok : (catalog sampleEnv sampleFile).res = .ok () := by rfl

example : (catalog sampleEnv sampleFile).log.length = 9 := by
  rw [catalog_count sampleFile_ok]; rfl

/-! ## C08: class paths and addresses -/

theorem text_ne_nonNeXus (cs : List Str) : CP.text (some cs) ≠ nonNeXus := by
  cases cs with
  | nil => decide
  | cons c cs =>
    simp only [CP.text, List.flatMap_cons]
    intro h
    have : '/' = 'n' := by
      have := congrArg List.head? h
      simp [nonNeXus] at this
    exact absurd this (by decide)

theorem text_eq_nonNeXus {cp : CP} : cp.text = nonNeXus ↔ cp = none := by
  cases cp with
  | none => exact ⟨fun _ => rfl, fun _ => rfl⟩
  | some cs => simp [text_ne_nonNeXus]

/-- Class paths of groups: components are not empty and do not end with a slash. -/
def GoodCP (cp : CP) : Prop := ∀ cs, cp = some cs → ∀ c ∈ cs, c ≠ [] ∧ ¬ s%"/" <:+ c

theorem text_not_endsWith {cs : List Str} (h : ∀ c ∈ cs, c ≠ [] ∧ ¬ s%"/" <:+ c) :
    endsWith (CP.text (some cs)) s%"/" = false := by
  rw [Bool.eq_false_iff, ne_eq, endsWith_iff]
  intro hs
  rcases List.eq_nil_or_concat cs with rfl | ⟨l, c, rfl⟩
  · simp [CP.text] at hs
  · obtain ⟨hc, hn⟩ := h c (by simp)
    rw [CP.text, List.concat_eq_append, List.flatMap_append] at hs
    simp only [List.flatMap_cons, List.flatMap_nil, List.append_nil] at hs
    have h1 : c <:+ List.flatMap (fun c => '/' :: c) l ++ '/' :: c :=
      (List.suffix_cons _ _).trans (List.suffix_append _ _)
    rcases List.suffix_or_suffix_of_suffix hs h1 with h2 | h2
    · exact hn h2
    · have hl := h2.length_le
      have hpos : 0 < c.length := List.length_pos_iff.2 hc
      have hlen : c.length = 1 := by simp at hl; omega
      have := h2.eq_of_length (by simp [hlen])
      exact hn (this ▸ List.suffix_refl _)

theorem text_append (cs : List Str) (c : Str) :
    CP.text (some (cs ++ [c])) = CP.text (some cs) ++ s%"/" ++ c := by
  simp [CP.text]

/-- The class that decoded text denotes. -/
def classOfVal : Val → Option Str
  | .str c => if startsWith c s%"NX" then some c else none
  | _ => none

theorem decode_class (env : Env) (attrs : List (Str × Val)) {v : Val}
    (h : decodeByteString env ((attrGet attrs s%"NX_class").getD .none) = .ok v) :
    nxClassOf env attrs = classOfVal v := by
  have hif : ∀ c : Str, (if s%"NX" <+: c then some c else none) =
      (if startsWith c s%"NX" = true then some c else none) := by
    intro c; simp only [startsWith_iff]
  rw [nxClassOf]
  rw [attrGet] at h
  cases hl : attrs.lookup s%"NX_class" with
  | none =>
    simp [hl, decodeByteString] at h; subst h; rfl
  | some a =>
    simp only [hl, Option.getD_some] at h
    cases a with
    | str s => simp [decodeByteString] at h; subst h; simp [hif, classOfVal]
    | bytes b =>
      simp only [decodeByteString] at h
      cases hb : env.dec b with
      | none => simp [hb] at h
      | some s => simp [hb] at h; subst h; simp [hb, hif, classOfVal]
    | arrO xs =>
      simp only [decodeByteString] at h
      split at h <;> (injection h with h; subst h; rfl)
    | arrS xs =>
      simp only [decodeByteString] at h
      split at h
      · split at h
        · injection h with h; subst h; rfl
        · simp at h
      · injection h with h; subst h; rfl
    | _ => simp [decodeByteString] at h; subst h; rfl

theorem nxClassOf_prefix {env : Env} {attrs : List (Str × Val)} {c : Str}
    (h : nxClassOf env attrs = some c) : s%"NX" <+: c := by
  rw [nxClassOf] at h
  split at h
  · split at h
    · injection h with h; subst h; assumption
    · simp at h
  · split at h
    · split at h
      · injection h with h; subst h; assumption
      · simp at h
    · simp at h
  · simp at h

/-- The class path computed for a member of a group. -/
theorem cpOf_eq {env : Env} {parent : Item} {cp : CP} {n : Node}
    (hp : parent.classpath = cp.text) (hg : GoodCP cp) (hpl : PlainNode env n)
    (hd : determineClasspath env (some parent) (isHdf5Group (.node n)) (objName n.name) n.attrs =
      .ok (cpOf env (some parent) (.node n) n.name)) :
    (cpOf env (some parent) (.node n) n.name).1 = (cp.below env n).text := by
  have hname : objName n.name ≠ s%"/" := by
    rw [objName_eq, shortName, if_neg hpl.1]
    intro h
    have hb : '/' ∉ baseName n.name := by
      rw [baseName, List.mem_reverse]
      intro hm
      have := List.mem_takeWhile_imp hm
      simp at this
    rw [h] at hb
    simp at hb
  have hname2 : objName n.name = baseName n.name := by
    rw [objName_eq, shortName, if_neg hpl.1]
  rw [determineClasspath, if_neg hname] at hd
  cases cp with
  | none =>
    have hpn : parent.classpath = nonNeXus := hp
    rw [if_pos hpn] at hd
    injection hd with hd
    rw [← hd]
    cases n <;> rfl
  | some cs =>
    have h1 : parent.classpath ≠ nonNeXus := by rw [hp]; exact text_ne_nonNeXus cs
    have h2 : ¬ endsWith parent.classpath s%"/" = true := by
      rw [hp, text_not_endsWith (hg cs rfl)]; simp
    rw [if_neg h1, if_neg h2] at hd
    cases n with
    | dataset m a d =>
      simp only [isHdf5Group] at hd
      injection hd with hd
      rw [← hd]
      simp only [CP.below, Option.map_some, text_append, hp, hname2]
      rfl
    | datatype m a =>
      simp only [isHdf5Group] at hd
      injection hd with hd
      rw [← hd]
      simp only [CP.below, Option.map_some, text_append, hp, hname2]
      rfl
    | group m a ks =>
      simp only [isHdf5Group, if_true, Node.attrs] at hd
      cases hdec : decodeByteString env ((attrGet a s%"NX_class").getD .none) with
      | error e => rw [hdec] at hd; exact absurd hd (by intro h; cases h)
      | ok v =>
        rw [hdec] at hd
        have hc := decode_class env a hdec
        simp only [CP.below, hc]
        generalize cpOf env (some parent) (.node (.group m a ks)) (Node.group m a ks).name = r at hd ⊢
        cases v with
        | str c =>
          by_cases hs : startsWith c s%"NX" = true
          · simp only [bind, Except.bind, hs, if_true, Except.ok.injEq] at hd
            simp only [classOfVal, hs, if_true]
            rw [← hd, text_append, hp]
          · simp only [bind, Except.bind, hs] at hd
            injection hd with hd
            simp only [classOfVal, hs]
            rw [← hd]; rfl
        | _ =>
          injection hd with hd
          rw [← hd]; rfl

theorem goodCP_below {env : Env} {cp : CP} {n : Str} {a : List (Str × Val)} {ks : Kids}
    (hg : GoodCP cp) (hpl : PlainNode env (.group n a ks)) :
    GoodCP (cp.below env (.group n a ks)) := by
  intro cs hcs
  simp only [CP.below] at hcs
  cases cp with
  | none => simp at hcs
  | some ds =>
    cases hc : nxClassOf env a with
    | none => simp [hc] at hcs
    | some c =>
      simp only [hc, Option.some.injEq] at hcs
      subst hcs
      intro x hx
      rcases List.mem_append.1 hx with hx | hx
      · exact hg ds rfl x hx
      · simp at hx
        subst hx
        refine ⟨?_, hpl.2 x hc⟩
        intro e
        have := nxClassOf_prefix hc
        rw [e] at this
        simp at this

/-- What the specification says about an item. -/
def Item.entry (it : Item) : Entry := (it.obj, it.addr, it.classpath)

theorem attrItemsOf_entry {v : Item} {n : Str} {cp : CP} (hc : v.classpath = cp.text)
    (ha : v.addr = some n) (j : Nat) (l : List (Str × Val)) :
    (attrItemsOf v j l).map Item.entry = attrEntries n cp l := by
  induction l generalizing j with
  | nil => rfl
  | cons ka rest ih =>
    rw [attrItemsOf, List.map_cons, ih]
    simp only [attrEntries, List.map_cons]
    clear ih
    congr 1
    cases cp with
    | none =>
      have : v.classpath = nonNeXus := hc
      rw [attrItem, if_pos this]; rfl
    | some cs =>
      have : v.classpath ≠ nonNeXus := by rw [hc]; exact text_ne_nonNeXus cs
      rw [attrItem, if_neg this]
      simp [Item.entry, ha, hc]

mutual
theorem nodeItems_entry (env : Env) (parent : Item) (oid : List Nat) (cp : CP)
    (hp : parent.classpath = cp.text) (hg : GoodCP cp) : (n : Node) →
    AllNodes (PlainNode env) n → (catalogNode env parent oid n).res = .ok () →
    (nodeItems env parent oid n).map Item.entry = entriesNode env cp n
  | .group n a kids, hpl, h => by
    rw [AllNodes] at hpl
    rw [catalogNode, W.bind_ok_iff] at h
    obtain ⟨⟨v, avs⟩, h1, h2⟩ := h
    obtain ⟨e1, e2, hm⟩ := getSubject_ok (n := n) rfl h1
    simp only [Prod.mk.injEq] at e1
    obtain ⟨rfl, rfl⟩ := e1
    obtain ⟨_, hd, _⟩ := mkItem_ok (n := n) rfl hm
    have hcp := cpOf_eq (n := .group n a kids) hp hg hpl.1 hd
    have hcl : (objItem env (some parent) (.node (.group n a kids)) n oid).classpath =
      (cp.below env (.group n a kids)).text := hcp
    have hk := kidsItems_entry env (parentFor (objItem env (some parent)
        (.node (.group n a kids)) n oid) a) oid 0 (cp.below env (.group n a kids))
        (by rw [parentFor_classpath]; exact hcl) (goodCP_below hg hpl.1) kids hpl.2 h2
    rw [nodeItems, entriesNode]
    simp only [List.map_append, List.map_cons, hk,
      attrItemsOf_entry (n := n) hcl rfl]
    simp [Item.entry, objItem, sortAttrs, sortByName]
    exact hcp
  | .dataset n a d, hpl, h => by
    rw [AllNodes] at hpl
    rw [catalogNode, W.bind_ok_iff] at h
    obtain ⟨⟨v, avs⟩, h1, _⟩ := h
    obtain ⟨_, _, hm⟩ := getSubject_ok (n := n) rfl h1
    obtain ⟨_, hd, _⟩ := mkItem_ok (n := n) rfl hm
    have hcp := cpOf_eq (n := .dataset n a d) hp hg hpl hd
    have hcl : (objItem env (some parent) (.node (.dataset n a d)) n oid).classpath =
      (cp.below env (.dataset n a d)).text := hcp
    rw [nodeItems, entriesNode]
    simp only [List.map_cons, attrItemsOf_entry (n := n) hcl rfl]
    simp [Item.entry, objItem, sortAttrs, sortByName]
    exact hcp
  | .datatype n a, hpl, h => by
    rw [AllNodes] at hpl
    rw [catalogNode, W.bind_ok_iff] at h
    obtain ⟨⟨v, avs⟩, h1, _⟩ := h
    obtain ⟨_, _, hm⟩ := getSubject_ok (n := n) rfl h1
    obtain ⟨_, hd, _⟩ := mkItem_ok (n := n) rfl hm
    have hcp := cpOf_eq (n := .datatype n a) hp hg hpl hd
    have hcl : (objItem env (some parent) (.node (.datatype n a)) n oid).classpath =
      (cp.below env (.datatype n a)).text := hcp
    rw [nodeItems, entriesNode]
    simp only [List.map_cons, attrItemsOf_entry (n := n) hcl rfl]
    simp [Item.entry, objItem, sortAttrs, sortByName]
    exact hcp
theorem kidsItems_entry (env : Env) (parent : Item) (oid : List Nat) (i : Nat) (cp : CP)
    (hp : parent.classpath = cp.text) (hg : GoodCP cp) : (ks : Kids) →
    AllKids (PlainNode env) ks → (catalogKids env parent oid i ks).res = .ok () →
    (kidsItems env parent oid i ks).map Item.entry = entriesKids env cp ks
  | .nil, _, _ => by rw [kidsItems, entriesKids]; rfl
  | .cons l k n rest, hpl, h => by
    rw [AllKids] at hpl
    rw [catalogKids, W.bind_ok_iff] at h
    obtain ⟨⟨⟩, h1, h2⟩ := h
    rw [kidsItems, entriesKids, List.map_append, nodeItems_entry env _ _ cp hp hg n hpl.1 h1,
      kidsItems_entry env _ _ (i + 1) cp hp hg rest hpl.2 h2]
  | .broken l k rest, _, h => by rw [catalogKids] at h; simp at h
end

/-- C08: the items of a completed catalogue have exactly the addresses and class paths of
the specification: the class path of a group extends that of the containing group by its
NX_class, that of a field by its name, attributes add `@` and their name; below a group
without NX_class starting with "NX" everything is non-NeXus content, without addresses for
attributes.  Excluded: root groups of other files and classes ending with a slash. -/
theorem catalog_entries {env : Env} {f : H5File} (h : (catalog env f).res = .ok ())
    (hpl : AllKids (PlainNode env) f.kids) :
    (catalog env f).log.map Item.entry = entriesFile env f := by
  have hlog := catalog_log h
  rw [catalog, W.bind_ok_iff] at h
  obtain ⟨⟨v, avs⟩, h1, h2⟩ := h
  obtain ⟨e1, _, _⟩ := getSubject_ok (n := s%"/") rfl h1
  simp only [Prod.mk.injEq] at e1
  obtain ⟨rfl, rfl⟩ := e1
  rw [objItem_root] at h2
  have hpar : childParent (rootItem f) (attrItemsOf (rootItem f) 0 (sortAttrs f.attrs)) =
      rootItem f :=
    parentFor_of_nexus (v := rootItem f) (by show ([] : Str) ≠ nonNeXus; decide) f.attrs
  simp only [hpar] at h2
  rw [hlog, fileItems, entriesFile, List.map_append, List.map_cons,
    attrItemsOf_entry (n := s%"/") (cp := some []) rfl rfl,
    kidsItems_entry env (rootItem f) [] 0 (some []) rfl (by intro cs h; injection h with h; subst h; simp) f.kids hpl h2]
  rfl

example : AllKids (PlainNode sampleEnv) sampleFile.kids := by
  simp [AllKids, AllNodes, sampleFile, PlainNode, Node.name, Node.attrs, nxClassOf, sampleEnv]
  decide

end Punx

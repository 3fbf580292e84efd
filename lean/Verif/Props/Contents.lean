import Verif.Spec.Contents
import Verif.Props.Catalog2

/-!
# The catalogue of a file is the list of its contents
-/

namespace Punx
open Spec

theorem attributeItem_eq {v : Item} (hv : v.addr.isSome) (j : Nat) (ka : Str × Val) :
    attrItem v j ka = attributeItem v j ka := by
  obtain ⟨a, ha⟩ := Option.isSome_iff_exists.1 hv
  rw [attrItem, attributeItem]
  by_cases h : v.classpath = nonNeXus
  · have h' : v.classpath = s%"non-NeXus content" := h
    rw [if_pos h, if_pos h', if_pos h', h]; rfl
  · have h' : ¬ v.classpath = s%"non-NeXus content" := h
    rw [if_neg h, if_neg h', if_neg h', ha]; rfl

theorem attributeItems_eq {v : Item} (hv : v.addr.isSome) (j : Nat) (l : List (Str × Val)) :
    attrItemsOf v j l = attributeItems v j l := by
  induction l generalizing j with
  | nil => rfl
  | cons ka rest ih => rw [attrItemsOf, attributeItems, ih, attributeItem_eq hv]

theorem containerOf_eq {v : Item} (hv : v.addr.isSome) (a : List (Str × Val)) :
    parentFor v a = containerOf v a := by
  rw [containerOf]
  by_cases h : v.classpath = nonNeXus
  · have h' : v.classpath = s%"non-NeXus content" := h
    rw [if_pos h', parentFor_of_nonNexus h, attributeItems_eq hv]; rfl
  · have h' : ¬ v.classpath = s%"non-NeXus content" := h
    rw [if_neg h', parentFor_of_nexus h]

/-- The item that the code makes for a member of a group. -/
theorem memberItem_eq {env : Env} {p : Item} {n : Node} {pos : List Nat} (hn : n.name ≠ s%"/")
    (hd : determineClasspath env (some p) (isHdf5Group (.node n)) (objName n.name) n.attrs =
      .ok (cpOf env (some p) (.node n) n.name)) :
    objItem env (some p) (.node n) n.name pos = memberItem env p pos n := by
  have hname2 : objName n.name = baseName n.name := by rw [objName_eq, shortName, if_neg hn]
  have hname : objName n.name ≠ s%"/" := by
    rw [hname2]
    intro h
    have hb : '/' ∉ baseName n.name := by
      rw [baseName, List.mem_reverse]
      intro hm
      have := List.mem_takeWhile_imp hm
      simp at this
    rw [h] at hb
    simp at hb
  have key : cpOf env (some p) (.node n) n.name =
      (classpathIn env p.classpath n, classIn env p.classpath n) := by
    rw [determineClasspath, if_neg hname] at hd
    generalize cpOf env (some p) (.node n) n.name = r at hd ⊢
    by_cases h1 : p.classpath = nonNeXus
    · have h1' : p.classpath = s%"non-NeXus content" := h1
      simp only [if_pos h1] at hd
      injection hd with hd
      rw [← hd, classpathIn.eq_def, if_pos h1', h1]
      cases n with
      | group m a ks => simp only [classIn]; rw [if_pos (.inl rfl)]
      | _ => rfl
    have h1' : ¬ p.classpath = s%"non-NeXus content" := h1
    simp only [if_neg h1] at hd
    by_cases h2 : endsWith p.classpath s%"/" = true
    · have h2' := endsWith_iff.1 h2
      rw [if_pos h2] at hd
      injection hd with hd
      rw [← hd, classpathIn.eq_def, if_neg h1', if_pos h2']
      cases n with
      | group m a ks => simp only [classIn]; rw [if_pos (.inr h2')]
      | _ => rfl
    have h2' : ¬ s%"/" <:+ p.classpath := fun h => h2 (endsWith_iff.2 h)
    rw [if_neg h2] at hd
    rw [classpathIn.eq_def, if_neg h1', if_neg h2']
    cases n with
    | dataset m a d =>
      simp only [isHdf5Group] at hd
      injection hd with hd
      rw [← hd, hname2]
      simp [classIn, Node.name]
    | datatype m a =>
      simp only [isHdf5Group] at hd
      injection hd with hd
      rw [← hd, hname2]
      simp [classIn, Node.name]
    | group m a ks =>
      simp only [isHdf5Group, if_true, Node.attrs] at hd
      simp only [classIn]
      rw [if_neg (by rintro (h | h); exacts [h1' h, h2' h])]
      cases hdec : decodeByteString env ((attrGet a s%"NX_class").getD .none) with
      | error e => rw [hdec] at hd; exact absurd hd (by intro h; cases h)
      | ok v =>
        rw [hdec] at hd
        rw [decode_class env a hdec]
        cases v with
        | str c =>
          by_cases hs : startsWith c s%"NX" = true
          · simp only [bind, Except.bind, hs, if_true, Except.ok.injEq] at hd
            simp only [classOfVal, hs, if_true]
            rw [← hd]
            simp
          · simp only [bind, Except.bind, hs] at hd
            injection hd with hd
            simp only [classOfVal, hs]
            rw [← hd]; rfl
        | _ =>
          injection hd with hd
          rw [← hd]; rfl
  rw [objItem, key, hname2]
  rfl

theorem member_name_ne_root {path l : Str} {n : Node} (hl : l ≠ [])
    (h : WellNamed (path ++ '/' :: l) n) : n.name ≠ s%"/" := by
  rw [wellNamed_name h]
  intro e
  have := congrArg List.length e
  cases l with
  | nil => exact hl rfl
  | cons c l => simp at this; omega

mutual
theorem contentsNode_eq (env : Env) (p : Item) (pos : List Nat) (path : Str) : (n : Node) →
    n.name ≠ s%"/" → WellNamed path n → (catalogNode env p pos n).res = .ok () →
    nodeItems env p pos n = contentsNode env p pos n
  | .group n a kids, hne, hw, h => by
    rw [catalogNode, W.bind_ok_iff] at h
    obtain ⟨⟨v, avs⟩, h1, h2⟩ := h
    obtain ⟨e1, _, hm⟩ := getSubject_ok (n := n) rfl h1
    simp only [Prod.mk.injEq] at e1
    obtain ⟨rfl, rfl⟩ := e1
    obtain ⟨_, hd, _⟩ := mkItem_ok (n := n) rfl hm
    have e := memberItem_eq (pos := pos) (n := .group n a kids) hne hd
    have hk := contentsKids_eq env (parentFor (objItem env (some p) (.node (.group n a kids)) n pos) a)
      pos 0 n kids (by
        rw [WellNamed] at hw
        rw [hw.1]
        exact hw.2.2.2) h2
    rw [nodeItems, contentsNode]
    simp only [hk]
    rw [show objItem env (some p) (.node (.group n a kids)) n pos =
      memberItem env p pos (.group n a kids) from e, attributeItems_eq rfl, containerOf_eq rfl]
    rfl
  | .dataset n a d, hne, hw, h => by
    rw [catalogNode, W.bind_ok_iff] at h
    obtain ⟨⟨v, avs⟩, h1, _⟩ := h
    obtain ⟨_, _, hm⟩ := getSubject_ok (n := n) rfl h1
    obtain ⟨_, hd, _⟩ := mkItem_ok (n := n) rfl hm
    have e := memberItem_eq (pos := pos) (n := .dataset n a d) hne hd
    rw [nodeItems, contentsNode]
    rw [show objItem env (some p) (.node (.dataset n a d)) n pos =
      memberItem env p pos (.dataset n a d) from e, attributeItems_eq rfl]
    rfl
  | .datatype n a, hne, hw, h => by
    rw [catalogNode, W.bind_ok_iff] at h
    obtain ⟨⟨v, avs⟩, h1, _⟩ := h
    obtain ⟨_, _, hm⟩ := getSubject_ok (n := n) rfl h1
    obtain ⟨_, hd, _⟩ := mkItem_ok (n := n) rfl hm
    have e := memberItem_eq (pos := pos) (n := .datatype n a) hne hd
    rw [nodeItems, contentsNode]
    rw [show objItem env (some p) (.node (.datatype n a)) n pos =
      memberItem env p pos (.datatype n a) from e, attributeItems_eq rfl]
    rfl
theorem contentsKids_eq (env : Env) (p : Item) (pos : List Nat) (i : Nat) (path : Str) :
    (ks : Kids) → WellNamedKids path ks → (catalogKids env p pos i ks).res = .ok () →
    kidsItems env p pos i ks = contentsKids env p pos i ks
  | .nil, _, _ => by rw [kidsItems, contentsKids]
  | .cons l k n rest, hw, h => by
    rw [catalogKids, W.bind_ok_iff] at h
    obtain ⟨⟨⟩, h1, h2⟩ := h
    rw [WellNamedKids] at hw
    rw [kidsItems, contentsKids,
      contentsNode_eq env _ _ _ n (member_name_ne_root hw.1 hw.2.2.2.1) hw.2.2.2.1 h1,
      contentsKids_eq env _ _ (i + 1) path rest hw.2.2.2.2 h2]
  | .broken l k rest, _, h => by rw [catalogKids] at h; simp at h
end

/-- The catalogue of a file is the list of its contents. -/
theorem catalog_contents {env : Env} {f : H5File} (hw : WellNamedFile f)
    (h : (catalog env f).res = .ok ()) : (catalog env f).log = contents env f := by
  have hlog := catalog_log h
  rw [catalog, W.bind_ok_iff] at h
  obtain ⟨⟨v, avs⟩, h1, h2⟩ := h
  obtain ⟨e1, _, _⟩ := getSubject_ok (n := s%"/") rfl h1
  simp only [Prod.mk.injEq] at e1
  obtain ⟨rfl, rfl⟩ := e1
  rw [objItem_root] at h2
  have hpar : childParent (rootItem f) (attrItemsOf (rootItem f) 0 (sortAttrs f.attrs)) =
      rootItem f :=
    parentFor_of_nexus (v := rootItem f) (by show ([] : Str) ≠ nonNeXus; decide) f.attrs
  simp only [hpar] at h2
  rw [hlog, fileItems, contents, contentsKids_eq env _ [] 0 [] f.kids hw.2.2 h2,
    attributeItems_eq rfl]
  rfl

end Punx

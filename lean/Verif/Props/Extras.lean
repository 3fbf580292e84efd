import Verif.Spec.Extras
import Verif.Props.Notes2

/-!
# C129: additional content, the items of a file with and without it
-/

namespace Punx
open Spec

variable {env : Env} {mgr : Manager} {X : Node → Bool} {f : H5File}

/-! ## objects -/

/-- What an item refers to, without additional content. -/
def trimObj (X : Node → Bool) : H5Obj → H5Obj
  | .file f => .file (trim X f)
  | .node n => .node (trimNode X n)
  | .val v => .val v
  | .none => .none

theorem trim_root (f : H5File) : (trim X f).root = trimNode X f.root := by
  simp only [H5File.root, trim, trimNode]

theorem trimNode_name (n : Node) : (trimNode X n).name = n.name := by
  cases n <;> simp only [trimNode, Node.name]

theorem trimNode_attrs (n : Node) : (trimNode X n).attrs = n.attrs := by
  cases n <;> simp only [trimNode, Node.attrs]

/-- The links that are left. -/
theorem trimKids_names : ∀ ks : Kids,
    ((trimKids X ks).toList.map (·.1)).Sublist (ks.toList.map (·.1))
  | .nil => by simp [trimKids, Kids.toList]
  | .cons l k n r => by
    rw [trimKids]
    split
    · exact (trimKids_names r).cons _
    · exact (trimKids_names r).cons_cons _
  | .broken l k r => by
    rw [trimKids]
    exact (trimKids_names r).cons_cons _

/-- A member that is left is a member. -/
theorem trimKids_find {c : Str} : ∀ {ks : Kids} {o : Option Node},
    (ks.toList.map (·.1)).Nodup → (trimKids X ks).find c = some o →
    ∃ o', ks.find c = some o' ∧ o = o'.map (trimNode X)
  | .nil, o, _, h => by simp [trimKids, Kids.find, Kids.toList] at h
  | .cons l k n r, o, d, h => by
    have hd : l ∉ r.toList.map (·.1) ∧ (r.toList.map (·.1)).Nodup := List.nodup_cons.1 d
    have hr : (trimKids X r).find c = some o → ∃ o', (Kids.cons l k n r).find c = some o' ∧
        o = o'.map (trimNode X) := by
      intro h
      obtain ⟨o', h1, h2⟩ := trimKids_find hd.2 h
      refine ⟨o', ?_, h2⟩
      have hne : (c == l) = false := by
        rw [beq_eq_false_iff_ne]
        rintro rfl
        rw [Kids.find, List.lookup_eq_some_iff] at h1
        obtain ⟨a, b, e, _⟩ := h1
        exact hd.1 (by rw [e]; simp)
      rw [Kids.find, Kids.toList, List.lookup_cons, hne]
      exact h1
    rw [trimKids] at h
    split at h
    · exact hr h
    · rw [Kids.find, Kids.toList, List.lookup_cons] at h
      split at h
      · rename_i e
        cases h
        exact ⟨some n, by rw [Kids.find, Kids.toList, List.lookup_cons, e], rfl⟩
      · exact hr h
  | .broken l k r, o, d, h => by
    have hd : l ∉ r.toList.map (·.1) ∧ (r.toList.map (·.1)).Nodup := List.nodup_cons.1 d
    rw [trimKids, Kids.find, Kids.toList, List.lookup_cons] at h
    split at h
    · rename_i e
      cases h
      exact ⟨none, by rw [Kids.find, Kids.toList, List.lookup_cons, e], rfl⟩
    · rename_i e
      obtain ⟨o', h1, h2⟩ := trimKids_find hd.2 h
      exact ⟨o', by rw [Kids.find, Kids.toList, List.lookup_cons, e]; exact h1, h2⟩

theorem distinct_find {c : Str} {m : Node} : ∀ {ks : Kids}, DistinctKids ks →
    ks.find c = some (some m) → Distinct m
  | .nil, _, h => by simp [Kids.find, Kids.toList] at h
  | .cons l k n r, d, h => by
    rw [DistinctKids] at d
    rw [Kids.find, Kids.toList, List.lookup_cons] at h
    split at h
    · cases h; exact d.1
    · exact distinct_find d.2 h
  | .broken l k r, d, h => by
    rw [DistinctKids] at d
    rw [Kids.find, Kids.toList, List.lookup_cons] at h
    split at h
    · cases h
    · exact distinct_find d h

/-- What is found without the additional content is found with it. -/
theorem trim_resolve : ∀ (cs : List Str) {s m : Node}, Distinct s →
    resolve (trimNode X s) cs = some m → ∃ n, resolve s cs = some n ∧ m = trimNode X n
  | [], s, m, _, h => by
    simp only [resolve, Option.some.injEq] at h
    exact ⟨s, rfl, h.symm⟩
  | c :: cs, s, m, d, h => by
    cases s with
    | dataset => simp [resolve, trimNode] at h
    | datatype => simp [resolve, trimNode] at h
    | group n a ks =>
      rw [Distinct] at d
      simp only [resolve, trimNode] at h
      cases e : (trimKids X ks).find c with
      | none => rw [e] at h; cases h
      | some o =>
        rw [e] at h
        obtain ⟨o', h1, rfl⟩ := trimKids_find d.2.1 e
        cases o' with
        | none => cases h
        | some k =>
          obtain ⟨n', h2, h3⟩ := trim_resolve cs (distinct_find d.2.2 h1) h
          exact ⟨n', by rw [resolve, h1]; exact h2, h3⟩

theorem trim_linkExists : ∀ (cs : List Str) {s : Node}, Distinct s →
    linkExists (trimNode X s) cs = true → linkExists s cs = true
  | [], _, _, _ => rfl
  | [c], s, d, h => by
    cases s with
    | dataset => simp [linkExists, trimNode] at h
    | datatype => simp [linkExists, trimNode] at h
    | group n a ks =>
      rw [Distinct] at d
      simp only [linkExists, trimNode] at h ⊢
      obtain ⟨o, e⟩ := Option.isSome_iff_exists.1 h
      obtain ⟨o', h1, _⟩ := trimKids_find d.2.1 e
      rw [h1]; rfl
  | c :: c' :: cs, s, d, h => by
    cases s with
    | dataset => simp [linkExists, trimNode] at h
    | datatype => simp [linkExists, trimNode] at h
    | group n a ks =>
      rw [Distinct] at d
      simp only [linkExists, trimNode] at h
      cases e : (trimKids X ks).find c with
      | none => rw [e] at h; cases h
      | some o =>
        rw [e] at h
        obtain ⟨o', h1, rfl⟩ := trimKids_find d.2.1 e
        cases o' with
        | none => cases h
        | some k =>
          have := trim_linkExists (c' :: cs) (distinct_find d.2.2 h1) h
          simp only [linkExists, h1]
          exact this

theorem Spec.WellNamedFile.root (w : WellNamedFile f) : Distinct f.root := by
  rw [H5File.root, Distinct]
  exact ⟨w.1, w.2.1, Spec.WellNamedKids.distinct _ w.2.2⟩

theorem trim_start (f : H5File) (g : Node) (p : Str) :
    startNode (trim X f) (trimNode X g) p = trimNode X (startNode f g p) := by
  unfold startNode
  split
  · exact trim_root f
  · rfl

theorem start_distinct (w : WellNamedFile f) {g : Node} (d : Distinct g) (p : Str) :
    Distinct (startNode f g p) := by
  unfold startNode
  split
  · exact w.root
  · exact d

theorem trim_contains (w : WellNamedFile f) {g : Node} (d : Distinct g) {p : Str}
    (h : h5contains (trim X f) (trimNode X g) p = true) : h5contains f g p = true := by
  refine h5contains_mono (fun k => ?_) (fun k => ?_) h
  · rw [trim_start] at k
    obtain ⟨m, k, hm⟩ := groupThere_iff.1 k
    obtain ⟨n, k', rfl⟩ := trim_resolve _ (start_distinct w d p) k
    refine groupThere_iff.2 ⟨n, k', ?_⟩
    cases n <;> simp_all [trimNode, Node.grp]
  · rw [trim_start] at k
    exact trim_linkExists _ (start_distinct w d p) k

theorem trim_contains_root (w : WellNamedFile f) {p : Str}
    (h : h5contains (trim X f) (trim X f).root p = true) : h5contains f f.root p = true :=
  trim_contains w w.root (by rwa [trim_root] at h)

theorem trim_get (w : WellNamedFile f) {g : Node} (d : Distinct g) {p : Str} {m : Node}
    (h : h5get (trim X f) (trimNode X g) p = .ok (some m)) :
    ∃ n, h5get f g p = .ok (some n) ∧ m = trimNode X n := by
  unfold h5get at h ⊢
  split at h
  · cases h
  · rename_i hp
    rw [if_neg hp]
    rw [trim_start] at h
    obtain ⟨n, h1, h2⟩ := trim_resolve _ (start_distinct w d p) (Except.ok.inj h)
    exact ⟨n, by rw [h1], h2⟩

/-! ## classes -/

theorem slash_suffix {p c : Str} (hc : c ≠ []) (h : s%"/" <:+ p ++ '/' :: c) : s%"/" <:+ c := by
  obtain ⟨t, e⟩ := h
  rcases List.eq_nil_or_concat c with rfl | ⟨c', x, rfl⟩
  · exact absurd rfl hc
  rw [List.concat_eq_append] at e ⊢
  clear hc
  have h1 : (t ++ s%"/").getLast? = (p ++ '/' :: (c' ++ [x])).getLast? := by rw [e]
  have h2 : (p ++ '/' :: (c' ++ [x])).getLast? = some x := by
    rw [show p ++ '/' :: (c' ++ [x]) = (p ++ '/' :: c') ++ [x] by simp, List.getLast?_concat]
  rw [h2, List.getLast?_concat] at h1
  cases h1
  exact ⟨c', rfl⟩

theorem suffix_name {p l s : Str} {x : Char} (hl : x ∉ l) (hs : '/' ∉ s)
    (h : x :: s <:+ p ++ '/' :: l) (hx : x ≠ '/') : False := by
  have h2 : '/' :: l <:+ p ++ '/' :: l := List.suffix_append _ _
  rcases List.suffix_or_suffix_of_suffix h h2 with h3 | h3
  · rcases List.suffix_cons_iff.1 h3 with h3 | h3
    · injection h3 with h3; exact hx h3
    · exact hl (h3.subset (by simp))
  · have := h3.subset (List.mem_cons_self ..)
    rcases List.mem_cons.1 this with h4 | h4
    · exact hx h4.symm
    · exact hs h4

theorem baseName_member {p l : Str} (h : '/' ∉ l) : Spec.baseName (p ++ '/' :: l) = l := by
  rw [Spec.baseName, List.reverse_append, List.reverse_cons, List.append_assoc,
    List.takeWhile_append_of_pos]
  · simp
  · intro x hx
    rw [List.mem_reverse] at hx
    have : x ≠ '/' := by rintro rfl; exact h hx
    simpa using this

/-! ## items -/

/-- An item of the file without additional content, and one of the file. -/
structure TrimCore (X : Node → Bool) (c c' : Core) : Prop where
  obj : c.obj = trimObj X c'.obj
  name : c.name = c'.name
  addr : c.addr = c'.addr
  classpath : c.classpath = c'.classpath
  nxClass : c.nxClass = c'.nxClass
  there : ∀ n, c'.obj = .node n → c'.addr = some n.name
  distinct : ∀ g, c'.obj.asGroup = some g → Distinct g

/-- The same with containers. -/
structure TrimRel (X : Node → Bool) (it it' : Item) : Prop where
  core : TrimCore X it.toCore it'.toCore
  ancestors : it'.classpath ≠ s%"non-NeXus content" →
    List.Forall₂ (TrimCore X) it.ancestors it'.ancestors
  nexus : it'.classpath ≠ s%"non-NeXus content" →
    ∀ c ∈ it'.ancestors, c.classpath ≠ s%"non-NeXus content"

/-- Containers. -/
structure TrimBox (X : Node → Bool) (c c' : Item) : Prop where
  classpath : c.classpath = c'.classpath
  rel : c'.classpath ≠ s%"non-NeXus content" → TrimRel X c c'

theorem TrimRel.box {c c' : Item} (h : TrimRel X c c') : TrimBox X c c' :=
  ⟨h.core.classpath, fun _ => h⟩

theorem TrimRel.parent {it it' p' : Item} (h : TrimRel X it it')
    (hc : it'.classpath ≠ s%"non-NeXus content") (e : it'.parent = some p') :
    ∃ p, it.parent = some p ∧ TrimRel X p p' ∧ p'.classpath ≠ s%"non-NeXus content" := by
  have h2 := h.ancestors hc
  have h3 := h.nexus hc
  rw [Item.parent] at e ⊢
  generalize it.ancestors = l at *
  generalize it'.ancestors = l' at *
  cases h2 with
  | nil => cases e
  | cons x k =>
    cases e
    exact ⟨_, rfl, ⟨x, fun _ => k, fun _ c hc => h3 c (List.mem_cons_of_mem _ hc)⟩, h3 _ (by simp)⟩

theorem TrimRel.parent' {it it' p : Item} (h : TrimRel X it it')
    (hc : it'.classpath ≠ s%"non-NeXus content") (e : it.parent = some p) :
    ∃ p', it'.parent = some p' ∧ TrimRel X p p' ∧ p'.classpath ≠ s%"non-NeXus content" := by
  have h2 := h.ancestors hc
  have h3 := h.nexus hc
  rw [Item.parent] at e ⊢
  generalize it.ancestors = l at *
  generalize it'.ancestors = l' at *
  cases h2 with
  | nil => cases e
  | cons x k =>
    cases e
    exact ⟨_, rfl, ⟨x, fun _ => k, fun _ c hc => h3 c (List.mem_cons_of_mem _ hc)⟩, h3 _ (by simp)⟩

theorem classpathIn_trim (cp : Str) (n : Node) :
    classpathIn env cp (trimNode X n) = classpathIn env cp n := by
  cases n <;> simp only [trimNode, classpathIn]

theorem classIn_trim (cp : Str) (n : Node) :
    classIn env cp (trimNode X n) = classIn env cp n := by
  cases n <;> simp only [trimNode, classIn]

theorem memberItem_trim {c c' : Item} (hc : TrimBox X c c') (pos pos' : List Nat)
    {n : Node} (d : Distinct n) :
    TrimRel X (memberItem env c pos (trimNode X n)) (memberItem env c' pos' n) := by
  have hcp : (memberItem env c' pos' n).classpath ≠ s%"non-NeXus content" →
      c'.classpath ≠ s%"non-NeXus content" := by
    intro h e
    refine h ?_
    show classpathIn env c'.classpath n = _
    rw [classpathIn.eq_def, if_pos e, e]
  refine ⟨⟨rfl, ?_, ?_, ?_, ?_, ?_, ?_⟩, fun h => ?_, fun h x hx => ?_⟩
  · show Spec.baseName (trimNode X n).name = Spec.baseName n.name
    rw [trimNode_name]
  · show some (trimNode X n).name = some n.name
    rw [trimNode_name]
  · show classpathIn env c.classpath (trimNode X n) = classpathIn env c'.classpath n
    rw [hc.classpath, classpathIn_trim]
  · show classIn env c.classpath (trimNode X n) = classIn env c'.classpath n
    rw [hc.classpath, classIn_trim]
  · intro m e
    cases e
    rfl
  · intro g e
    change H5Obj.asGroup (.node n) = some g at e
    cases n with
    | group => cases e; exact d
    | dataset => cases e
    | datatype => cases e
  · have hr := hc.rel (hcp h)
    exact .cons hr.core (hr.ancestors (hcp h))
  · have hr := hc.rel (hcp h)
    rcases List.mem_cons.1 hx with rfl | hx
    · exact hcp h
    · exact hr.nexus (hcp h) x hx

theorem attributeItem_trim {o o' : Item} (h : TrimRel X o o') (j j' : Nat) (ka : Str × Val) :
    TrimRel X (attributeItem o j ka) (attributeItem o' j' ka) := by
  have hcp : (attributeItem o' j' ka).classpath ≠ s%"non-NeXus content" →
      o'.classpath ≠ s%"non-NeXus content" := by
    intro h e
    refine h ?_
    rw [attributeItem]
    simp only [e, if_true]
  refine ⟨⟨rfl, rfl, ?_, ?_, rfl, fun n e => (by cases e), fun n e => (by cases e)⟩, fun hx => ?_,
    fun hx x hx' => ?_⟩
  · rw [attributeItem, attributeItem]
    simp only [h.core.addr, h.core.classpath]
  · rw [attributeItem, attributeItem]
    simp only [h.core.classpath]
  · exact .cons h.core (h.ancestors (hcp hx))
  · rcases List.mem_cons.1 hx' with rfl | hx'
    · exact hcp hx
    · exact h.nexus (hcp hx) x hx'

theorem containerOf_trim {o o' : Item} (h : TrimRel X o o') (a a' : List (Str × Val)) :
    TrimBox X (containerOf o a) (containerOf o' a') := by
  by_cases hc : o'.classpath = s%"non-NeXus content"
  · have hc' : o.classpath = s%"non-NeXus content" := h.core.classpath.trans hc
    exact ⟨by rw [containerOf_outside hc, containerOf_outside hc'],
      fun hx => absurd (containerOf_outside hc) hx⟩
  · have hc' : o.classpath ≠ s%"non-NeXus content" := fun e => hc (h.core.classpath ▸ e)
    rw [containerOf, containerOf, if_neg hc, if_neg hc']
    exact h.box

/-! ## additional items -/

/-- Items of additional content: objects with valid names, in NeXus content only fields with notes,
and neither signals nor definitions. -/
structure ExtraItem (env : Env) (mgr : Manager) (it : Item) : Prop where
  name : ∀ n, it.obj = .node n → NameOk env mgr it.name
  attrs : it.classpath ≠ s%"non-NeXus content" → ∀ a, it.obj.attrs? = some a →
    ∀ ka ∈ a, IsNote ka.1 ∧ NameOk env mgr ka.1
  group : ∀ g, it.obj.asGroup = some g → it.classpath = s%"non-NeXus content"
  definition : ¬ IsDefinition it
  signal : ¬ s%"@signal" <:+ it.classpath

theorem extraItem_outside {it : Item} (h : it.classpath = s%"non-NeXus content")
    (hn : ∀ n, it.obj = .node n → NameOk env mgr it.name) : ExtraItem env mgr it := by
  refine ⟨hn, fun k => absurd h k, fun _ _ => h, ?_, ?_⟩
  · rintro (k | k) <;> rw [h] at k <;> simp at k
  · rw [h]; decide

theorem attributeItems_outside {o : Item} (h : o.classpath = s%"non-NeXus content") {j : Nat}
    {l : List (Str × Val)} : ∀ x ∈ attributeItems o j l, ExtraItem env mgr x := by
  intro x hx
  obtain ⟨i, ka, _, rfl⟩ := mem_attributeItems_note hx
  refine extraItem_outside ?_ fun n e => by cases e
  rw [attributeItem]
  simp only [h, if_true]

theorem memberItem_outside {c : Item} (h : c.classpath = s%"non-NeXus content") (pos : List Nat)
    (n : Node) : (memberItem env c pos n).classpath = s%"non-NeXus content" := by
  show classpathIn env c.classpath n = _
  rw [classpathIn.eq_def, if_pos h, h]

mutual
theorem contentsNode_outside : (n : Node) →
    AllNodes (fun m => NameOk env mgr (Spec.baseName m.name) ∧ NodeTargetOk env m) n →
    ∀ {c : Item} {pos : List Nat}, c.classpath = s%"non-NeXus content" →
    ∀ x ∈ contentsNode env c pos n, ExtraItem env mgr x
  | .group n a ks, ha, c, pos, hc, x, hx => by
    rw [AllNodes] at ha
    have ho := memberItem_outside (env := env) hc pos (.group n a ks)
    rw [contentsNode] at hx
    rcases List.mem_cons.1 hx with rfl | hx
    · exact extraItem_outside ho fun _ _ => ha.1.1
    · rcases List.mem_append.1 hx with hx | hx
      · exact attributeItems_outside ho x hx
      · exact contentsKids_outside ks ha.2 (containerOf_outside ho) x hx
  | .dataset n a v, ha, c, pos, hc, x, hx => by
    rw [AllNodes] at ha
    have ho := memberItem_outside (env := env) hc pos (.dataset n a v)
    rw [contentsNode] at hx
    rcases List.mem_cons.1 hx with rfl | hx
    · exact extraItem_outside ho fun _ _ => ha.1
    · exact attributeItems_outside ho x hx
  | .datatype n a, ha, c, pos, hc, x, hx => by
    rw [AllNodes] at ha
    have ho := memberItem_outside (env := env) hc pos (.datatype n a)
    rw [contentsNode] at hx
    rcases List.mem_cons.1 hx with rfl | hx
    · exact extraItem_outside ho fun _ _ => ha.1
    · exact attributeItems_outside ho x hx
theorem contentsKids_outside : (ks : Kids) →
    AllKids (fun m => NameOk env mgr (Spec.baseName m.name) ∧ NodeTargetOk env m) ks →
    ∀ {c : Item} {pos : List Nat} {i : Nat}, c.classpath = s%"non-NeXus content" →
    ∀ x ∈ contentsKids env c pos i ks, ExtraItem env mgr x
  | .nil, _, _, _, _, _, x, hx => by rw [contentsKids] at hx; cases hx
  | .cons _ _ n r, ha, _, _, _, hc, x, hx => by
    rw [AllKids] at ha
    rw [contentsKids] at hx
    rcases List.mem_append.1 hx with hx | hx
    · exact contentsNode_outside n ha.1 hc x hx
    · exact contentsKids_outside r ha.2 hc x hx
  | .broken _ _ r, ha, _, _, _, hc, x, hx => by
    rw [AllKids] at ha
    rw [contentsKids] at hx
    exact contentsKids_outside r ha hc x hx
end

theorem definition_last {p l : Str} (hl : '/' ∉ l) (h : p ++ '/' :: l = s%"/NXentry/definition" ∨
    p ++ '/' :: l = s%"/NXentry/NXsubentry/definition") : l = s%"definition" := by
  have h1 := baseName_member (p := p) hl
  rcases h with h | h <;> rw [h] at h1 <;> rw [← h1] <;> rfl

theorem extraItem_field {it : Item} {p l : Str} {n : Node} {a : List (Str × Val)}
    (hcp : it.classpath = p ++ '/' :: l) (hn : it.name = l) (ho : it.obj = .node n)
    (hna : n.attrs = a) (hg : it.obj.asGroup = none) (h1 : '/' ∉ l) (h2 : '@' ∉ l)
    (h3 : NameOk env mgr l) (h4 : l ≠ s%"definition")
    (h5 : ∀ ka ∈ a, IsNote ka.1 ∧ NameOk env mgr ka.1) :
    ExtraItem env mgr it := by
  refine ⟨fun _ _ => hn ▸ h3, fun _ b hb => ?_, fun g e => ?_, fun h => ?_, fun h => ?_⟩
  · rw [ho] at hb
    cases hb
    rw [hna]
    exact h5
  · rw [hg] at e; cases e
  · rw [IsDefinition, hcp] at h
    exact h4 (definition_last h1 h)
  · rw [hcp] at h
    exact suffix_name h2 (by decide) h (by decide)

theorem note_suffix {p k : Str} (hk : IsNote k) (h : s%"@signal" <:+ p ++ '@' :: k) : False := by
  have h2 : '@' :: k <:+ p ++ '@' :: k := List.suffix_append _ _
  have hne : k ≠ s%"signal" := fun e => hk.2 (by simp [e])
  rcases List.suffix_or_suffix_of_suffix h h2 with h3 | h3
  · rcases List.suffix_cons_iff.1 h3 with h3 | h3
    · exact hne (by injection h3 with _ h3; exact h3.symm)
    · exact hk.1 (h3.subset (by simp))
  · rcases List.suffix_cons_iff.1 h3 with h3 | h3
    · exact hne (by injection h3 with _ h3)
    · exact absurd (h3.subset (List.mem_cons_self ..)) (by simp)

theorem extraItem_notes {o : Item} {j : Nat} {a : List (Str × Val)}
    (h : ∀ ka ∈ a, IsNote ka.1) : ∀ x ∈ attributeItems o j a, ExtraItem env mgr x := by
  intro x hx
  obtain ⟨i, ka, hka, rfl⟩ := mem_attributeItems_note hx
  by_cases hc : o.classpath = s%"non-NeXus content"
  · refine extraItem_outside ?_ fun n e => by cases e
    rw [attributeItem]
    simp only [hc, if_true]
  · have e : (attributeItem o i ka).classpath = o.classpath ++ '@' :: ka.1 := by
      rw [attributeItem]
      simp only [hc, if_false]
    refine ⟨fun n e => (by cases e), fun _ b hb => (by cases hb), fun g e => (by cases e), fun k => ?_,
      fun k => ?_⟩
    · exact absurd (by rw [e]; simp) (isDefinition_at k).1
    · rw [e] at k
      exact note_suffix (h ka hka) k

/-- All items of an additional object are additional items. -/
theorem contentsNode_extra {c : Item} (hs : ¬ s%"/" <:+ c.classpath) {path l : Str} (hl : '/' ∉ l)
    (hl' : '@' ∉ l) (pos : List Nat) {n : Node} (w : WellNamed (path ++ '/' :: l) n)
    (h : Extra env mgr n) : ∀ x ∈ contentsNode env c pos n, ExtraItem env mgr x := by
  by_cases hc : c.classpath = s%"non-NeXus content"
  · intro x hx
    cases n with
    | group n a ks =>
      rw [Extra] at h
      exact contentsNode_outside _ h.2.2.1 hc x hx
    | dataset n a v =>
      rw [Extra] at h
      rw [contentsNode] at hx
      have ho := memberItem_outside (env := env) hc pos (.dataset n a v)
      rcases List.mem_cons.1 hx with rfl | hx
      · exact extraItem_outside ho fun _ _ => h.1
      · exact attributeItems_outside ho x hx
    | datatype n a =>
      rw [Extra] at h
      rw [contentsNode] at hx
      have ho := memberItem_outside (env := env) hc pos (.datatype n a)
      rcases List.mem_cons.1 hx with rfl | hx
      · exact extraItem_outside ho fun _ _ => h.1
      · exact attributeItems_outside ho x hx
  · intro x hx
    cases n with
    | group n a ks =>
      rw [Extra] at h
      have ho : (memberItem env c pos (.group n a ks)).classpath = s%"non-NeXus content" := by
        show classpathIn env c.classpath (.group n a ks) = _
        simp only [classpathIn, if_neg hc, if_neg hs, h.1]
      rw [contentsNode] at hx
      have ha := h.2.2.1
      rw [AllNodes] at ha
      rcases List.mem_cons.1 hx with rfl | hx
      · exact extraItem_outside ho fun _ _ => ha.1.1
      · rcases List.mem_append.1 hx with hx | hx
        · exact attributeItems_outside ho x hx
        · exact contentsKids_outside ks ha.2 (containerOf_outside ho) x hx
    | dataset n a v =>
      rw [Extra] at h
      rw [WellNamed] at w
      rw [contentsNode] at hx
      rcases List.mem_cons.1 hx with rfl | hx
      · have hb : Spec.baseName n = l := by rw [w.1, baseName_member hl]
        refine extraItem_field (p := c.classpath) (l := l) (n := .dataset n a v) (a := a) ?_ hb rfl rfl
          rfl hl hl' (hb ▸ h.1) (hb ▸ h.2.1) h.2.2
        show classpathIn env c.classpath (.dataset n a v) = _
        simp only [classpathIn, if_neg hc, if_neg hs, hb]
      · exact extraItem_notes (a := sortByName a)
          (fun ka hk => (h.2.2 ka ((sortByName_spec _).1.mem_iff.1 hk)).1) x hx
    | datatype n a =>
      rw [Extra] at h
      rw [WellNamed] at w
      rw [contentsNode] at hx
      rcases List.mem_cons.1 hx with rfl | hx
      · have hb : Spec.baseName n = l := by rw [w.1, baseName_member hl]
        refine extraItem_field (p := c.classpath) (l := l) (n := .datatype n a) (a := a) ?_ hb rfl rfl
          rfl hl hl' (hb ▸ h.1) (hb ▸ h.2.1) h.2.2
        show classpathIn env c.classpath (.datatype n a) = _
        simp only [classpathIn, if_neg hc, if_neg hs, hb]
      · exact extraItem_notes (a := sortByName a)
          (fun ka hk => (h.2.2 ka ((sortByName_spec _).1.mem_iff.1 hk)).1) x hx

end Punx

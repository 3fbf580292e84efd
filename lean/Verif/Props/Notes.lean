import Verif.Spec.Notes
import Verif.Props.Reorder4

/-!
# C123: attributes that are notes, the items of a file with and without them
-/

namespace Punx
open Spec

variable {env : Env} {mgr : Manager} {N : Str → Bool} {f : H5File}

/-! ## objects -/

/-- What an item refers to, without notes. -/
def withoutObj (N : Str → Bool) : H5Obj → H5Obj
  | .file f => .file (without N f)
  | .node n => .node (withoutNode N n)
  | .val v => .val v
  | .none => .none

theorem without_root (f : H5File) : (without N f).root = withoutNode N f.root := by
  simp only [H5File.root, without, withoutNode]

theorem withoutNode_name (n : Node) : (withoutNode N n).name = n.name := by
  cases n <;> simp only [withoutNode, Node.name]

theorem withoutNode_attrs (n : Node) :
    (withoutNode N n).attrs = n.attrs.filter fun ka => !N ka.1 := by
  cases n <;> simp only [withoutNode, Node.attrs]

theorem withoutKids_toList : ∀ ks : Kids,
    (withoutKids N ks).toList = ks.toList.map fun p => (p.1, p.2.map (withoutNode N))
  | .nil => by simp [withoutKids, Kids.toList]
  | .cons l k n r => by simp [withoutKids, Kids.toList, withoutKids_toList r]
  | .broken l k r => by simp [withoutKids, Kids.toList, withoutKids_toList r]

theorem withoutKids_find (ks : Kids) (c : Str) :
    (withoutKids N ks).find c = (ks.find c).map (Option.map (withoutNode N)) := by
  unfold Kids.find
  rw [withoutKids_toList]
  induction ks.toList with
  | nil => rfl
  | cons p ps ih =>
    obtain ⟨l, o⟩ := p
    simp only [List.map_cons, List.lookup_cons]
    by_cases h : c = l
    · subst h; simp
    · have : (c == l) = false := by simpa using h
      simp only [this, ih]

theorem without_resolve : ∀ (cs : List Str) (s : Node),
    resolve (withoutNode N s) cs = (resolve s cs).map (withoutNode N)
  | [], s => by simp [resolve]
  | c :: cs, s => by
    cases s with
    | dataset n a d => simp [resolve, withoutNode]
    | datatype n a => simp [resolve, withoutNode]
    | group n a ks =>
      simp only [resolve, withoutNode, withoutKids_find]
      cases ks.find c with
      | none => rfl
      | some o =>
        cases o with
        | none => rfl
        | some m => exact without_resolve cs m

theorem without_linkExists : ∀ (cs : List Str) (s : Node),
    linkExists (withoutNode N s) cs = linkExists s cs
  | [], s => rfl
  | [c], s => by
    cases s with
    | dataset n a d => simp [linkExists, withoutNode]
    | datatype n a => simp [linkExists, withoutNode]
    | group n a ks =>
      simp only [linkExists, withoutNode, withoutKids_find]
      cases ks.find c <;> rfl
  | c :: d :: cs, s => by
    cases s with
    | dataset n a d => simp [linkExists, withoutNode]
    | datatype n a => simp [linkExists, withoutNode]
    | group n a ks =>
      simp only [linkExists, withoutNode, withoutKids_find]
      cases ks.find c with
      | none => rfl
      | some o =>
        cases o with
        | none => rfl
        | some m => exact without_linkExists (d :: cs) m

theorem without_start (f : H5File) (g : Node) (p : Str) :
    startNode (without N f) (withoutNode N g) p = withoutNode N (startNode f g p) := by
  unfold startNode
  split
  · exact without_root f
  · rfl

theorem without_groupThere (cs : List Str) (s : Node) :
    groupThere (withoutNode N s) cs = groupThere s cs := by
  rw [groupThere_eq, groupThere_eq, without_resolve]
  cases resolve s cs with
  | none => rfl
  | some m => cases m <;> simp [withoutNode, Node.grp]

theorem without_contains (f : H5File) (g : Node) (p : Str) :
    h5contains (without N f) (withoutNode N g) p = h5contains f g p := by
  unfold h5contains
  rw [without_start, without_linkExists, without_groupThere]

theorem without_contains_root (f : H5File) (p : Str) :
    h5contains (without N f) (without N f).root p = h5contains f f.root p := by
  rw [without_root, without_contains]

theorem without_get (f : H5File) (g : Node) (p : Str) :
    h5get (without N f) (withoutNode N g) p = (h5get f g p).map (Option.map (withoutNode N)) := by
  unfold h5get
  split
  · rfl
  · rw [without_start, without_resolve]; rfl

/-- Attributes with other names are the same. -/
theorem lookup_filter {l : List (Str × Val)} {k : Str} (hk : N k = false) :
    (l.filter fun ka => !N ka.1).lookup k = l.lookup k := by
  induction l with
  | nil => rfl
  | cons x l ih =>
    obtain ⟨a, b⟩ := x
    rw [List.filter_cons]
    by_cases hN : N a = true
    · have hne : (k == a) = false := by
        rw [beq_eq_false_iff_ne]
        rintro rfl
        rw [hk] at hN; cases hN
      simp only [hN, Bool.not_true, Bool.false_eq_true, if_false, List.lookup_cons, hne, ih]
    · simp only [hN, Bool.not_false, if_true, List.lookup_cons, ih]

theorem mem_filter_note {l : List (Str × Val)} {k : Str} {v : Val} :
    (k, v) ∈ l.filter (fun ka => !N ka.1) ↔ (k, v) ∈ l ∧ N k = false := by
  rw [List.mem_filter]
  simp

theorem sortByName_filter {a : List (Str × Val)} (d : (a.map (·.1)).Nodup) :
    sortByName (a.filter fun ka => !N ka.1) = (sortByName a).filter fun ka => !N ka.1 := by
  obtain ⟨p, s⟩ := sortByName_spec a
  obtain ⟨p', s'⟩ := sortByName_spec (a.filter fun ka => !N ka.1)
  refine List.Perm.eq_of_pairwise (fun x y hx hy h1 h2 => ?_) s' (s.filter _)
    (p'.trans (p.filter _).symm)
  have hx := (List.mem_filter.1 (p'.mem_iff.1 hx)).1
  have hy := p.mem_iff.1 (List.mem_filter.1 hy).1
  exact eq_of_fst d hx hy (strLe_antisymm h1 h2)

/-! ## notes have no special names -/

/-- All names in `N` are those of notes. -/
def OnlyNotes (N : Str → Bool) : Prop := ∀ k, N k = true → IsNote k

theorem OnlyNotes.other (h : OnlyNotes N) {k : Str}
    (hk : k ∈ [s%"NX_class", s%"target", s%"signal", s%"axes", s%"default"]) : N k = false := by
  cases e : N k with
  | false => rfl
  | true => exact absurd hk (h k e).2

theorem OnlyNotes.namesClass (h : OnlyNotes N) {k : Str} (hk : NamesClass k) : N k = false := by
  cases e : N k with
  | false => rfl
  | true =>
    rcases hk with rfl | ⟨p, rfl⟩
    · exact absurd (by simp) (h _ e).2
    · exact absurd (by simp) (h _ e).1

theorem nxClassOf_without (h : OnlyNotes N) (a : List (Str × Val)) :
    nxClassOf env (a.filter fun ka => !N ka.1) = nxClassOf env a := by
  rw [nxClassOf, nxClassOf, lookup_filter (h.other (by simp))]

/-! ## items -/

/-- The item is a note. -/
def noteItem (N : Str → Bool) (it : Item) : Bool :=
  match it.obj with
  | .val _ => N it.name
  | _ => false

/-- An item of the file without notes and one of the file with notes. -/
structure NoteCore (N : Str → Bool) (c c' : Core) : Prop where
  obj : c.obj = withoutObj N c'.obj
  name : c.name = c'.name
  addr : c.addr = c'.addr
  classpath : c.classpath = c'.classpath
  nxClass : c.nxClass = c'.nxClass
  there : ∀ n, c'.obj = .node n → c'.addr = some n.name

/-- The same with containers. -/
structure NoteRel (N : Str → Bool) (it it' : Item) : Prop where
  core : NoteCore N it.toCore it'.toCore
  ancestors : it'.classpath ≠ s%"non-NeXus content" →
    List.Forall₂ (NoteCore N) it.ancestors it'.ancestors
  nexus : it'.classpath ≠ s%"non-NeXus content" →
    ∀ c ∈ it'.ancestors, c.classpath ≠ s%"non-NeXus content"

/-- Containers. -/
structure NoteBox (N : Str → Bool) (c c' : Item) : Prop where
  classpath : c.classpath = c'.classpath
  rel : c'.classpath ≠ s%"non-NeXus content" → NoteRel N c c'

theorem NoteRel.box {c c' : Item} (h : NoteRel N c c') : NoteBox N c c' :=
  ⟨h.core.classpath, fun _ => h⟩

theorem NoteRel.parent {it it' p' : Item} (h : NoteRel N it it')
    (hc : it'.classpath ≠ s%"non-NeXus content") (e : it'.parent = some p') :
    ∃ p, it.parent = some p ∧ NoteRel N p p' ∧ p'.classpath ≠ s%"non-NeXus content" := by
  have h2 := h.ancestors hc
  have h3 := h.nexus hc
  rw [Item.parent] at e ⊢
  generalize it.ancestors = l at *
  generalize it'.ancestors = l' at *
  cases h2 with
  | nil => cases e
  | cons x k =>
    cases e
    exact ⟨_, rfl, ⟨x, fun _ => k, fun _ c hc => h3 c (List.mem_cons_of_mem _ hc)⟩, h3 _ (by simp)⟩

theorem NoteRel.parent' {it it' p : Item} (h : NoteRel N it it')
    (hc : it'.classpath ≠ s%"non-NeXus content") (e : it.parent = some p) :
    ∃ p', it'.parent = some p' ∧ NoteRel N p p' ∧ p'.classpath ≠ s%"non-NeXus content" := by
  have h2 := h.ancestors hc
  have h3 := h.nexus hc
  rw [Item.parent] at e ⊢
  generalize it.ancestors = l at *
  generalize it'.ancestors = l' at *
  cases h2 with
  | nil => cases e
  | cons x k =>
    cases e
    exact ⟨_, rfl, ⟨x, fun _ => k, fun _ c hc => h3 c (List.mem_cons_of_mem _ hc)⟩, h3 _ (by simp)⟩

theorem classpathIn_without (h : OnlyNotes N) (cp : Str) (n : Node) :
    classpathIn env cp (withoutNode N n) = classpathIn env cp n := by
  cases n with
  | dataset => simp only [withoutNode, classpathIn]
  | datatype => simp only [withoutNode, classpathIn]
  | group => simp only [withoutNode, classpathIn, nxClassOf_without h]

theorem classIn_without (h : OnlyNotes N) (cp : Str) (n : Node) :
    classIn env cp (withoutNode N n) = classIn env cp n := by
  cases n with
  | dataset => simp only [withoutNode, classIn]
  | datatype => simp only [withoutNode, classIn]
  | group => simp only [withoutNode, classIn, nxClassOf_without h]

theorem memberItem_note (hN : OnlyNotes N) {c c' : Item} (hc : NoteBox N c c') (pos pos' : List Nat)
    (n : Node) :
    NoteRel N (memberItem env c pos (withoutNode N n)) (memberItem env c' pos' n) := by
  have hcp : (memberItem env c' pos' n).classpath ≠ s%"non-NeXus content" →
      c'.classpath ≠ s%"non-NeXus content" := by
    intro h e
    refine h ?_
    show classpathIn env c'.classpath n = _
    rw [classpathIn.eq_def, if_pos e, e]
  refine ⟨⟨rfl, ?_, ?_, ?_, ?_, ?_⟩, fun h => ?_, fun h x hx => ?_⟩
  · show baseName (withoutNode N n).name = baseName n.name
    rw [withoutNode_name]
  · show some (withoutNode N n).name = some n.name
    rw [withoutNode_name]
  · show classpathIn env c.classpath (withoutNode N n) = classpathIn env c'.classpath n
    rw [hc.classpath, classpathIn_without hN]
  · show classIn env c.classpath (withoutNode N n) = classIn env c'.classpath n
    rw [hc.classpath, classIn_without hN]
  · intro m e
    cases e
    rfl
  · have hr := hc.rel (hcp h)
    exact .cons hr.core (hr.ancestors (hcp h))
  · have hr := hc.rel (hcp h)
    rcases List.mem_cons.1 hx with rfl | hx
    · exact hcp h
    · exact hr.nexus (hcp h) x hx

theorem attributeItem_note {o o' : Item} (h : NoteRel N o o') (j j' : Nat) (ka : Str × Val) :
    NoteRel N (attributeItem o j ka) (attributeItem o' j' ka) := by
  have hcp : (attributeItem o' j' ka).classpath ≠ s%"non-NeXus content" →
      o'.classpath ≠ s%"non-NeXus content" := by
    intro h e
    refine h ?_
    rw [attributeItem]
    simp only [e, if_true]
  refine ⟨⟨rfl, rfl, ?_, ?_, rfl, fun n e => by cases e⟩, fun hx => ?_, fun hx x hx' => ?_⟩
  · rw [attributeItem, attributeItem]
    simp only [h.core.addr, h.core.classpath]
  · rw [attributeItem, attributeItem]
    simp only [h.core.classpath]
  · exact .cons h.core (h.ancestors (hcp hx))
  · rcases List.mem_cons.1 hx' with rfl | hx'
    · exact hcp hx
    · exact h.nexus (hcp hx) x hx'

theorem attributeItems_note {o o' : Item} (h : NoteRel N o o') (l : List (Str × Val)) :
    ∀ j j', List.Forall₂ (NoteRel N) (attributeItems o j (l.filter fun ka => !N ka.1))
      ((attributeItems o' j' l).filter fun it => !noteItem N it) := by
  induction l with
  | nil => intros; exact .nil
  | cons ka l ih =>
    intro j j'
    rw [attributeItems, List.filter_cons, List.filter_cons]
    have e : noteItem N (attributeItem o' j' ka) = N ka.1 := rfl
    rw [e]
    cases N ka.1 with
    | true => exact ih _ _
    | false => exact .cons (attributeItem_note h _ _ _) (ih _ _)

theorem mem_attributeItems_note {o : Item} {l : List (Str × Val)} {x : Item} {j : Nat}
    (h : x ∈ attributeItems o j l) : ∃ i, ∃ ka ∈ l, x = attributeItem o i ka := by
  induction l generalizing j with
  | nil => cases h
  | cons ka l ih =>
    rw [attributeItems] at h
    rcases List.mem_cons.1 h with rfl | h
    · exact ⟨j, ka, by simp, rfl⟩
    · obtain ⟨i, kb, hb, e⟩ := ih h
      exact ⟨i, kb, by simp [hb], e⟩

theorem containerOf_outside {o : Item} {a : List (Str × Val)}
    (h : o.classpath = s%"non-NeXus content") :
    (containerOf o a).classpath = s%"non-NeXus content" := by
  rw [containerOf, if_pos h]
  cases e : (attributeItems o 0 (sortByName a)).getLast? with
  | none => exact h
  | some x =>
    obtain ⟨i, ka, _, rfl⟩ := mem_attributeItems_note (List.mem_of_getLast? e)
    show (attributeItem o i ka).classpath = _
    rw [attributeItem]
    simp only [h, if_true]

theorem containerOf_note {o o' : Item} (h : NoteRel N o o') (a a' : List (Str × Val)) :
    NoteBox N (containerOf o a) (containerOf o' a') := by
  by_cases hc : o'.classpath = s%"non-NeXus content"
  · have hc' : o.classpath = s%"non-NeXus content" := h.core.classpath.trans hc
    exact ⟨by rw [containerOf_outside hc, containerOf_outside hc'],
      fun hx => absurd (containerOf_outside hc) hx⟩
  · have hc' : o.classpath ≠ s%"non-NeXus content" := fun e => hc (h.core.classpath ▸ e)
    rw [containerOf, containerOf, if_neg hc, if_neg hc']
    exact h.box

mutual
theorem contentsNode_note (hN : OnlyNotes N) : (n : Node) → Distinct n → ∀ {c c' : Item},
    NoteBox N c c' → ∀ pos pos',
    List.Forall₂ (NoteRel N) (contentsNode env c pos (withoutNode N n))
      ((contentsNode env c' pos' n).filter fun it => !noteItem N it)
  | .group n a ks, d, c, c', hc, pos, pos' => by
    have ho := memberItem_note (env := env) hN hc pos pos' (.group n a ks)
    rw [Distinct] at d
    simp only [withoutNode] at ho
    rw [withoutNode, contentsNode, contentsNode, List.filter_cons_of_pos (p := fun it => !noteItem N it) rfl,
      List.filter_append, sortByName_filter d.1]
    exact .cons ho (List.rel_append (attributeItems_note ho _ _ _)
      (contentsKids_note hN ks d.2.2 (containerOf_note ho _ _) _ _ _ _))
  | .dataset n a v, d, c, c', hc, pos, pos' => by
    have ho := memberItem_note (env := env) hN hc pos pos' (.dataset n a v)
    rw [Distinct] at d
    simp only [withoutNode] at ho
    rw [withoutNode, contentsNode, contentsNode, List.filter_cons_of_pos (p := fun it => !noteItem N it) rfl,
      sortByName_filter d]
    exact .cons ho (attributeItems_note ho _ _ _)
  | .datatype n a, d, c, c', hc, pos, pos' => by
    have ho := memberItem_note (env := env) hN hc pos pos' (.datatype n a)
    rw [Distinct] at d
    simp only [withoutNode] at ho
    rw [withoutNode, contentsNode, contentsNode, List.filter_cons_of_pos (p := fun it => !noteItem N it) rfl,
      sortByName_filter d]
    exact .cons ho (attributeItems_note ho _ _ _)
theorem contentsKids_note (hN : OnlyNotes N) : (ks : Kids) → DistinctKids ks → ∀ {c c' : Item},
    NoteBox N c c' → ∀ pos pos' i i',
    List.Forall₂ (NoteRel N) (contentsKids env c pos i (withoutKids N ks))
      ((contentsKids env c' pos' i' ks).filter fun it => !noteItem N it)
  | .nil, _, _, _, _, _, _, _, _ => by
    rw [withoutKids, contentsKids, contentsKids]; exact .nil
  | .cons _ _ n r, d, _, _, hc, _, _, _, _ => by
    rw [DistinctKids] at d
    rw [withoutKids, contentsKids, contentsKids, List.filter_append]
    exact List.rel_append (contentsNode_note hN n d.1 hc _ _) (contentsKids_note hN r d.2 hc _ _ _ _)
  | .broken _ _ r, d, _, _, hc, _, _, _, _ => by
    rw [DistinctKids] at d
    rw [withoutKids, contentsKids, contentsKids]
    exact contentsKids_note hN r d hc _ _ _ _
end

/-- The items of the file without notes are those of the file that are no notes. -/
theorem contents_note (hN : OnlyNotes N) (hw : WellNamedFile f) :
    List.Forall₂ (NoteRel N) (contents env (without N f))
      ((contents env f).filter fun it => !noteItem N it) := by
  have ho : NoteRel N (rootOf (without N f)) (rootOf f) :=
    ⟨⟨rfl, rfl, rfl, rfl, rfl, fun n e => by cases e⟩, fun _ => .nil, fun _ c hc => by cases hc⟩
  rw [contents, contents, List.filter_cons_of_pos (p := fun it => !noteItem N it) rfl,
    List.filter_append]
  refine .cons ho (List.rel_append ?_ (contentsKids_note hN f.kids hw.2.2.distinct ho.box _ _ _ _))
  rw [without, sortByName_filter hw.1]
  exact attributeItems_note ho _ _ _

end Punx

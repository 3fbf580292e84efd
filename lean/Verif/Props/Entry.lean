import Verif.Props.Accepts
import Verif.Props.Removed
import Verif.Spec.Entry

/-!
# C144: files without an entry
-/

namespace Punx
open Spec

variable {env : Env} {mgr : Manager} {f : H5File}

/-! ## class paths below NXentry -/

theorem entry_slash {cp x : Str} (hx : '/' ∉ x) (h : s%"/NXentry/" <+: cp ++ '/' :: x ++ s%"/") :
    (cp = [] ∧ x = s%"NXentry") ∨ s%"/NXentry/" <+: cp ++ s%"/" := by
  match cp, h with
  | [], h =>
    obtain ⟨t, ht⟩ := h
    simp only [List.nil_append, List.cons_append, List.cons.injEq, true_and] at ht
    refine .inl ⟨rfl, ?_⟩
    have key : ∀ {a b u v : Str}, '/' ∉ a → '/' ∉ b → a ++ '/' :: u = b ++ '/' :: v → a = b := by
      intro a
      induction a with
      | nil =>
        intro b u v _ hb e
        cases b with
        | nil => rfl
        | cons c b =>
          simp only [List.nil_append, List.cons_append, List.cons.injEq] at e
          exact absurd (by rw [e.1]; simp) hb
      | cons d a ih =>
        intro b u v ha hb e
        cases b with
        | nil =>
          simp only [List.nil_append, List.cons_append, List.cons.injEq] at e
          exact absurd (by rw [e.1]; simp) ha
        | cons c b =>
          simp only [List.cons_append, List.cons.injEq] at e
          rw [e.1, ih (fun h => ha (List.mem_cons_of_mem _ h)) (fun h => hb (List.mem_cons_of_mem _ h)) e.2]
    exact (key (a := s%"NXentry") (by decide) hx (u := t) (v := []) (by simpa using ht)).symm
  | [a], h => simp [List.cons_prefix_cons] at h
  | [a, b], h => simp [List.cons_prefix_cons] at h
  | [a, b, c], h => simp [List.cons_prefix_cons] at h
  | [a, b, c, d], h => simp [List.cons_prefix_cons] at h
  | [a, b, c, d, e], h => simp [List.cons_prefix_cons] at h
  | [a, b, c, d, e, g], h => simp [List.cons_prefix_cons] at h
  | [a, b, c, d, e, g, i], h => simp [List.cons_prefix_cons] at h
  | a :: b :: c :: d :: e :: g :: i :: j :: r, h =>
    refine .inr ?_
    simp only [List.cons_append, List.cons_prefix_cons] at h ⊢
    obtain ⟨h1, h2, h3, h4, h5, h6, h7, h8, h9⟩ := h
    refine ⟨h1, h2, h3, h4, h5, h6, h7, h8, ?_⟩
    cases r with
    | nil => simp
    | cons k r =>
      simp only [List.cons_append, List.cons_prefix_cons] at h9 ⊢
      exact ⟨h9.1, by simp⟩

theorem entry_at {cp k : Str} (h : s%"/NXentry/" <+: cp ++ '@' :: k) : s%"/NXentry/" <+: cp := by
  match cp, h with
  | [], h => simp [List.cons_prefix_cons] at h
  | [a], h => simp [List.cons_prefix_cons] at h
  | [a, b], h => simp [List.cons_prefix_cons] at h
  | [a, b, c], h => simp [List.cons_prefix_cons] at h
  | [a, b, c, d], h => simp [List.cons_prefix_cons] at h
  | [a, b, c, d, e], h => simp [List.cons_prefix_cons] at h
  | [a, b, c, d, e, g], h => simp [List.cons_prefix_cons] at h
  | [a, b, c, d, e, g, i], h => simp [List.cons_prefix_cons] at h
  | [a, b, c, d, e, g, i, j], h => simp [List.cons_prefix_cons] at h
  | a :: b :: c :: d :: e :: g :: i :: j :: l :: r, h =>
    simp only [List.cons_append, List.cons_prefix_cons] at h ⊢
    obtain ⟨h1, h2, h3, h4, h5, h6, h7, h8, h9, _⟩ := h
    exact ⟨h1, h2, h3, h4, h5, h6, h7, h8, h9, by simp⟩

/-- The class path of a member, seen from the class path of its group. -/
theorem entry_member {cp : Str} {n : Node} (hn : ∀ g a ks, n = .group g a ks →
      classpathIn env cp n ≠ s%"non-NeXus content" → ∀ c, nxClassOf env a = some c → '/' ∉ c)
    (h : s%"/NXentry/" <+: classpathIn env cp n ++ s%"/") :
    s%"/NXentry/" <+: cp ++ s%"/" ∨
      (cp = [] ∧ ((∃ m a d, n = .dataset m a d) ∨ (∃ m a, n = .datatype m a) ∨
        ∃ m a ks, n = .group m a ks ∧ nxClassOf env a = some s%"NXentry")) := by
  have hno : ¬ s%"/NXentry/" <+: s%"non-NeXus content" ++ s%"/" := by decide
  unfold classpathIn at h hn
  split at h
  · exact .inl h
  · rename_i h1
    split at h
    · exact .inl h
    · rename_i h2
      cases n with
      | group m a ks =>
        simp only at h
        cases hc : nxClassOf env a with
        | none =>
          rw [hc] at h
          exact absurd h hno
        | some c =>
          rw [hc] at h
          have hs := hn m a ks rfl (by
            rw [if_neg h1, if_neg h2]
            simp only [hc]
            intro e
            have : '/' ∈ s%"non-NeXus content" := by rw [← e]; simp
            exact absurd this (by decide)) c hc
          rcases entry_slash hs h with ⟨e1, e2⟩ | h
          · exact .inr ⟨e1, .inr (.inr ⟨m, a, ks, rfl, by rw [hc, e2]⟩)⟩
          · exact .inl h
      | dataset m a d =>
        rcases entry_slash (lastComp_noSlash m) h with ⟨e1, _⟩ | h
        · exact .inr ⟨e1, .inl ⟨m, a, d, rfl⟩⟩
        · exact .inl h
      | datatype m a =>
        rcases entry_slash (lastComp_noSlash m) h with ⟨e1, _⟩ | h
        · exact .inr ⟨e1, .inr (.inl ⟨m, a, rfl⟩)⟩
        · exact .inl h

theorem entry_attribute {o : Item} {l : List (Str × Val)} {j : Nat} {x : Item}
    (hx : x ∈ attributeItems o j l) (h : s%"/NXentry/" <+: x.classpath) :
    s%"/NXentry/" <+: o.classpath := by
  obtain ⟨i, ka, _, rfl⟩ := mem_attributeItems hx
  by_cases hc : o.classpath = s%"non-NeXus content"
  · have h : s%"/NXentry/" <+: (if o.classpath = s%"non-NeXus content" then o.classpath
        else o.classpath ++ '@' :: ka.1) := h
    rw [if_pos hc] at h
    exact h
  · have h : s%"/NXentry/" <+: (if o.classpath = s%"non-NeXus content" then o.classpath
        else o.classpath ++ '@' :: ka.1) := h
    rw [if_neg hc] at h
    exact entry_at h

theorem entry_not {x : Str} (hx : '/' ∉ x) : ¬ s%"/NXentry/" <+: [] ++ '/' :: x := by
  rintro ⟨t, ht⟩
  simp only [List.nil_append, List.cons_append, List.cons.injEq, true_and] at ht
  exact hx (by rw [← ht]; simp)

theorem prefix_slash {cp : Str} (h : s%"/NXentry/" <+: cp) : s%"/NXentry/" <+: cp ++ s%"/" :=
  h.trans (List.prefix_append _ _)

theorem classpathIn_ne (cp : Str) (n : Node) : classpathIn env cp n ≠ [] := by
  unfold classpathIn
  split
  · rename_i h
    rw [h]
    decide
  · split
    · rename_i h
      rintro rfl
      exact absurd h (by decide)
    · cases n with
      | group m a ks =>
        simp only
        cases nxClassOf env a with
        | none => simp
        | some c => simp
      | dataset m a d => simp
      | datatype m a => simp

mutual
/-- What is below NXentry by its class path is in a group that is below NXentry, or is NXentry. -/
theorem below_entry : (n : Node) → ∀ {c : Item} {pos : List Nat} {x : Item}, c.classpath ≠ [] →
    PlainClasses env (contentsNode env c pos n) → x ∈ contentsNode env c pos n →
    s%"/NXentry/" <+: x.classpath → s%"/NXentry/" <+: c.classpath ++ s%"/"
  | .group n a ks, c, pos, x, hc, hp, hx, h => by
    have hm : s%"/NXentry/" <+: classpathIn env c.classpath (.group n a ks) ++ s%"/" →
        s%"/NXentry/" <+: c.classpath ++ s%"/" := by
      intro h
      have hg : ∀ g b bs, Node.group n a ks = .group g b bs →
          classpathIn env c.classpath (.group n a ks) ≠ s%"non-NeXus content" →
          ∀ cl, nxClassOf env b = some cl → '/' ∉ cl := by
        intro g b bs e hne cl hcl
        cases e
        exact hp (memberItem env c pos (.group n a ks)) (by rw [contentsNode]; simp) _ rfl hne
          (classpathIn_ne (env := env) c.classpath (.group n a ks)) cl hcl
      rcases entry_member hg h with h | h
      · exact h
      · exact absurd h.1 hc
    rw [contentsNode] at hx
    rcases List.mem_cons.1 hx with rfl | hx
    · exact hm (prefix_slash h)
    · rcases List.mem_append.1 hx with hx | hx
      · exact hm (prefix_slash (entry_attribute hx h))
      · have := belowKids_entry ks (c := containerOf (memberItem env c pos (.group n a ks)) a)
          (by rw [containerOf_classpath]; exact classpathIn_ne (env := env) c.classpath (.group n a ks))
          (fun it hit => hp it (by
            rw [contentsNode]
            exact List.mem_cons_of_mem _ (List.mem_append_right _ hit))) hx h
        rw [containerOf_classpath] at this
        exact hm this
  | .dataset n a d, c, pos, x, hc, hp, hx, h => by
    have hm : s%"/NXentry/" <+: classpathIn env c.classpath (.dataset n a d) →
        s%"/NXentry/" <+: c.classpath ++ s%"/" := by
      intro h
      rcases entry_member (env := env) (n := .dataset n a d) (fun g b bs e => by cases e)
        (prefix_slash h) with h | h
      · exact h
      · exact absurd h.1 hc
    rw [contentsNode] at hx
    rcases List.mem_cons.1 hx with rfl | hx
    · exact hm h
    · exact hm (entry_attribute hx h)
  | .datatype n a, c, pos, x, hc, hp, hx, h => by
    have hm : s%"/NXentry/" <+: classpathIn env c.classpath (.datatype n a) →
        s%"/NXentry/" <+: c.classpath ++ s%"/" := by
      intro h
      rcases entry_member (env := env) (n := .datatype n a) (fun g b bs e => by cases e)
        (prefix_slash h) with h | h
      · exact h
      · exact absurd h.1 hc
    rw [contentsNode] at hx
    rcases List.mem_cons.1 hx with rfl | hx
    · exact hm h
    · exact hm (entry_attribute hx h)
theorem belowKids_entry : (ks : Kids) → ∀ {c : Item} {pos : List Nat} {i : Nat} {x : Item},
    c.classpath ≠ [] → PlainClasses env (contentsKids env c pos i ks) →
    x ∈ contentsKids env c pos i ks →
    s%"/NXentry/" <+: x.classpath → s%"/NXentry/" <+: c.classpath ++ s%"/"
  | .nil, c, pos, i, x, hc, hp, hx, h => by rw [contentsKids] at hx; cases hx
  | .cons l k n rest, c, pos, i, x, hc, hp, hx, h => by
    rw [contentsKids] at hx hp
    rcases List.mem_append.1 hx with hx | hx
    · exact below_entry n hc (fun it hit => hp it (List.mem_append_left _ hit)) hx h
    · exact belowKids_entry rest hc (fun it hit => hp it (List.mem_append_right _ hit)) hx h
  | .broken l k rest, c, pos, i, x, hc, hp, hx, h => by
    rw [contentsKids] at hx hp
    exact belowKids_entry rest hc hp hx h
end

theorem entry_node {c : Item} (hc : c.classpath = []) {pos : List Nat} {x : Item} :
    (n : Node) → PlainClasses env (contentsNode env c pos n) → x ∈ contentsNode env c pos n →
    s%"/NXentry/" <+: x.classpath →
    ∃ m a ks, n = .group m a ks ∧ nxClassOf env a = some s%"NXentry"
  | .group n a ks, hp, hx, h => by
    have hm : s%"/NXentry/" <+: classpathIn env c.classpath (.group n a ks) ++ s%"/" →
        ∃ m b bs, Node.group n a ks = .group m b bs ∧ nxClassOf env b = some s%"NXentry" := by
      intro h
      have hg : ∀ g b bs, Node.group n a ks = .group g b bs →
          classpathIn env c.classpath (.group n a ks) ≠ s%"non-NeXus content" →
          ∀ cl, nxClassOf env b = some cl → '/' ∉ cl := by
        intro g b bs e hne cl hcl
        cases e
        exact hp (memberItem env c pos (.group n a ks)) (by rw [contentsNode]; simp) _ rfl hne
          (classpathIn_ne (env := env) c.classpath (.group n a ks)) cl hcl
      rcases entry_member hg h with h | ⟨_, ⟨_, _, _, e⟩ | ⟨_, _, e⟩ | h⟩
      · rw [hc] at h
        exact absurd h (by decide)
      · cases e
      · cases e
      · exact h
    rw [contentsNode] at hx
    rcases List.mem_cons.1 hx with rfl | hx
    · exact hm (prefix_slash h)
    · rcases List.mem_append.1 hx with hx | hx
      · exact hm (prefix_slash (entry_attribute hx h))
      · have := belowKids_entry ks (c := containerOf (memberItem env c pos (.group n a ks)) a)
          (by rw [containerOf_classpath]
              exact classpathIn_ne (env := env) c.classpath (.group n a ks))
          (fun it hit => hp it (by
            rw [contentsNode]
            exact List.mem_cons_of_mem _ (List.mem_append_right _ hit))) hx h
        rw [containerOf_classpath] at this
        exact hm this
  | .dataset n a d, hp, hx, h => by
    have hm : ¬ s%"/NXentry/" <+: classpathIn env c.classpath (.dataset n a d) := by
      rw [hc]
      exact entry_not (lastComp_noSlash n)
    rw [contentsNode] at hx
    rcases List.mem_cons.1 hx with rfl | hx
    · exact absurd h hm
    · exact absurd (entry_attribute hx h) hm
  | .datatype n a, hp, hx, h => by
    have hm : ¬ s%"/NXentry/" <+: classpathIn env c.classpath (.datatype n a) := by
      rw [hc]
      exact entry_not (lastComp_noSlash n)
    rw [contentsNode] at hx
    rcases List.mem_cons.1 hx with rfl | hx
    · exact absurd h hm
    · exact absurd (entry_attribute hx h) hm

theorem entry_kids {c : Item} (hc : c.classpath = []) {pos : List Nat} {x : Item} :
    (ks : Kids) → ∀ {i : Nat}, PlainClasses env (contentsKids env c pos i ks) →
    x ∈ contentsKids env c pos i ks → s%"/NXentry/" <+: x.classpath →
    ∃ l m a bs, (l, some (Node.group m a bs)) ∈ ks.toList ∧ nxClassOf env a = some s%"NXentry"
  | .nil, i, hp, hx, h => by rw [contentsKids] at hx; cases hx
  | .cons l k n rest, i, hp, hx, h => by
    rw [contentsKids] at hx hp
    rcases List.mem_append.1 hx with hx | hx
    · obtain ⟨m, a, ks, rfl, hcl⟩ :=
        entry_node hc n (fun it hit => hp it (List.mem_append_left _ hit)) hx h
      exact ⟨l, m, a, ks, by simp [Kids.toList], hcl⟩
    · obtain ⟨l', m, a, ks, hm, hcl⟩ :=
        entry_kids hc rest (fun it hit => hp it (List.mem_append_right _ hit)) hx h
      exact ⟨l', m, a, ks, by simp [Kids.toList, hm], hcl⟩
  | .broken l k rest, i, hp, hx, h => by
    rw [contentsKids] at hx hp
    obtain ⟨l', m, a, ks, hm, hcl⟩ := entry_kids hc rest hp hx h
    exact ⟨l', m, a, ks, by simp [Kids.toList, hm], hcl⟩

/-- What is below NXentry by its class path is below a group of class NXentry in the root. -/
theorem top_entry (hp : PlainClasses env (contents env f)) {x : Item} (hx : x ∈ contents env f)
    (h : s%"/NXentry/" <+: x.classpath) : TopEntry env f := by
  have hx' := hx
  rw [contents] at hx'
  rcases List.mem_cons.1 hx' with rfl | hx'
  · exact absurd h (by show ¬ s%"/NXentry/" <+: []; decide)
  · rcases List.mem_append.1 hx' with hx' | hx'
    · exact absurd (entry_attribute hx' h) (by show ¬ s%"/NXentry/" <+: []; decide)
    · exact entry_kids rfl f.kids (fun it hit => hp it (by
        rw [contents]
        exact List.mem_cons_of_mem _ (List.mem_append_right _ hit))) hx' h

/-- A group of class NXentry in the root is catalogued as such. -/
theorem topEntry_hasClass (h : TopEntry env f) : HasClass env (contents env f) s%"NXentry" := by
  obtain ⟨l, n, a, ks, hm, hc⟩ := h
  have key : ∀ (bs : Kids) (i : Nat), (l, some (Node.group n a ks)) ∈ bs.toList →
      ∃ pos, memberItem env (rootOf f) pos (.group n a ks) ∈ contentsKids env (rootOf f) [] i bs := by
    intro bs
    induction bs using Kids.rec (motive_1 := fun _ => True) with
    | dataset => trivial
    | datatype => trivial
    | group => trivial
    | nil => intro i h; cases h
    | cons l' k m rest _ ih =>
      intro i h
      rw [Kids.toList, List.mem_cons] at h
      rw [contentsKids]
      rcases h with h | h
      · cases h
        exact ⟨_, List.mem_append_left _ (by rw [contentsNode]; exact List.mem_cons_self ..)⟩
      · obtain ⟨pos, h⟩ := ih (i + 1) h
        exact ⟨pos, List.mem_append_right _ h⟩
    | broken l' k rest ih =>
      intro i h
      rw [Kids.toList, List.mem_cons] at h
      rw [contentsKids]
      rcases h with h | h
      · cases h
      · exact ih (i + 1) h
  obtain ⟨pos, hpos⟩ := key f.kids 0 hm
  have hcp : (memberItem env (rootOf f) pos (.group n a ks)).classpath = s%"/NXentry" := by
    show classpathIn env [] (.group n a ks) = _
    simp [classpathIn, hc]
  refine ⟨memberItem env (rootOf f) pos (.group n a ks), ?_, .group n a ks, rfl, ?_, .inr ⟨?_, hc⟩⟩
  · rw [contents]
    exact List.mem_cons_of_mem _ (List.mem_append_right _ hpos)
  · rw [hcp]; decide
  · rw [hcp]; decide

/-! ## C144 -/

/-- **C144**: a default plot that is described by attributes of groups is in an NXentry group of the
root. -/
theorem attribute_plot_entry (hp : PlainClasses env (contents env f)) {a : Str}
    (h : AttributePlot env f (contents env f) a) : TopEntry env f := by
  obtain ⟨it, hit, hc, _⟩ := attribute_plot_exists h
  exact top_entry hp hit (by rw [hc]; decide)

/-- The classes of an accepted file are names of definitions. -/
theorem Accepted.plain {mins : Dict (Str × Str) Int} (h : Accepted env mgr mins f)
    (hs : ∀ c d, Dict.get? mgr.classes c = some d → '/' ∉ c) : PlainClasses env (contents env f) := by
  intro it hit g hg hne hcp c hc
  obtain ⟨d, hd⟩ := h.known hit hg hne (.inr ⟨hcp, hc⟩)
  exact hs c d hd

/-- **C144**: a file that is accepted has an NXentry group, or its default plot is given by a field with
the only mark `signal=1` in its group.  Missing for the full statement: files of the second kind, and
that the NXentry group is in the root; both are violated. -/
theorem accepted_entry_partial (hs : ∀ c d, Dict.get? mgr.classes c = some d → '/' ∉ c)
    (h : Accepted env mgr [] f) :
    HasClass env (contents env f) s%"NXentry" ∨ ∃ a, SignalPlot env (contents env f) a := by
  by_contra hn
  rw [not_or] at hn
  obtain ⟨h1, h2⟩ := hn
  have h3 : ¬ ∃ a, AttributePlot env f (contents env f) a := fun ⟨a, ha⟩ =>
    h1 (topEntry_hasClass (attribute_plot_entry (h.plain hs) ha))
  obtain ⟨d, spec, hd, hspec⟩ := h.valid.plot.2 h3 h2
  exact h.clean _ _ (.noPlot h3 h2 ⟨d, spec, hd, hspec, .inr ⟨h1, fun n e => by cases e⟩⟩)

/-- **C144**: a file without NXentry group, and without a plot given by marks, that is the first one to be
validated gets an ERROR for the missing default plot, whatever the definitions say about it. -/
theorem no_entry_reported (hdig : env.isdigit s%"1" = true) (hw : WellNamedFile f)
    (hnd : ∀ d, Dict.get? mgr.classes s%"NXentry" = some d → (Dict.keys d.groups).Nodup)
    (h : (validateOpen env mgr [] f).res = .ok ()) (hp : PlainClasses env (contents env f))
    (he : ¬ HasClass env (contents env f) s%"NXentry")
    (hm : ¬ ∃ a, SignalPlot env (contents env f) a) :
    ∃ x ∈ findings (validateOpen env mgr [] f).log,
      x.addr = some s%"/" ∧ x.test = s%"NeXus default plot" ∧ x.status = .error := by
  have hv := (validation_completes_iff (mins := []) hw).1 h
  have h3 : ¬ ∃ a, AttributePlot env f (contents env f) a := fun ⟨a, ha⟩ =>
    he (topEntry_hasClass (attribute_plot_entry hp ha))
  obtain ⟨d, spec, hd, hspec⟩ := hv.plot.2 h3 hm
  have hf : Fault env mgr [] f (contents env f) (some s%"/") s%"NeXus default plot" :=
    .noPlot h3 hm ⟨d, spec, hd, hspec, .inr ⟨he, fun n e => by cases e⟩⟩
  exact (error_iff hdig hw hnd h (some s%"/") s%"NeXus default plot").2 hf

/-- Names of definitions are plain. -/
abbrev PlainNames (mgr : Manager) : Prop :=
  ∀ c d, Dict.get? mgr.classes c = some d → '/' ∉ c

/-- Names of definitions that were read are plain: they are the beginnings of names of files. -/
theorem Spec.OwnDefinitions.plain {lib : Lib} {pattern : Str → Pat} {d : SetDir}
    (h : OwnDefinitions lib pattern d mgr) (hf : FileNames d) : PlainNames mgr := by
  obtain ⟨ds, ⟨_, _, s, _, hl⟩, _⟩ := h.classes
  intro c cd hc hsl
  cases s with
  | none =>
    unfold loadClasses at hl
    cases e : nxdlFileList ⟨true, none, d.listing⟩ with
    | error x => simp [e, bind, Except.bind] at hl
    | ok l => cases l <;> simp [e, bind, Except.bind] at hl
  | some s =>
    obtain ⟨l, d', hfl, hr, _⟩ := loadClasses_ok (s := s) rfl hl
    rcases readFiles_get hr c with ⟨pre, p, post, cd', rfl, ht, _⟩ | ⟨_, hg⟩
    · obtain ⟨fs, h1, h2, _⟩ := ((nxdlFileList_ok hfl).1 p.1 p.2).1 (by simp)
      refine hf p.1 fs p.2 h1 h2 ?_
      rw [← ht] at hsl
      exact (List.takeWhile_sublist _).subset hsl
    · rw [hg] at hc
      cases hc

/-- **C144**, for the command. -/
theorem passed_entry_partial {lib : Lib} {pattern : Str → Pat} {w : Disks} {files : Str → FileState}
    {upper : Char → Str} {abspath : Str → Str} {sets : Dict Str FileSet} {a : ValidateArgs}
    (hs : allFileSets w.source w.user = .ok sets)
    (hw : ∀ kv ∈ sets, WellDescribed kv.2) (hd : SoundSet w sets a) (ha : PlainAscii a.report)
    (hdig : env.isdigit s%"1" = true) (hf : files a.infile = .hdf5 f) (hn : WellNamedFile f)
    (hx : ∀ p, FileNames (w.dir p))
    (h : Passes (funcValidate (commandWorld lib pattern w env files upper abspath) a)) :
    HasClass env (contents env f) s%"NXentry" ∨ ∃ b, SignalPlot env (contents env f) b := by
  rw [command_passes_iff hs hw hd ha hdig (fun file e => by rw [hf] at e; cases e; exact hn)] at h
  obtain ⟨mgr, file, hr, hacc⟩ := h
  cases reaches_file hr hf
  obtain ⟨_, _, _, _, ho⟩ := hr.own
  exact accepted_entry_partial (ho.plain (hx _)) hacc

end Punx

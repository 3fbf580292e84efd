import Verif.Props.Whole2

/-!
# C130: a file made of accepted parts is accepted
-/

namespace Punx
open Spec

variable {env : Env} {mgr : Manager} {mins : Dict (Str × Str) Int} {f g : H5File}
  {parts : List H5File}

/-! ## reading the file -/

theorem intactKids_list : {ks : Kids} → (IntactKids ks ↔
    ∀ m ∈ ks.toList, ∃ n, m.2 = some n ∧ Intact n)
  | .nil => by rw [IntactKids, Kids.toList]; simp
  | .cons l k n r => by
    rw [IntactKids, Kids.toList, intactKids_list, List.forall_mem_cons]
    simp
  | .broken l k r => by
    rw [IntactKids, Kids.toList, List.forall_mem_cons]
    simp

theorem allKids_iff {P : Node → Prop} : {ks : Kids} → (AllKids P ks ↔
    ∀ m ∈ ks.toList, ∀ n, m.2 = some n → AllNodes P n)
  | .nil => by rw [AllKids, Kids.toList]; simp
  | .cons l k n r => by
    rw [AllKids, Kids.toList, allKids_iff, List.forall_mem_cons]
    simp
  | .broken l k r => by
    rw [AllKids, Kids.toList, List.forall_mem_cons, allKids_iff]
    simp

theorem classesReadableKids_iff {p : Place} : {ks : Kids} → (ClassesReadableKids env p ks ↔
    ∀ m ∈ ks.toList, ∀ n, m.2 = some n → ClassesReadable env p n)
  | .nil => by rw [ClassesReadableKids, Kids.toList]; simp
  | .cons l k n r => by
    rw [ClassesReadableKids, Kids.toList, classesReadableKids_iff, List.forall_mem_cons]
    simp
  | .broken l k r => by
    rw [ClassesReadableKids, Kids.toList, List.forall_mem_cons, classesReadableKids_iff]
    simp

/-- What the theorem is about: the file, its parts, and that the parts are accepted. -/
structure Whole (env : Env) (mgr : Manager) (mins : Dict (Str × Str) Int) (f : H5File)
    (parts : List H5File) : Prop where
  made : MadeOf f parts
  named : WellNamedFile f
  namedParts : ∀ g ∈ parts, WellNamedFile g
  marks : NoRootMarks env f
  default : DefaultIsText env f
  accepted : ∀ g ∈ parts, Accepted env mgr mins g

theorem Whole.readable (W : Whole env mgr mins f parts) : FileReadable env f := by
  refine ⟨intactKids_list.2 fun m hm => ?_, ?_, allKids_iff.2 fun m hm => ?_,
    classesReadableKids_iff.2 fun m hm => ?_⟩
  · obtain ⟨g, hg, hk⟩ := W.made.kids m hm
    exact intactKids_list.1 (W.accepted g hg).valid.readable.intact m hk
  · cases e : f.attrs.lookup s%"target" with
    | none => trivial
    | some v =>
      obtain ⟨g, hg, hk⟩ := W.made.attrs _ ((nodup_lookup W.named.1).1 e)
      have := (W.accepted g hg).valid.readable.rootTarget
      rwa [(nodup_lookup (W.namedParts g hg).1).2 hk] at this
  · obtain ⟨g, hg, hk⟩ := W.made.kids m hm
    exact allKids_iff.1 (W.accepted g hg).valid.readable.targets m hk
  · obtain ⟨g, hg, hk⟩ := W.made.kids m hm
    exact classesReadableKids_iff.1 (W.accepted g hg).valid.readable.classes m hk

theorem addresses_once (w : WellNamedFile f) (hr : FileReadable env f) :
    ((contents env f).filterMap (·.addr)).Nodup := by
  have hc := (catalog_completes_iff w).2 hr
  rw [← catalog_contents w hc]
  exact catalog_addresses_nodup_partial hc w

section
variable (W : Whole env mgr mins f parts)
include W

theorem Whole.once : ((contents env f).filterMap (·.addr)).Nodup := addresses_once W.named W.readable

theorem Whole.once' (hg : g ∈ parts) : ((contents env g).filterMap (·.addr)).Nodup :=
  addresses_once (W.namedParts g hg) (W.accepted g hg).valid.readable

/-! ## default plot -/

theorem Whole.itemAt (hg : g ∈ parts) {a : Str} {x : Item} (h : itemAt (contents env g) a = some x) :
    ∃ y, itemAt (contents env f) a = some y ∧ SameItem g f x y := by
  obtain ⟨hm, hx⟩ := (itemAt_iff (W.once' hg)).1 h
  obtain ⟨y, hy, hl⟩ := (W.made.excerpts g hg).up hm
  exact ⟨y, (itemAt_iff W.once).2 ⟨hy, hl.core.addr ▸ hx⟩, hl⟩

theorem Whole.inGroups (hg : g ∈ parts) {x y : Item} (h : SameItem g f x y)
    {D E R : Item} (k : InGroups (contents env g) x D E R) :
    ∃ D' E' R', InGroups (contents env f) y D' E' R' ∧
      (SameItem g f D D' ∧ D.obj = D'.obj) ∧ SameItem g f E E' ∧ SameItem g f R R' := by
  obtain ⟨r, e, d, rest, h1, h2, h3, h4, h5, h6, h7⟩ := k
  obtain ⟨D', h5', lD⟩ := W.itemAt hg h5
  obtain ⟨E', h6', lE⟩ := W.itemAt hg h6
  obtain ⟨R', h7', lR⟩ := W.itemAt hg h7
  refine ⟨D', E', R', ⟨r, e, d, rest, h.core.addr ▸ h1, h2, h3, h4, h5', h6', h7'⟩, ⟨lD, ?_⟩, lE, lR⟩
  obtain ⟨hm, hx⟩ := (itemAt_iff (W.once' hg)).1 h5
  refine lD.obj hm ?_
  rw [hx]
  intro e'
  have := congrArg List.length (Option.some.inj e')
  simp at this

omit W in
theorem names_same {x y : Item} (h : x.obj = y.obj) {k t : Str} :
    Names env x k t ↔ Names env y k t := by
  rw [Names, Names, h]

theorem Whole.pointsAt (hg : g ∈ parts) {x y : Item} (h : x.obj = y.obj) {k t : Str}
    (hp : PointsAt env g x k t) : PointsAt env f y k t := by
  obtain ⟨h1, n, h2, h3⟩ := hp
  exact ⟨(names_same h).1 h1, n, h ▸ h2,
    contains_whole (W.made.excerpts g hg) (W.namedParts g hg) W.named (.inl rfl) h3⟩

theorem Whole.pointer {x y : Item} (h : SameItem g f x y) (hp : Pointer env x s%"default") :
    Pointer env y s%"default" := by
  rcases h.core.obj with e | ⟨_, e'⟩
  · obtain ⟨attrs, h1, h2⟩ := hp
    exact ⟨attrs, e ▸ h1, e ▸ h2⟩
  · refine ⟨f.attrs, by rw [e']; rfl, fun v hv => ⟨?_, f.root, by rw [e']; rfl⟩⟩
    exact W.default v ((nodup_lookup W.named.1).1 hv)

theorem Whole.plotField (hg : g ∈ parts) {x y : Item} (h : SameItem g f x y) {t : Str}
    (k : PlotField env g (contents env g) x t) : PlotField env f (contents env f) y t := by
  obtain ⟨D, E, R, T, n, a, v, h1, h2, h3, h4⟩ := k
  obtain ⟨D', E', R', k1, lD, _⟩ := W.inGroups hg h h1
  obtain ⟨T', k3, lT⟩ := W.itemAt hg h3
  exact ⟨D', E', R', T', n, a, v, k1, W.pointsAt hg lD.2 h2, k3, lT.node.1 h4⟩

theorem Whole.signal (hg : g ∈ parts) {x y : Item} (h : SameItem g f x y)
    (hm : ¬ SignalMissing env g (contents env g) x)
    (hc : SignalCheckable env g (contents env g) x) :
    ¬ SignalMissing env f (contents env f) y ∧ SignalCheckable env f (contents env f) y := by
  obtain ⟨D, E, R, t, h1, h2, h3, h4, h5, h6⟩ := hc
  have hp : PointsAt env g D s%"signal" t := by
    by_contra k
    exact hm ⟨D, E, R, t, h1, h5, k⟩
  obtain ⟨D', E', R', k1, lD, lE, lR⟩ := W.inGroups hg h h1
  have hp' := W.pointsAt hg lD.2 hp
  have hn' := (names_same lD.2).1 h5
  constructor
  · rintro ⟨D2, E2, R2, t2, m1, m2, m3⟩
    obtain ⟨rfl, _, _⟩ := inGroups_unique k1 m1
    rw [names_unique m2 hn'] at m3
    exact m3 hp'
  · refine ⟨D', E', R', t, k1, W.pointer lR h2, W.pointer lE h3, ?_, hn', fun _ => ?_⟩
    · obtain ⟨attrs, m1, m2⟩ := h4
      exact ⟨attrs, lD.2 ▸ m1, lD.2 ▸ m2⟩
    obtain ⟨T, hT⟩ := h6 hp
    obtain ⟨T', hT', _⟩ := W.itemAt hg hT
    exact ⟨T', hT'⟩

omit W in
theorem mem_dataSignals {items : List Item} {x : Item} :
    x ∈ dataSignals items ↔ x ∈ items ∧ x.classpath = s%"/NXentry/NXdata@signal" := by
  rw [dataSignals, withClasspath, List.mem_filter]
  simp

omit W in
/-- In an accepted file no signal is missing. -/
theorem Accepted.noSignalMissing (h : Accepted env mgr mins g) : ∀ x ∈ dataSignals (contents env g),
    ¬ SignalMissing env g (contents env g) x ∧ SignalCheckable env g (contents env g) x := by
  have hno : ∀ x ∈ dataSignals (contents env g), ¬ SignalMissing env g (contents env g) x := by
    intro x hx hm
    classical
    obtain ⟨before, y, after, e, h1, h2⟩ : ∃ before y after,
        dataSignals (contents env g) = before ++ y :: after ∧
        SignalMissing env g (contents env g) y ∧
        ∀ i ∈ before, ¬ SignalMissing env g (contents env g) i := by
      generalize dataSignals (contents env g) = l at hx
      induction l with
      | nil => cases hx
      | cons z l ih =>
        by_cases hz : SignalMissing env g (contents env g) z
        · exact ⟨[], z, l, rfl, hz, by simp⟩
        · rcases List.mem_cons.1 hx with rfl | hx
          · exact absurd hm hz
          · obtain ⟨before, y, after, e, h1, h2⟩ := ih hx
            refine ⟨z :: before, y, after, by rw [e]; rfl, h1, fun i hi => ?_⟩
            rcases List.mem_cons.1 hi with rfl | hi
            · exact hz
            · exact h2 i hi
    exact h.clean _ _ (.plotSignal e h2 h1)
  intro x hx
  refine ⟨hno x hx, ?_⟩
  obtain ⟨before, after, e⟩ := List.append_of_mem hx
  exact h.valid.plot.1 before x after e fun i hi => hno i (by rw [e]; simp [hi])

theorem Whole.signals : ∀ y ∈ dataSignals (contents env f),
    ¬ SignalMissing env f (contents env f) y ∧ SignalCheckable env f (contents env f) y := by
  intro y hy
  obtain ⟨hy, hc⟩ := mem_dataSignals.1 hy
  obtain ⟨g, hg, x, hx, hs⟩ := W.made.down hy
  obtain ⟨h1, h2⟩ := (W.accepted g hg).noSignalMissing x
    (mem_dataSignals.2 ⟨hx, hs.core.classpath.trans hc⟩)
  exact W.signal hg hs h1 h2

theorem Whole.attributePlot (hg : g ∈ parts)
    (ha : ∃ a, AttributePlot env g (contents env g) a) :
    ∃ a, AttributePlot env f (contents env f) a := by
  rw [attributePlot_iff] at ha ⊢
  obtain ⟨_, x, hx, t, hp⟩ := ha
  refine ⟨fun ⟨it, hm, hs⟩ => (W.signals it hm).1 hs, ?_⟩
  obtain ⟨hx, hc⟩ := mem_dataSignals.1 hx
  obtain ⟨y, hy, hl⟩ := (W.made.excerpts g hg).up hx
  exact ⟨y, mem_dataSignals.2 ⟨hy, hl.core.classpath ▸ hc⟩, t, W.plotField hg hl hp⟩

/-- Several marks in a group of the file are several marks in that group of a part. -/
theorem Whole.several {o : Option Str} (h : 1 < (marksIn env (contents env f) o).length)
    (hg : g ∈ parts) {x : Item} (hx : x ∈ marksIn env (contents env g) o) :
    1 < (marksIn env (contents env g) o).length := by
  obtain ⟨hx1, hx2, hx3⟩ := mem_marksIn.1 hx
  obtain ⟨z, hz, hl⟩ := (W.made.excerpts g hg).up hx1
  have key : ∀ y ∈ marksIn env (contents env f) o, ∃ x' ∈ marksIn env (contents env g) o,
      x'.addr = y.addr := by
    intro y hy
    obtain ⟨h1, h2, h3⟩ := mem_marksIn.1 hy
    obtain ⟨x', hx', hs⟩ := marks_whole (W.made.excerpts g hg) W.named W.marks hx1 hl h1
      (hl.mark.1 hx2) h2 (by rw [← hl.groupOf, hx3, h3])
    exact ⟨x', mem_marksIn.2 ⟨hx', hs.mark.2 h2, by rw [hs.groupOf, h3]⟩, hs.core.addr⟩
  obtain ⟨y, hy, y', hy', hne⟩ := (several_marks W.once).1 h
  obtain ⟨u, hu, e⟩ := key y hy
  obtain ⟨u', hu', e'⟩ := key y' hy'
  exact (several_marks (W.once' hg)).2 ⟨u, hu, u', hu', by rwa [e, e']⟩

theorem Whole.signalPlot (hg : g ∈ parts) (h : ∃ a, SignalPlot env (contents env g) a) :
    ∃ a, SignalPlot env (contents env f) a := by
  obtain ⟨a, before, o, after, x, d, h1, h2, _⟩ := h
  have hx : x ∈ marksIn env (contents env g) o := by rw [h2]; simp
  obtain ⟨hx1, hx2, hx3⟩ := mem_marksIn.1 hx
  obtain ⟨y, hy, hl⟩ := (W.made.excerpts g hg).up hx1
  have hym : y ∈ marksIn env (contents env f) o :=
    mem_marksIn.2 ⟨hy, hl.mark.1 hx2, hl.groupOf ▸ hx3⟩
  refine (signalPlot_exists ?_).2 ⟨o, mem_markedGroups.2 ⟨y, mem_marks.2 ⟨hy, hl.mark.1 hx2⟩,
    hl.groupOf ▸ hx3⟩, ?_⟩
  · intro z hz d' hd'
    obtain ⟨hz1, hz2⟩ := mem_marks.1 hz
    obtain ⟨j, l, m, hj, hzm⟩ := mark_member hz1 hz2
    obtain ⟨s, hs, hx⟩ := mem_contentsNode m (rootOf f) [2 * j + 2] ('/' :: l) hzm
    rcases hx with rfl | hx
    · obtain ⟨_, v, e, _⟩ := hz2
      cases e
    obtain ⟨i, ka, hk, rfl⟩ := mem_attributeItems hx
    have : (attributeItem (s.item env) i ka).parent = some (s.item env) := rfl
    rw [this] at hd'
    cases hd'
    exact ⟨_, rfl⟩
  · have h3 : ¬ 1 < (marksIn env (contents env f) o).length := by
      intro k
      have := W.several k hg hx
      rw [h2] at this
      simp at this
    have h4 := List.length_pos_of_mem hym
    omega

theorem Whole.plotRequired (h : PlotRequired env mgr.classes mins (contents env f)) :
    ∃ g ∈ parts, PlotRequired env mgr.classes mins (contents env g) := by
  obtain ⟨d, spec, h1, h2, ⟨h3, h4⟩ | ⟨h3, h4⟩⟩ := h
  · obtain ⟨y, hy, n, hn, hc, hcl⟩ := h3
    obtain ⟨g, hg, x, hx, hs⟩ := W.made.down hy
    obtain ⟨n', hn', _⟩ := hs.group' hn
    exact ⟨g, hg, d, spec, h1, h2, .inl ⟨⟨x, hx, n', hn', fun e => hc (hs.core.classpath ▸ e),
      (hs.groupClass hx hn' hn).2 hcl⟩, h4⟩⟩
  · obtain ⟨g, hg⟩ := List.exists_mem_of_ne_nil _ W.made.nonempty
    refine ⟨g, hg, d, spec, h1, h2, .inr ⟨?_, h4⟩⟩
    rintro ⟨x, hx, n, hn, hc, hcl⟩
    obtain ⟨y, hy, hs⟩ := (W.made.excerpts g hg).up hx
    obtain ⟨n', hn', _⟩ := hs.group hn
    exact h3 ⟨y, hy, n', hn', fun e => hc (hs.core.classpath.trans e),
      (hs.groupClass hx hn hn').1 hcl⟩

/-! ## definitions -/

theorem Whole.declaredBy {n : Node} {name : Str} (hd : DeclaredBy env f (contents env f) n name) :
    ∃ g ∈ parts, ∃ n', NodeSame g f n' n ∧ DeclaredBy env g (contents env g) n' name := by
  obtain ⟨y, hm, hi, p, hp, hn, hdec⟩ := hd
  obtain ⟨g, hg, x, hx, hs⟩ := W.made.down hm
  obtain ⟨p', hp', hlp⟩ := hs.parent' hp
  obtain ⟨n', hn', e⟩ := hlp.group' hn
  have hi' : IsDefinition x := by rw [IsDefinition] at hi ⊢; rwa [hs.core.classpath]
  obtain ⟨p2, g2, e1, e2, name', hdec', _⟩ := (W.accepted g hg).valid.definitions x hx hi'
  rw [hp'] at e1
  cases e1
  rw [hn'] at e2
  cases e2
  rw [← declares_unique (declares_whole (W.made.excerpts g hg) (W.namedParts g hg) W.named e hdec') hdec]
  exact ⟨g, hg, n', e, x, hx, hi', p', hp', hn', hdec'⟩

/-- The fields of declared definitions are there. -/
theorem Whole.field {n : Node} {fld : Str × FieldSpec}
    (hr : RequiredIn env mgr f (contents env f) n fld) :
    ∃ m, h5get f n fld.1 = .ok (some m) ∧ ItemReadable env m ∧ (fld.2.enums ≠ [] →
      (∃ k a d, m = .dataset k a d ∧ ∃ s, HoldsText env d.value s ∨ HoldsOther env d.value s) ∧
      mgr.fieldMinOccursIsOne ≠ none ∧ HasOneOf env m fld.2.enums) := by
  obtain ⟨name, ad, gname, entry, more, h1, h2⟩ := hr
  obtain ⟨g, hg, n', e, h1'⟩ := W.declaredBy h1
  obtain ⟨m, k1, k2, k3⟩ := (W.accepted g hg).field ⟨name, ad, gname, entry, more, h1', h2⟩
  obtain ⟨m', k4, rfl | ⟨rfl, rfl⟩⟩ := get_whole (W.made.excerpts g hg) (W.namedParts g hg) W.named e k1
  · exact ⟨m, k4, k2, k3⟩
  · refine ⟨f.root, k4, ⟨.inl rfl, W.readable.rootTarget⟩, fun he => ?_⟩
    obtain ⟨⟨k, a, d, e', _⟩, _⟩ := k3 he
    cases e'

/-! ## no faults -/

theorem Whole.noFault (a : Option Str) (t : Str) : ¬ Fault env mgr mins f (contents env f) a t := by
  intro k
  cases k with
  | objectName h1 h2 h3 h4 h5 =>
    obtain ⟨g, hg, x, hx, hl⟩ := W.made.down h1
    exact (W.accepted g hg).clean _ _ (.objectName hx (hl.node.2 h2) (hl.core.classpath ▸ h3)
      (hl.core.classpath ▸ h4) (by rwa [hl.core.name]))
  | memberName h1 h2 h3 h4 h5 h6 =>
    obtain ⟨g, hg, x, hx, hl⟩ := W.made.down h1
    obtain ⟨p, hp, hlp⟩ := hl.parent' h4
    exact (W.accepted g hg).clean _ _ (.memberName hx (hl.node.2 h2) (hl.core.classpath ▸ h3) hp
      (fun k => h5 (linked_whole (W.made.excerpts g hg) (W.namedParts g hg) W.named hlp.core k))
      (by rwa [hl.core.name]))
  | attrName h1 h2 h3 h4 =>
    obtain ⟨g, hg, x, hx, hl⟩ := W.made.carries h1
    exact (W.accepted g hg).clean _ _ (.attrName hx h2
      (fun k => h3 (linked_whole (W.made.excerpts g hg) (W.namedParts g hg) W.named hl.core k)) h4)
  | className h1 h2 h3 h4 =>
    obtain ⟨g, hg, x, hx, hl⟩ := W.made.carries h1
    exact (W.accepted g hg).clean _ _ (.className hx h2 h3 h4)
  | unusable h1 h2 h3 =>
    obtain ⟨g, hg, x, hx, hl⟩ := W.made.carries h1
    exact (W.accepted g hg).clean _ _ (.unusable hx h2 h3)
  | target h1 h2 h3 =>
    obtain ⟨g, hg, x, hx, hl⟩ := W.made.carries h1
    exact (W.accepted g hg).clean _ _ (.target hx h2
      fun k => h3 (targetOk_whole (W.made.excerpts g hg) (W.namedParts g hg) W.named k))
  | signalName h1 h2 h3 h4 =>
    obtain ⟨g, hg, x, hx, hl⟩ := W.made.carries h1
    exact (W.accepted g hg).clean _ _ (.signalName hx (hl.isGroup.trans h2) h3 h4)
  | signal h1 h2 h3 h4 h5 =>
    obtain ⟨g, hg, x, hx, hl⟩ := W.made.carries h1
    refine (W.accepted g hg).clean _ _ (.signal hx (hl.node.2 h2) (hl.isGroup.trans h3) h4 ?_)
    rw [Bool.eq_false_iff]
    intro k
    rw [contains_whole (W.made.excerpts g hg) (W.namedParts g hg) W.named (.inl rfl) k] at h5
    cases h5
  | axisName h1 h2 h3 h4 =>
    obtain ⟨g, hg, x, hx, hl⟩ := W.made.carries h1
    exact (W.accepted g hg).clean _ _ (.axisName hx h2 h3 h4)
  | axis h1 h2 h3 h4 h5 =>
    obtain ⟨g, hg, x, hx, hl⟩ := W.made.carries h1
    obtain ⟨n, hn, e⟩ := hl.group' h4
    refine (W.accepted g hg).clean _ _ (.axis hx h2 h3 hn fun ⟨m, k⟩ => ?_)
    obtain ⟨m', e', _⟩ := get_whole (W.made.excerpts g hg) (W.namedParts g hg) W.named e k
    exact h5 ⟨m', e'⟩
  | unknownClass h1 h2 h3 h4 h5 h6 =>
    obtain ⟨g, hg, x, hx, hl⟩ := W.made.down h1
    obtain ⟨n, hn, e⟩ := hl.group' h2
    exact (W.accepted g hg).clean _ _ (.unknownClass hx hn (hl.core.classpath ▸ h3)
      ((hl.groupClass hx hn h2).2 h4) h5 h6)
  | application h1 h2 h3 h4 h5 h6 =>
    obtain ⟨g, hg, x, hx, hl⟩ := W.made.down h1
    obtain ⟨n, hn, e⟩ := hl.group' h2
    exact (W.accepted g hg).clean _ _ (.application hx hn (hl.core.classpath ▸ h3)
      ((hl.groupClass hx hn h2).2 h4) h5 h6)
  | enumeration h1 h2 h3 h4 h5 h6 h7 h8 h9 =>
    obtain ⟨g, hg, x, hx, hl, n, hn, e, hk⟩ := W.made.groupAttr h1 h2 h6
    exact (W.accepted g hg).clean _ _ (.enumeration hx hn (hl.core.classpath ▸ h3)
      ((hl.groupClass hx hn h2).2 h4) h5 hk h7 h8 h9)
  | pointer h1 h2 h3 h4 h5 h6 h7 h8 h9 =>
    obtain ⟨g, hg, x, hx, hl, n, hn, e, hk⟩ := W.made.groupAttr h1 h2 h6
    refine (W.accepted g hg).clean _ _ (.pointer hx hn (hl.core.classpath ▸ h3)
      ((hl.groupClass hx hn h2).2 h4) h5 hk h7 (hl.core.classpath ▸ h8) ?_)
    rintro ⟨s, k1, k2⟩
    exact h9 ⟨s, k1, contains_whole (W.made.excerpts g hg) (W.namedParts g hg) W.named e k2⟩
  | unknownDefinition h1 h2 =>
    obtain ⟨g, hg, n, _, h1'⟩ := W.declaredBy h1
    exact (W.accepted g hg).clean _ _ (.unknownDefinition h1' h2)
  | noApplication h1 h2 h3 =>
    obtain ⟨g, hg, n, _, h1'⟩ := W.declaredBy h1
    exact (W.accepted g hg).clean _ _ (.noApplication h1' h2 h3)
  | missingField h1 h2 =>
    obtain ⟨m, k1, _⟩ := W.field h1
    rw [h2] at k1
    cases k1
  | wrongValue h1 h2 h3 h4 =>
    obtain ⟨m, k1, _, k3⟩ := W.field h1
    rw [h2] at k1
    cases k1
    exact h4 (k3 h3).2.2
  | plotSignal h1 h2 h3 => exact (W.signals _ (by rw [h1]; simp)).1 h3
  | plotMarks h1 h2 =>
    obtain ⟨y, hy, _⟩ := (several_marks W.once).1 h2
    obtain ⟨k1, k2, k3⟩ := mem_marksIn.1 hy
    obtain ⟨g, hg, x, hx, hl⟩ := W.made.down k1
    refine (W.accepted g hg).clean a _ (.plotMarks (fun k => h1 (W.attributePlot hg k)) ?_)
    exact W.several h2 hg (mem_marksIn.2 ⟨hx, hl.mark.2 k2, hl.groupOf.trans k3⟩)
  | noPlot h1 h2 h3 =>
    obtain ⟨g, hg, h3'⟩ := W.plotRequired h3
    exact (W.accepted g hg).clean _ _ (.noPlot (fun k => h1 (W.attributePlot hg k))
      (fun k => h2 (W.signalPlot hg k)) h3')

theorem Whole.validatable : Validatable env mgr f := by
  refine ⟨W.readable, ?_, ?_, ?_, ?_, ?_⟩
  · intro y hy hc attrs ha ka hka
    obtain ⟨g, hg, x, hx, hl, attrs', ha', hka'⟩ := W.made.attr hy ha hka
    have k := (W.accepted g hg).valid.names x hx (hl.core.classpath ▸ hc) attrs' ha' ka hka'
    refine ⟨k.text, fun e ⟨n, a, d, h⟩ => k.fieldSignal e ⟨n, a, d, hl.node.2 h⟩,
      fun e ⟨n, a, d, h⟩ => k.groupSignal e ⟨n, a, d, hl.node.2 h⟩, k.otherSignal, fun e => ?_⟩
    obtain ⟨names, k1, k2⟩ := k.axes e
    refine ⟨names, k1, k2.imp id fun ⟨⟨n, k3⟩, k4⟩ => ⟨?_, k4⟩⟩
    obtain ⟨n', k5, _⟩ := hl.group k3
    exact ⟨n', k5⟩
  · intro y hy hc attrs ha ka hka hcl
    obtain ⟨g, hg, x, hx, hl, attrs', ha', hka'⟩ := W.made.attr hy ha hka
    exact (W.accepted g hg).valid.classes x hx (hl.core.classpath ▸ hc) attrs' ha' ka hka' hcl
  · intro y hy n hn hc
    have key : ∀ {g : H5File}, g ∈ parts → ∀ {x : Item} {n' : Node}, x ∈ contents env g →
        SameItem g f x y → x.obj.asGroup = some n' → ∀ {c : Str} {d : ClassDef},
        GroupClass env y.classpath n.attrs c → Dict.get? mgr.classes c = some d →
        GroupCheckable env y.classpath n'.attrs d := by
      intro g hg x n' hx hl hn' c d hcl hd
      have := ((W.accepted g hg).valid.groups x hx n' hn' (hl.core.classpath ▸ hc)).2 c d
        ((hl.groupClass hx hn' hn).2 hcl) hd
      rwa [hl.core.classpath] at this
    obtain ⟨g, hg, x, hx, hl⟩ := W.made.down hy
    obtain ⟨n', hn', _⟩ := hl.group' hn
    refine ⟨fun p hp => ?_, fun c d hcl hd => ?_⟩
    · obtain ⟨p', hp', hlp⟩ := hl.parent' hp
      rw [← hlp.core.classpath]
      exact ((W.accepted g hg).valid.groups x hx n' hn' (hl.core.classpath ▸ hc)).1 p' hp'
    · have k := key hg hx hl hn' hcl hd
      have att : ∀ ka ∈ n.attrs, ∃ attrs, ka ∈ attrs ∧ GroupCheckable env y.classpath attrs d := by
        intro ka hka
        obtain ⟨g, hg, x, hx, hl, n', hn', _, hk⟩ := W.made.groupAttr hy hn hka
        exact ⟨_, hk, key hg hx hl hn' hcl hd⟩
      refine ⟨k.single, fun ka hka => ?_, fun ka hka => ?_, fun ka hka => ?_, k.occurs⟩
      · obtain ⟨attrs, h1, h2⟩ := att ka hka
        exact h2.decode ka h1
      · obtain ⟨attrs, h1, h2⟩ := att ka hka
        exact h2.text ka h1
      · obtain ⟨attrs, h1, h2⟩ := att ka hka
        exact h2.target ka h1
  · intro y hy hi
    obtain ⟨g, hg, x, hx, hl⟩ := W.made.down hy
    have hi' : IsDefinition x := by rw [IsDefinition] at hi ⊢; rwa [hl.core.classpath]
    obtain ⟨p, n, hp, hn, name, hdec, _⟩ := (W.accepted g hg).valid.definitions x hx hi'
    obtain ⟨p', hp', hlp⟩ := hl.parent hp
    obtain ⟨n', hn', e⟩ := hlp.group hn
    have hdec' := declares_whole (W.made.excerpts g hg) (W.namedParts g hg) W.named e hdec
    have hd : DeclaredBy env f (contents env f) n' name := ⟨y, hy, hi, p', hp', hn', hdec'⟩
    refine ⟨p', n', hp', hn', name, hdec', fun ad ead => ?_⟩
    obtain ⟨gname, entry, more, eg⟩ :=
      (W.accepted g hg).entry ⟨x, hx, hi', p, hp, hn, hdec⟩ ead
    refine ⟨gname, entry, more, eg, fun fld hf => ?_⟩
    obtain ⟨m, k1, k2, k3⟩ := W.field ⟨name, ad, gname, entry, more, hd, ead, eg, hf⟩
    exact .inl ⟨m, k1, k2, fun he => ⟨(k3 he).1, (k3 he).2.1, fun _ => (k3 he).2.2⟩⟩
  · refine ⟨fun before it after e _ => (W.signals it (by rw [e]; simp)).2, fun h1 h2 => ?_⟩
    obtain ⟨g, hg⟩ := List.exists_mem_of_ne_nil _ W.made.nonempty
    exact (W.accepted g hg).valid.plot.2 (fun k => h1 (W.attributePlot hg k))
      fun k => h2 (W.signalPlot hg k)
end

/-! ## the whole validation -/

/-- **C130.** A file that is made of parts (each with some of the attributes and some of the members
of the root) is validated to the end without an ERROR, if each of the parts is; provided that no
field in the root itself is marked as a signal, and that the attribute `default` of the root, if it
is there, is text. -/
theorem parts_accepted (hdig : env.isdigit s%"1" = true) (hw : WellNamedFile f)
    (hwp : ∀ g ∈ parts, WellNamedFile g)
    (hnd : ∀ d, Dict.get? mgr.classes s%"NXentry" = some d → (Dict.keys d.groups).Nodup)
    (hmade : MadeOf f parts) (hmarks : NoRootMarks env f) (hdef : DefaultIsText env f)
    (h : ∀ g ∈ parts, (validateOpen env mgr mins g).res = .ok () ∧
      ∀ x ∈ findings (validateOpen env mgr mins g).log, x.status ≠ .error) :
    (validateOpen env mgr mins f).res = .ok () ∧
    ∀ x ∈ findings (validateOpen env mgr mins f).log, x.status ≠ .error := by
  have W : Whole env mgr mins f parts := ⟨hmade, hw, hwp, hmarks, hdef, fun g hg =>
    ⟨(validation_completes_iff (hwp g hg)).1 (h g hg).1,
      (no_error_iff hdig (hwp g hg) hnd (h g hg).1).1 (h g hg).2⟩⟩
  have h' := (validation_completes_iff (mins := mins) hw).2 W.validatable
  exact ⟨h', (no_error_iff hdig hw hnd h').2 W.noFault⟩

end Punx

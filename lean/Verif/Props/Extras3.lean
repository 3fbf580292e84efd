import Verif.Props.Extras2
import Verif.Props.Notes4
import Verif.Props.Wider
import Verif.Props.Addressed

/-!
# C129: additional content does no harm
-/

namespace Punx
open Spec

variable {env : Env} {mgr : Manager} {mins : Dict (Str × Str) Int} {X : Node → Bool} {f : H5File}
  {items items' : List Item}

/-! ## the file -/

mutual
theorem wellNamed_trim : (n : Node) → ∀ {p : Str}, WellNamed p n → WellNamed p (trimNode X n)
  | .group n a ks, p, w => by
    rw [WellNamed] at w
    rw [trimNode, WellNamed]
    exact ⟨w.1, w.2.1, w.2.2.1.sublist (trimKids_names ks), wellNamedKids_trim ks w.2.2.2⟩
  | .dataset n a v, p, w => by rwa [trimNode]
  | .datatype n a, p, w => by rwa [trimNode]
theorem wellNamedKids_trim : (ks : Kids) → ∀ {p : Str}, WellNamedKids p ks →
    WellNamedKids p (trimKids X ks)
  | .nil, _, w => by rwa [trimKids]
  | .cons l k n r, p, w => by
    rw [WellNamedKids] at w
    rw [trimKids]
    split
    · exact wellNamedKids_trim r w.2.2.2.2
    · rw [WellNamedKids]
      exact ⟨w.1, w.2.1, w.2.2.1, wellNamed_trim n w.2.2.2.1, wellNamedKids_trim r w.2.2.2.2⟩
  | .broken l k r, p, w => by
    rw [WellNamedKids] at w
    rw [trimKids, WellNamedKids]
    exact wellNamedKids_trim r w
end

theorem wellNamedFile_trim (w : WellNamedFile f) : WellNamedFile (trim X f) :=
  ⟨w.1, w.2.1.sublist (trimKids_names _), wellNamedKids_trim _ w.2.2⟩

mutual
theorem classesReadable_place {p : Place} (hp : p ≠ .nexus) : (n : Node) → ClassesReadable env p n
  | .group n a ks => by
    rw [ClassesReadable]
    refine ⟨fun e => absurd e hp, ?_⟩
    have : p.below env a = p := by cases p <;> first | rfl | exact absurd rfl hp
    rw [this]
    exact classesReadableKids_place hp ks
  | .dataset .. => by rw [ClassesReadable]; exact trivial; all_goals simp
  | .datatype .. => by rw [ClassesReadable]; exact trivial; all_goals simp
theorem classesReadableKids_place {p : Place} (hp : p ≠ .nexus) :
    (ks : Kids) → ClassesReadableKids env p ks
  | .nil => by rw [ClassesReadableKids]; exact trivial
  | .cons _ _ n r => by
    rw [ClassesReadableKids]
    exact ⟨classesReadable_place hp n, classesReadableKids_place hp r⟩
  | .broken _ _ r => by
    rw [ClassesReadableKids]
    exact classesReadableKids_place hp r
end

mutual
theorem allNodes_imp {P Q : Node → Prop} (hPQ : ∀ n, P n → Q n) : (n : Node) → AllNodes P n →
    AllNodes Q n
  | .group .., h => by
    rw [AllNodes] at h ⊢
    exact ⟨hPQ _ h.1, allKids_imp hPQ _ h.2⟩
  | .dataset .., h => by rw [AllNodes] at h ⊢; exact hPQ _ h
  | .datatype .., h => by rw [AllNodes] at h ⊢; exact hPQ _ h
theorem allKids_imp {P Q : Node → Prop} (hPQ : ∀ n, P n → Q n) : (ks : Kids) → AllKids P ks →
    AllKids Q ks
  | .nil, _ => by rw [AllKids]; exact trivial
  | .cons .., h => by
    rw [AllKids] at h ⊢
    exact ⟨allNodes_imp hPQ _ h.1, allKids_imp hPQ _ h.2⟩
  | .broken .., h => by
    rw [AllKids] at h ⊢
    exact allKids_imp hPQ _ h
end

theorem notes_target {a : List (Str × Val)} (h : ∀ ka ∈ a, IsNote ka.1 ∧ NameOk env mgr ka.1) :
    a.lookup s%"target" = none := by
  cases e : a.lookup s%"target" with
  | none => rfl
  | some v =>
    rw [List.lookup_eq_some_iff] at e
    obtain ⟨x, y, rfl, _⟩ := e
    exact absurd (by simp) (h (s%"target", v) (by simp)).1.2

/-- Additional objects can be read. -/
theorem Spec.Extra.readable {n : Node} (h : Extra env mgr n) :
    Intact n ∧ AllNodes (NodeTargetOk env) n ∧ ∀ p, ClassesReadable env p n := by
  cases n with
  | dataset n a v =>
    rw [Extra] at h
    refine ⟨by rw [Intact]; exact trivial; all_goals simp, ?_, fun p => ?_⟩
    · rw [AllNodes]
      show targetReadable env (a.lookup s%"target")
      rw [notes_target h.2.2]
      exact trivial
    · rw [ClassesReadable]; exact trivial; all_goals simp
  | datatype n a =>
    refine ⟨by rw [Intact]; exact trivial; all_goals simp, ?_, fun p => ?_⟩
    · rw [AllNodes]; exact trivial
    · rw [ClassesReadable]; exact trivial; all_goals simp
  | group n a ks =>
    rw [Extra] at h
    refine ⟨by rw [Intact]; exact h.2.2.2, allNodes_imp (fun _ k => k.2) _ h.2.2.1, fun p => ?_⟩
    rw [ClassesReadable]
    refine ⟨fun _ => h.2.1, ?_⟩
    cases p with
    | nexus =>
      simp only [Place.below, h.1]
      exact classesReadableKids_place (by simp) ks
    | slash => exact classesReadableKids_place (by simp [Place.below]) ks
    | outside => exact classesReadableKids_place (by simp [Place.below]) ks

mutual
theorem readable_trim : (n : Node) → AllNodes (fun n => X n = true → Extra env mgr n) n →
    ∀ {p : Place}, Intact (trimNode X n) → AllNodes (NodeTargetOk env) (trimNode X n) →
    ClassesReadable env p (trimNode X n) →
    Intact n ∧ AllNodes (NodeTargetOk env) n ∧ ClassesReadable env p n
  | .group n a ks, hx, p, h1, h2, h3 => by
    rw [AllNodes] at hx
    rw [trimNode] at h1 h2 h3
    rw [Intact] at h1
    rw [AllNodes] at h2
    rw [ClassesReadable] at h3
    obtain ⟨k1, k2, k3⟩ := readableKids_trim ks hx.2 h1 h2.2 h3.2
    rw [Intact, AllNodes, ClassesReadable]
    exact ⟨k1, ⟨h2.1, k2⟩, h3.1, k3⟩
  | .dataset n a v, hx, p, h1, h2, h3 => by
    rw [trimNode] at h1 h2 h3
    exact ⟨h1, h2, h3⟩
  | .datatype n a, hx, p, h1, h2, h3 => by
    rw [trimNode] at h1 h2 h3
    exact ⟨h1, h2, h3⟩
theorem readableKids_trim : (ks : Kids) → AllKids (fun n => X n = true → Extra env mgr n) ks →
    ∀ {p : Place}, IntactKids (trimKids X ks) → AllKids (NodeTargetOk env) (trimKids X ks) →
    ClassesReadableKids env p (trimKids X ks) →
    IntactKids ks ∧ AllKids (NodeTargetOk env) ks ∧ ClassesReadableKids env p ks
  | .nil, _, _, h1, h2, h3 => by
    rw [trimKids] at h1 h2 h3
    exact ⟨h1, h2, h3⟩
  | .cons l k n r, hx, p, h1, h2, h3 => by
    rw [AllKids] at hx
    rw [trimKids] at h1 h2 h3
    rw [IntactKids, AllKids, ClassesReadableKids]
    split at h1
    · rename_i hX
      rw [if_pos hX] at h2 h3
      obtain ⟨k1, k2, k3⟩ := readableKids_trim r hx.2 h1 h2 h3
      obtain ⟨e1, e2, e3⟩ := Extra.readable (allNodes_self hx.1 hX)
      exact ⟨⟨e1, k1⟩, ⟨e2, k2⟩, e3 p, k3⟩
    · rename_i hX
      rw [if_neg hX] at h2 h3
      rw [IntactKids] at h1
      rw [AllKids] at h2
      rw [ClassesReadableKids] at h3
      obtain ⟨k1, k2, k3⟩ := readableKids_trim r hx.2 h1.2 h2.2 h3.2
      obtain ⟨e1, e2, e3⟩ := readable_trim n hx.1 h1.1 h2.1 h3.1
      exact ⟨⟨e1, k1⟩, ⟨e2, k2⟩, e3, k3⟩
  | .broken l k r, hx, p, h1, h2, h3 => by
    rw [trimKids, IntactKids] at h1
    exact h1.elim
end

theorem fileReadable_trim (hx : OnlyExtras env mgr X f) (h : FileReadable env (trim X f)) :
    FileReadable env f := by
  obtain ⟨k1, k2, k3⟩ := readableKids_trim f.kids hx h.intact h.targets h.classes
  exact ⟨k1, h.rootTarget, k2, k3⟩

/-! ## default plot -/

theorem itemAt_trim (S : TrimFile env mgr X f items items') {a : Str} {x : Item}
    (h : itemAt items a = some x) : ∃ y, itemAt items' a = some y ∧ TrimRel X x y := by
  obtain ⟨hm, hx⟩ := (itemAt_iff S.once').1 h
  obtain ⟨y, hy, hl⟩ := S.rel.up hm
  exact ⟨y, (itemAt_iff S.once).2 ⟨hy, hl.core.addr ▸ hx⟩, hl⟩

theorem inGroups_trim (S : TrimFile env mgr X f items items') {x y : Item} (h : TrimRel X x y)
    {D E R : Item} (k : InGroups items x D E R) : ∃ D' E' R', InGroups items' y D' E' R' ∧
      TrimRel X D D' ∧ TrimRel X E E' ∧ TrimRel X R R' := by
  obtain ⟨r, e, d, rest, h1, h2, h3, h4, h5, h6, h7⟩ := k
  obtain ⟨D', h5', lD⟩ := itemAt_trim S h5
  obtain ⟨E', h6', lE⟩ := itemAt_trim S h6
  obtain ⟨R', h7', lR⟩ := itemAt_trim S h7
  exact ⟨D', E', R', ⟨r, e, d, rest, h.core.addr ▸ h1, h2, h3, h4, h5', h6', h7'⟩, lD, lE, lR⟩

theorem names_trim {x y : Item} (h : TrimRel X x y) {k t : Str} :
    Names env x k t ↔ Names env y k t := by
  rw [Names, Names, h.attrs, h.core.obj, trimObj_name]

theorem pointsAt_trim (w : WellNamedFile f) {x y : Item} (h : TrimRel X x y) {k t : Str}
    (hp : PointsAt env (trim X f) x k t) : PointsAt env f y k t := by
  obtain ⟨h1, g, h2, h3⟩ := hp
  obtain ⟨g', e, rfl, d⟩ := h.group' h2
  exact ⟨(names_trim h).1 h1, g', e, trim_contains w d h3⟩

theorem pointer_trim {x y : Item} (h : TrimRel X x y) {k : Str} (hp : Pointer env x k) :
    Pointer env y k := by
  obtain ⟨attrs, h1, h2⟩ := hp
  refine ⟨attrs, h.attrs ▸ h1, fun v hv => ⟨(h2 v hv).1, ?_⟩⟩
  obtain ⟨g, hg⟩ := (h2 v hv).2
  obtain ⟨g', e, _⟩ := h.group' hg
  exact ⟨g', e⟩

theorem plotField_trim (S : TrimFile env mgr X f items items') {x y : Item} (h : TrimRel X x y)
    {t : Str} (k : PlotField env (trim X f) items x t) : PlotField env f items' y t := by
  obtain ⟨D, E, R, T, n, a, v, h1, h2, h3, h4⟩ := k
  obtain ⟨D', E', R', k1, lD, _⟩ := inGroups_trim S h h1
  obtain ⟨T', k3, lT⟩ := itemAt_trim S h3
  obtain ⟨n', a', v', k4⟩ := lT.dataset.1 ⟨n, a, v, h4⟩
  exact ⟨D', E', R', T', n', a', v', k1, pointsAt_trim S.named lD h2, k3, k4⟩

/-- A signal that can be followed without additional content can be followed with it. -/
theorem signal_trim (S : TrimFile env mgr X f items items') {x y : Item} (h : TrimRel X x y)
    (hm : ¬ SignalMissing env (trim X f) items x)
    (hc : SignalCheckable env (trim X f) items x) :
    ¬ SignalMissing env f items' y ∧ SignalCheckable env f items' y := by
  obtain ⟨D, E, R, t, h1, h2, h3, h4, h5, h6⟩ := hc
  have hp : PointsAt env (trim X f) D s%"signal" t := by
    by_contra k
    exact hm ⟨D, E, R, t, h1, h5, k⟩
  obtain ⟨D', E', R', k1, lD, lE, lR⟩ := inGroups_trim S h h1
  have hp' := pointsAt_trim S.named lD hp
  have hn' := (names_trim lD).1 h5
  constructor
  · rintro ⟨D2, E2, R2, t2, m1, m2, m3⟩
    obtain ⟨rfl, _, _⟩ := inGroups_unique k1 m1
    rw [names_unique m2 hn'] at m3
    exact m3 hp'
  · refine ⟨D', E', R', t, k1, pointer_trim lR h2, pointer_trim lE h3, pointer_trim lD h4, hn',
      fun _ => ?_⟩
    obtain ⟨T, hT⟩ := h6 hp
    obtain ⟨T', hT', _⟩ := itemAt_trim S hT
    exact ⟨T', hT'⟩

theorem dataSignals_trim (S : TrimFile env mgr X f items items') :
    List.Forall₂ (TrimRel X) (dataSignals items) (dataSignals items') := by
  rw [dataSignals, dataSignals, withClasspath, withClasspath]
  refine S.rel.filter (fun x y h => ?_) fun y hy => ?_
  · rw [h.core.classpath]
  · rw [decide_eq_false_iff_not]
    intro e
    exact hy.signal (by rw [e]; exact ⟨s%"/NXentry/NXdata", rfl⟩)

theorem fieldSignal_trim {x y : Item} (h : TrimRel X x y) : FieldSignal x ↔ FieldSignal y := by
  rw [FieldSignal, FieldSignal, h.core.classpath]
  refine and_congr_right fun hs => ⟨?_, ?_⟩
  · rintro ⟨d, hd, e⟩
    obtain ⟨d', hd', hl, _⟩ := h.parent' (nexus_of_at (hs.subset (by simp))) hd
    exact ⟨d', hd', hl.dataset.1 e⟩
  · rintro ⟨d, hd, e⟩
    obtain ⟨d', hd', hl, _⟩ := h.parent (nexus_of_at (hs.subset (by simp))) hd
    exact ⟨d', hd', hl.dataset.2 e⟩

theorem mark_trim {x y : Item} (h : TrimRel X x y) : Mark env x ↔ Mark env y := by
  rw [Mark, Mark, fieldSignal_trim h]
  refine and_congr Iff.rfl (exists_congr fun v => and_congr ?_ Iff.rfl)
  rw [h.core.obj]
  generalize y.obj = o
  cases o <;> simp [trimObj]

theorem groupOf_trim {x y : Item} (h : TrimRel X x y)
    (hc : y.classpath ≠ s%"non-NeXus content") : groupOf x = groupOf y := by
  have h2 := h.ancestors hc
  rw [groupOf, groupOf, Item.parent, Item.parent]
  generalize x.ancestors = l at *
  generalize y.ancestors = l' at *
  cases h2 with
  | nil => rfl
  | cons x k =>
    cases k with
    | nil => rfl
    | cons y k => exact y.addr

/-- Marks of the file without additional content, and of the file. -/
def TrimMark (env : Env) (X : Node → Bool) (x y : Item) : Prop := TrimRel X x y ∧ Mark env y

theorem marks_trim (S : TrimFile env mgr X f items items') :
    PermBy (TrimMark env X) (marks env items) (marks env items') := by
  classical
  have h1 : List.Forall₂ (TrimRel X) (items.filter fun i => Mark env i)
      (items'.filter fun i => Mark env i) := by
    refine S.rel.filter (fun x y h => decide_eq_decide.2 (mark_trim h)) fun y hy => ?_
    rw [decide_eq_false_iff_not]
    exact fun e => hy.signal e.1.1
  have h2 : List.Forall₂ (TrimMark env X) (items.filter fun i => Mark env i)
      (items'.filter fun i => Mark env i) := by
    have hm : ∀ y ∈ items'.filter fun i => Mark env i, Mark env y :=
      fun y hy => of_decide_eq_true (List.mem_filter.1 hy).2
    generalize (items.filter fun i => Mark env i) = l0 at h1 ⊢
    generalize (items'.filter fun i => Mark env i) = l at h1 hm ⊢
    induction h1 with
    | nil => exact .nil
    | cons h _ ih =>
      exact .cons ⟨h, hm _ (by simp)⟩ (ih fun y hy => hm y (List.mem_cons_of_mem _ hy))
  rw [marks, marks]
  exact .perm_left ((byClasspath_perm items).filter _)
    ((PermBy.of_forall₂ h2).perm_right ((byClasspath_perm items').filter _).symm)

theorem marksIn_trim (S : TrimFile env mgr X f items items') (g : Option Str) :
    PermBy (TrimMark env X) (marksIn env items g) (marksIn env items' g) := by
  rw [marksIn, marksIn]
  refine (marks_trim S).filter fun x y h => ?_
  rw [groupOf_trim h.1 (nexus_of_mark h.2)]

theorem markedGroups_trim (S : TrimFile env mgr X f items items') {g : Option Str}
    (h : g ∈ markedGroups env items) : g ∈ markedGroups env items' := by
  rw [mem_markedGroups] at h ⊢
  obtain ⟨x, hm, rfl⟩ := h
  obtain ⟨y, hy, hl, hk⟩ := (marks_trim S).mem hm
  exact ⟨y, hy, (groupOf_trim hl (nexus_of_mark hk)).symm⟩

theorem signalPlot_trim (S : TrimFile env mgr X f items items')
    (h : ∃ a, SignalPlot env items a) : ∃ a, SignalPlot env items' a := by
  obtain ⟨a, before, g, after, it, d, h1, h2, _⟩ := h
  refine (signalPlot_exists ?_).2 ⟨g, markedGroups_trim S (by rw [h1]; simp), ?_⟩
  · intro y hy d' hd'
    obtain ⟨x, hx, h, hk⟩ := ((marks_trim S).symm (S := fun y x => TrimMark env X x y)
      fun _ _ h => h).mem hy
    obtain ⟨d, hd, hl, _⟩ := h.parent (nexus_of_mark hk) hd'
    obtain ⟨_, d'', e, n, a, v, ho⟩ := hk.1
    rw [hd'] at e
    cases e
    exact ⟨_, hl.core.there _ ho⟩
  · rw [← (marksIn_trim S g).length, h2]
    rfl

theorem hasClass_trim (S : TrimFile env mgr X f items items') {c : Str} :
    HasClass env items c ↔ HasClass env items' c := by
  constructor
  · rintro ⟨x, hm, g, hg, hc, hcl⟩
    obtain ⟨y, hy, hl⟩ := S.rel.up hm
    obtain ⟨g', e, rfl, _⟩ := hl.group' hg
    rw [groupClass_trim, hl.core.classpath] at hcl
    exact ⟨y, hy, g', e, fun k => hc (hl.outside.2 k), hcl⟩
  · rintro ⟨y, hm, g, hg, hc, hcl⟩
    rcases S.rel.down hm with ⟨x, hx, hl⟩ | hE
    · refine ⟨x, hx, _, (hl.group hg).1, fun k => hc (hl.outside.1 k), ?_⟩
      rwa [groupClass_trim, hl.core.classpath]
    · exact absurd (hE.group g hg) hc

/-! ## accepted files -/

section
variable (h : Accepted env mgr mins (trim X f))
  (S : TrimFile env mgr X f (contents env (trim X f)) (contents env f))
include h S

/-- The signals of the file. -/
theorem Accepted.signals : ∀ it ∈ dataSignals (contents env f),
    ¬ SignalMissing env f (contents env f) it ∧ SignalCheckable env f (contents env f) it := by
  have hno : ∀ x ∈ dataSignals (contents env (trim X f)),
      ¬ SignalMissing env (trim X f) (contents env (trim X f)) x := by
    intro x hx hm
    classical
    obtain ⟨before, y, after, e, h1, h2⟩ : ∃ before y after,
        dataSignals (contents env (trim X f)) = before ++ y :: after ∧
        SignalMissing env (trim X f) (contents env (trim X f)) y ∧
        ∀ i ∈ before, ¬ SignalMissing env (trim X f) (contents env (trim X f)) i := by
      generalize dataSignals (contents env (trim X f)) = l at hx
      induction l with
      | nil => cases hx
      | cons z l ih =>
        by_cases hz : SignalMissing env (trim X f) (contents env (trim X f)) z
        · exact ⟨[], z, l, rfl, hz, by simp⟩
        · rcases List.mem_cons.1 hx with rfl | hx
          · exact absurd hm hz
          · obtain ⟨before, y, after, e, h1, h2⟩ := ih hx
            refine ⟨z :: before, y, after, by rw [e]; rfl, h1, fun i hi => ?_⟩
            rcases List.mem_cons.1 hi with rfl | hi
            · exact hz
            · exact h2 i hi
    exact h.clean _ _ (.plotSignal e h2 h1)
  intro it hit
  obtain ⟨x, hx, hl⟩ := (PermBy.of_forall₂ (dataSignals_trim S).flip).mem hit
  refine signal_trim S hl (hno x hx) ?_
  obtain ⟨before, after, e⟩ := List.append_of_mem hx
  exact h.valid.plot.1 before x after e fun i hi => hno i (by rw [e]; simp [hi])

theorem Accepted.attributePlot (ha : ∃ a, AttributePlot env (trim X f) (contents env (trim X f)) a) :
    ∃ a, AttributePlot env f (contents env f) a := by
  rw [attributePlot_iff] at ha ⊢
  obtain ⟨_, x, hx, t, hp⟩ := ha
  refine ⟨fun ⟨it, hm, hs⟩ => (h.signals S it hm).1 hs, ?_⟩
  obtain ⟨y, hy, hl⟩ := (PermBy.of_forall₂ (dataSignals_trim S)).mem hx
  exact ⟨y, hy, t, plotField_trim S hl hp⟩

/-- The declarations of the file. -/
theorem Accepted.declaredBy {g : Node} {name : Str}
    (hd : DeclaredBy env f (contents env f) g name) :
    DeclaredBy env (trim X f) (contents env (trim X f)) (trimNode X g) name ∧ Distinct g := by
  obtain ⟨y, hm, hi, p, hp, hg, hn⟩ := hd
  rcases S.rel.down hm with ⟨x, hx, hl⟩ | hE
  · obtain ⟨p', hp', hlp, _⟩ := hl.parent (isDefinition_at hi).2 hp
    obtain ⟨hg', d⟩ := hlp.group hg
    have hi' : IsDefinition x := by rw [IsDefinition] at hi ⊢; rwa [hl.core.classpath]
    obtain ⟨p2, g2, e1, e2, name', hn', _⟩ := h.valid.definitions x hx hi'
    rw [hp'] at e1
    cases e1
    rw [hg'] at e2
    cases e2
    rw [← declares_unique (declares_trim S.named d hn') hn]
    exact ⟨⟨x, hx, hi', p', hp', hg', hn'⟩, d⟩
  · exact absurd hi hE.definition

theorem Accepted.requiredIn {g : Node} {fld : Str × FieldSpec}
    (hr : RequiredIn env mgr f (contents env f) g fld) :
    RequiredIn env mgr (trim X f) (contents env (trim X f)) (trimNode X g) fld ∧ Distinct g := by
  obtain ⟨name, ad, gname, entry, more, h1, h2⟩ := hr
  obtain ⟨k1, k2⟩ := h.declaredBy S h1
  exact ⟨⟨name, ad, gname, entry, more, k1, h2⟩, k2⟩

theorem Accepted.noFaultExtras (a : Option Str) (t : Str) :
    ¬ Fault env mgr mins f (contents env f) a t := by
  intro k
  cases k with
  | objectName h1 h2 h3 h4 h5 =>
    rcases S.rel.down h1 with ⟨x, hx, hl⟩ | hE
    · exact h.clean _ _ (.objectName hx (hl.node h2) (hl.core.classpath ▸ h3)
        (hl.core.classpath ▸ h4) (by rwa [hl.core.name]))
    · exact h5 (hE.name _ h2)
  | memberName h1 h2 h3 h4 h5 h6 =>
    rcases S.rel.down h1 with ⟨x, hx, hl⟩ | hE
    · obtain ⟨p, hp, hlp, _⟩ := hl.parent (nexus_of_at h3) h4
      exact h.clean _ _ (.memberName hx (hl.node h2) (hl.core.classpath ▸ h3) hp
        (fun k => h5 ((linked_trim hlp).1 k)) (by rwa [hl.core.name]))
    · exact h6 (hE.name _ h2)
  | attrName h1 h2 h3 h4 =>
    rcases CarriesAttr.trim S h1 with ⟨x, hx, hl⟩ | hE
    · exact h.clean _ _ (.attrName hx h2 (fun k => h3 ((linked_trim hl).1 k)) h4)
    · exact h4 hE.2
  | className h1 h2 h3 h4 =>
    rcases CarriesAttr.trim S h1 with ⟨x, hx, hl⟩ | hE
    · exact h.clean _ _ (.className hx h2 h3 h4)
    · exact note_class hE.1 h2
  | unusable h1 h2 h3 =>
    rcases CarriesAttr.trim S h1 with ⟨x, hx, hl⟩ | hE
    · exact h.clean _ _ (.unusable hx h2 h3)
    · exact note_other hE.1 (by simp)
  | target h1 h2 h3 =>
    rcases CarriesAttr.trim S h1 with ⟨x, hx, hl⟩ | hE
    · exact h.clean _ _ (.target hx h2 fun k => h3 (targetOk_trim S.named k))
    · exact note_other hE.1 (by simp)
  | signalName h1 h2 h3 h4 =>
    rcases CarriesAttr.trim S h1 with ⟨x, hx, hl⟩ | hE
    · exact h.clean _ _ (.signalName hx (by rwa [hl.core.obj, trimObj_isGroup]) h3 h4)
    · exact note_other hE.1 (by simp)
  | @signal o a s v g h1 h2 h3 h4 h5 =>
    rcases CarriesAttr.trim S h1 with ⟨x, hx, hl⟩ | hE
    · refine h.clean _ _ (.signal hx (hl.node h2) (by rwa [hl.core.obj, trimObj_isGroup]) h4 ?_)
      rw [Bool.eq_false_iff]
      intro k
      have hd : Distinct g := by
        refine hl.core.distinct g ?_
        show o.obj.asGroup = some g
        rw [h2] at h3 ⊢
        cases g with
        | group => rfl
        | dataset => cases h3
        | datatype => cases h3
      rw [trim_contains S.named hd k] at h5
      cases h5
    · exact note_other hE.1 (by simp)
  | axisName h1 h2 h3 h4 =>
    rcases CarriesAttr.trim S h1 with ⟨x, hx, hl⟩ | hE
    · exact h.clean _ _ (.axisName hx h2 h3 h4)
    · exact note_other hE.1 (by simp)
  | axis h1 h2 h3 h4 h5 =>
    rcases CarriesAttr.trim S h1 with ⟨x, hx, hl⟩ | hE
    · obtain ⟨hg, d⟩ := hl.group h4
      refine h.clean _ _ (.axis hx h2 h3 hg fun ⟨m, k⟩ => ?_)
      obtain ⟨n, e, _⟩ := trim_get S.named d k
      exact h5 ⟨n, e⟩
    · exact note_other hE.1 (by simp)
  | unknownClass h1 h2 h3 h4 h5 h6 =>
    rcases S.rel.down h1 with ⟨x, hx, hl⟩ | hE
    · exact h.clean _ _ (.unknownClass hx (hl.group h2).1 (fun k => h3 (hl.outside.1 k))
        (by rwa [groupClass_trim, hl.core.classpath]) h5 h6)
    · exact h3 (hE.group _ h2)
  | application h1 h2 h3 h4 h5 h6 =>
    rcases S.rel.down h1 with ⟨x, hx, hl⟩ | hE
    · exact h.clean _ _ (.application hx (hl.group h2).1 (fun k => h3 (hl.outside.1 k))
        (by rwa [groupClass_trim, hl.core.classpath]) h5 h6)
    · exact h3 (hE.group _ h2)
  | enumeration h1 h2 h3 h4 h5 h6 h7 h8 h9 =>
    rcases S.rel.down h1 with ⟨x, hx, hl⟩ | hE
    · exact h.clean _ _ (.enumeration hx (hl.group h2).1 (fun k => h3 (hl.outside.1 k))
        (by rwa [groupClass_trim, hl.core.classpath]) h5 (by rwa [trimNode_attrs]) h7 h8 h9)
    · exact h3 (hE.group _ h2)
  | pointer h1 h2 h3 h4 h5 h6 h7 h8 h9 =>
    rcases S.rel.down h1 with ⟨x, hx, hl⟩ | hE
    · obtain ⟨hg, d⟩ := hl.group h2
      refine h.clean _ _ (.pointer hx hg (fun k => h3 (hl.outside.1 k))
        (by rwa [groupClass_trim, hl.core.classpath]) h5 (by rwa [trimNode_attrs]) h7
        (hl.core.classpath ▸ h8) ?_)
      rintro ⟨s, k1, k2⟩
      exact h9 ⟨s, k1, trim_contains S.named d k2⟩
    · exact h3 (hE.group _ h2)
  | unknownDefinition h1 h2 =>
    exact h.clean _ _ (.unknownDefinition (h.declaredBy S h1).1 h2)
  | noApplication h1 h2 h3 =>
    exact h.clean _ _ (.noApplication (h.declaredBy S h1).1 h2 h3)
  | missingField h1 h2 =>
    obtain ⟨k1, d⟩ := h.requiredIn S h1
    obtain ⟨n, k2, _⟩ := h.field k1
    obtain ⟨m, e, _⟩ := trim_get S.named d k2
    rw [h2] at e
    cases e
  | wrongValue h1 h2 h3 h4 =>
    obtain ⟨k1, d⟩ := h.requiredIn S h1
    obtain ⟨n, k2, _, k3⟩ := h.field k1
    obtain ⟨m, e, rfl⟩ := trim_get S.named d k2
    rw [h2] at e
    cases e
    exact h4 ((hasOneOf_trim _ _).1 (k3 h3).2.2)
  | plotSignal h1 h2 h3 => exact (h.signals S _ (by rw [h1]; simp)).1 h3
  | plotMarks h1 h2 =>
    exact h.clean _ _ (.plotMarks (fun k => h1 (h.attributePlot S k))
      (by rwa [(marksIn_trim S _).length]))
  | noPlot h1 h2 h3 =>
    refine h.clean _ _ (.noPlot (fun k => h1 (h.attributePlot S k)) (fun k => h2 (signalPlot_trim S k))
      ?_)
    simpa only [PlotRequired, hasClass_trim S] using h3

theorem Accepted.validatableExtras (hx : OnlyExtras env mgr X f) : Validatable env mgr f := by
  have v := h.valid
  refine ⟨fileReadable_trim hx v.readable, ?_, ?_, ?_, ?_, ?_⟩
  · intro y hy hc attrs ha ka hka
    rcases S.rel.down hy with ⟨x, hx, hl⟩ | hE
    · have k := v.names x hx (fun e => hc (hl.outside.1 e)) attrs (hl.attrs.trans ha) ka hka
      have hd := hl.dataset
      have hg : (∃ n a ks, x.obj = .node (.group n a ks)) ↔
          ∃ n a ks, y.obj = .node (.group n a ks) := by
        rw [hl.core.obj]
        generalize y.obj = o
        cases o with
        | node n => cases n <;> simp [trimObj, trimNode]
        | file => simp [trimObj]
        | val => simp [trimObj]
        | none => simp [trimObj]
      refine ⟨k.text, fun e h => k.fieldSignal e (hd.2 h), fun e h => k.groupSignal e (hg.2 h),
        k.otherSignal, fun e => ?_⟩
      obtain ⟨names, k1, k2⟩ := k.axes e
      refine ⟨names, k1, k2.imp id fun ⟨⟨g, k3⟩, k4⟩ => ⟨?_, k4⟩⟩
      obtain ⟨g', k5, _⟩ := hl.group' k3
      exact ⟨g', k5⟩
    · have hn := (hE.attrs hc attrs ha ka hka).1
      refine ⟨fun k => ?_, fun e => ?_, fun e => ?_, fun e => ?_, fun e => ?_⟩
      · rcases k with e | e | e
        · exact (note_other hn (by simp [e])).elim
        · exact (note_other hn (by simp [e])).elim
        · exact absurd (e.subset (by simp)) hn.1
      all_goals exact (note_other hn (by simp [e])).elim
  · intro y hy hc attrs ha ka hka hcl
    rcases S.rel.down hy with ⟨x, hx, hl⟩ | hE
    · exact v.classes x hx (fun e => hc (hl.outside.1 e)) attrs (hl.attrs.trans ha) ka hka hcl
    · exact (note_class (hE.attrs hc attrs ha ka hka).1 hcl).elim
  · intro y hy g hg hc
    rcases S.rel.down hy with ⟨x, hx, hl⟩ | hE
    · obtain ⟨k1, k2⟩ := v.groups x hx _ (hl.group hg).1 fun e => hc (hl.outside.1 e)
      refine ⟨fun p hp => ?_, fun c d hcl hd => ?_⟩
      · obtain ⟨p', hp', hlp, _⟩ := hl.parent hc hp
        rw [← hlp.core.classpath]
        exact k1 p' hp'
      · have := k2 c d (by rwa [groupClass_trim, hl.core.classpath]) hd
        rwa [trimNode_attrs, hl.core.classpath] at this
    · exact absurd (hE.group g hg) hc
  · intro y hy hi
    rcases S.rel.down hy with ⟨x, hxm, hl⟩ | hE
    · have hi' : IsDefinition x := by rw [IsDefinition] at hi ⊢; rwa [hl.core.classpath]
      obtain ⟨p, g, hp, hg, name, hn, _⟩ := v.definitions x hxm hi'
      obtain ⟨p', hp', hlp, _⟩ := hl.parent' (isDefinition_at hi).2 hp
      obtain ⟨g', hg', rfl, d⟩ := hlp.group' hg
      have hn' := declares_trim S.named d hn
      have hd : DeclaredBy env f (contents env f) g' name := ⟨y, hy, hi, p', hp', hg', hn'⟩
      refine ⟨p', g', hp', hg', name, hn', fun ad e => ?_⟩
      obtain ⟨gname, entry, more, eg⟩ := h.entry (h.declaredBy S hd).1 e
      refine ⟨gname, entry, more, eg, fun fld hf => ?_⟩
      obtain ⟨n, k1, k2, k3⟩ := h.field
        (h.requiredIn S ⟨name, ad, gname, entry, more, hd, e, eg, hf⟩).1
      obtain ⟨m, e1, rfl⟩ := trim_get S.named d k1
      refine .inl ⟨m, e1, ?_, fun he => ?_⟩
      · have : ItemReadable env (trimNode X m) ↔ ItemReadable env m := by
          cases m <;> simp only [trimNode, ItemReadable, Node.name, NodeClassOk, NodeTargetOk,
            Node.attrs]
        exact this.1 k2
      · obtain ⟨⟨m', a, dd, e2, s, k4⟩, k5, k6⟩ := k3 he
        refine ⟨?_, k5, fun _ => (hasOneOf_trim _ _).1 k6⟩
        cases m with
        | dataset => simp only [trimNode] at e2; exact ⟨_, _, _, e2, s, k4⟩
        | datatype => simp [trimNode] at e2
        | group => simp [trimNode] at e2
    · exact absurd hi hE.definition
  · refine ⟨fun before it after e _ => (h.signals S it (by rw [e]; simp)).2, fun h1 h2 => ?_⟩
    exact v.plot.2 (fun k => h1 (h.attributePlot S k)) fun k => h2 (signalPlot_trim S k)
end

/-! ## the whole validation -/

/-- In an accepted file classes do not end with a slash, if no class of the definitions does. -/
theorem Accepted.noSlash (hcls : ∀ c d, Dict.get? mgr.classes c = some d → ¬ s%"/" <:+ c)
    (h : Accepted env mgr mins f) : NoSlash env (contents env f) := by
  intro x hx g hg hc hne c hcl
  obtain ⟨d, e⟩ := h.known hx hg hc (.inr ⟨hne, hcl⟩)
  exact hcls c d e

/-- **C129.** Additional content does no harm: if a file is validated to the end without an ERROR,
then so is every file that has further members, in any groups: fields with valid names (other than
`definition`) and notes as attributes, and groups without a NeXus class that contain anything with
valid names. -/
theorem extras_accepted (hdig : env.isdigit s%"1" = true) (hw : WellNamedFile f)
    (hnd : ∀ d, Dict.get? mgr.classes s%"NXentry" = some d → (Dict.keys d.groups).Nodup)
    (hcls : ∀ c d, Dict.get? mgr.classes c = some d → ¬ s%"/" <:+ c)
    (hx : OnlyExtras env mgr X f)
    (h : (validateOpen env mgr mins (trim X f)).res = .ok ())
    (hno : ∀ x ∈ findings (validateOpen env mgr mins (trim X f)).log, x.status ≠ .error) :
    (validateOpen env mgr mins f).res = .ok () ∧
    ∀ x ∈ findings (validateOpen env mgr mins f).log, x.status ≠ .error := by
  have hw' : WellNamedFile (trim X f) := wellNamedFile_trim hw
  have ha : Accepted env mgr mins (trim X f) :=
    ⟨(validation_completes_iff hw').1 h, (no_error_iff hdig hw' hnd h).1 hno⟩
  have S : TrimFile env mgr X f (contents env (trim X f)) (contents env f) := by
    refine ⟨contents_trim hw hx (ha.noSlash hcls), ?_, hw⟩
    have hc := (catalog_completes_iff hw).2 (fileReadable_trim hx ha.valid.readable)
    rw [← catalog_contents hw hc]
    exact catalog_addresses_nodup_partial hc hw
  have h' := (validation_completes_iff (mins := mins) hw).2 (ha.validatableExtras S hx)
  exact ⟨h', (no_error_iff hdig hw hnd h').2 (ha.noFaultExtras S)⟩

end Punx

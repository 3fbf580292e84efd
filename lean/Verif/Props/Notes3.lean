import Verif.Props.Notes2
import Verif.Props.Reorder3

/-!
# C123: attributes that are notes, lines on the default plot
-/

namespace Punx
open Spec

variable {env : Env} {mgr : Manager} {mins : Dict (Str × Str) Int} {N : Str → Bool} {f : H5File}
  {items items' : List Item}

/-! ## paths -/

theorem lookup_link {path : Str} : (ks : Kids) → WellNamedKids path ks → IntactKids ks → ∀ {c : Str}
    {m : Node}, ks.toList.lookup c = some (some m) →
    '@' ∉ c ∧ WellNamed (path ++ '/' :: c) m ∧ Intact m
  | .nil, _, _, c, m, h => by simp [Kids.toList] at h
  | .cons l k n r, w, i, c, m, h => by
    rw [WellNamedKids] at w
    rw [IntactKids] at i
    rw [Kids.toList, List.lookup_cons] at h
    split at h
    · rename_i e
      cases h
      rw [beq_iff_eq] at e
      subst e
      exact ⟨w.2.2.1, w.2.2.2.1, i.1⟩
    · exact lookup_link r w.2.2.2.2 i.2 h
  | .broken .., _, i, _, _, _ => by rw [IntactKids] at i; exact i.elim

theorem reaches_links {s m : Node} {cs : List Str} (h : Reaches s cs m) : ∀ {path : Str},
    WellNamed path s → Intact s → ∀ c ∈ cs, '@' ∉ c := by
  induction h with
  | here => intro _ _ _ c hc; cases hc
  | step hl _ ih =>
    intro path w i c hc
    rw [WellNamed] at w
    rw [Intact] at i
    obtain ⟨h1, h2, h3⟩ := lookup_link _ w.2.2.2 i hl
    rcases List.mem_cons.1 hc with rfl | hc
    · exact h1
    · exact ih h2 h3 c hc

theorem reaches_root {f : H5File} (w : WellNamedFile f) (i : IntactKids f.kids) {m : Node}
    {cs : List Str} (h : Reaches f.root cs m) : ∀ c ∈ cs, '@' ∉ c := by
  rw [H5File.root] at h
  cases h with
  | here => intro c hc; cases hc
  | step hl h =>
    intro c hc
    obtain ⟨h1, h2, h3⟩ := lookup_link _ w.2.2 i hl
    rcases List.mem_cons.1 hc with rfl | hc
    · exact h1
    · exact reaches_links h h2 h3 c hc

theorem split_mem {x : Char} (hx : x ≠ '/') {p : Str} (h : x ∈ p) : ∃ c ∈ split '/' p, x ∈ c := by
  have h1 : x ∈ slashed (split '/' p) := by rw [slashed_split]; exact List.mem_cons_of_mem _ h
  obtain ⟨c, hc, h2⟩ := List.mem_flatMap.1 h1
  exact ⟨c, hc, (List.mem_cons.1 h2).resolve_left hx⟩

/-- A path from the root that exists has no `@`. -/
theorem contains_at (w : WellNamedFile f) (i : IntactKids f.kids) {g : Node} {t : Str}
    (hs : startsWith t s%"/" = true) (h : h5contains f g t = true) : '@' ∉ t := by
  intro ha
  rw [h5contains] at h
  split at h
  · cases h
  · rw [startNode, if_pos hs] at h
    have hi : Intact f.root := by rw [H5File.root, Intact]; exact i
    have h : linkExists f.root (pathParts t) = true := by
      split at h
      · exact linkExists_of_group h
      · exact h
    obtain ⟨m, hm⟩ := (linkExists_iff hi _).1 h
    obtain ⟨c, hc, hx⟩ := split_mem (by decide) ha
    refine reaches_root w i hm c ?_ hx
    rw [pathParts, List.mem_filter]
    refine ⟨hc, ?_⟩
    have h1 : c ≠ [] := by rintro rfl; cases hx
    have h2 : c ≠ s%"." := by rintro rfl; simp at hx
    simp [h1, h2]

/-! ## items by address -/

/-- `NoteFile`, no address occurs twice, and the file is well named. -/
structure NoteAddr (N : Str → Bool) (f : H5File) (items items' : List Item) : Prop
    extends NoteFile N items items' where
  once : (items'.filterMap (·.addr)).Nodup
  named : WellNamedFile f
  intact : IntactKids f.kids

theorem filter_addr_sublist (l : List Item) (p : Item → Bool) :
    ((l.filter p).filterMap (·.addr)).Sublist (l.filterMap (·.addr)) :=
  List.filter_sublist.filterMap _

theorem NoteAddr.once' (S : NoteAddr N f items items') : (items.filterMap (·.addr)).Nodup := by
  have e : items.filterMap (·.addr) =
      (items'.filter fun it => !noteItem N it).filterMap (·.addr) := by
    have h := S.rel
    generalize (items'.filter fun it => !noteItem N it) = l at h
    clear S
    induction h with
    | nil => rfl
    | cons h _ ih => simp only [List.filterMap_cons, h.core.addr, ih]
  rw [e]
  exact S.once.sublist (filter_addr_sublist _ _)

theorem itemAt_note (S : NoteAddr N f items items') {a : Str} (ha : '@' ∉ a) {P Q : Item → Prop}
    (hPQ : ∀ x y, NoteRel N x y → y.addr = some a → (P x ↔ Q y)) :
    (∃ x, itemAt items a = some x ∧ P x) ↔ ∃ y, itemAt items' a = some y ∧ Q y := by
  constructor
  · rintro ⟨x, h, hp⟩
    obtain ⟨hm, hx⟩ := (itemAt_iff S.once').1 h
    obtain ⟨y, hy, hl, _⟩ := S.up hm
    have hx := hl.core.addr ▸ hx
    exact ⟨y, (itemAt_iff S.once).2 ⟨hy, hx⟩, (hPQ x y hl hx).1 hp⟩
  · rintro ⟨y, h, hq⟩
    obtain ⟨hm, hy⟩ := (itemAt_iff S.once).1 h
    have hn : noteItem N y = false := by
      cases e : noteItem N y with
      | false => rfl
      | true => exact absurd ((S.notes y hm e).2 a hy) ha
    obtain ⟨x, hx, hl⟩ := S.down hm hn
    exact ⟨x, (itemAt_iff S.once').2 ⟨hx, hl.core.addr ▸ hy⟩, (hPQ x y hl hy).2 hq⟩

theorem inGroups_note (S : NoteAddr N f items items') {x y : Item} (h : NoteRel N x y)
    {P Q : Item → Item → Item → Prop}
    (hPQ : ∀ D D' E E' R R', NoteRel N D D' → NoteRel N E E' → NoteRel N R R' →
      (∃ w, D'.addr = some ('/' :: w)) → (P D E R ↔ Q D' E' R')) :
    (∃ D E R, InGroups items x D E R ∧ P D E R) ↔
      ∃ D E R, InGroups items' y D E R ∧ Q D E R := by
  have key : ∀ {is : List Item} {i : Item} {P : Item → Item → Item → Prop},
      (∃ D E R, InGroups is i D E R ∧ P D E R) ↔ ∃ r e d rest,
        i.addr = some (r ++ '/' :: e ++ '/' :: d ++ rest) ∧
        ('/' ∉ r ∧ '/' ∉ e ∧ '/' ∉ d) ∧ ('@' ∉ r ∧ '@' ∉ e ∧ '@' ∉ d) ∧
        (rest = [] ∨ ∃ x, rest = '@' :: x) ∧ ∃ D, itemAt is ('/' :: e ++ '/' :: d) = some D ∧
          ∃ E, itemAt is ('/' :: e) = some E ∧ ∃ R, itemAt is s%"/" = some R ∧ P D E R := by
    intro is i P
    constructor
    · rintro ⟨D, E, R, ⟨r, e, d, rest, h1, h2, h3, h4, h5, h6, h7⟩, hp⟩
      exact ⟨r, e, d, rest, h1, h2, h3, h4, D, h5, E, h6, R, h7, hp⟩
    · rintro ⟨r, e, d, rest, h1, h2, h3, h4, D, h5, E, h6, R, h7, hp⟩
      exact ⟨D, E, R, ⟨r, e, d, rest, h1, h2, h3, h4, h5, h6, h7⟩, hp⟩
  rw [key, key]
  refine exists_congr fun r => exists_congr fun e => exists_congr fun d => exists_congr fun rest => ?_
  rw [h.core.addr]
  refine and_congr Iff.rfl <| and_congr Iff.rfl <| and_congr_right fun hat =>
    and_congr_right fun _ => ?_
  refine itemAt_note S (by simp [hat.2.1, hat.2.2]) fun D D' lD aD => ?_
  refine itemAt_note S (by simp [hat.2.1]) fun E E' lE _ => ?_
  exact itemAt_note S (by simp) fun R R' lR _ => hPQ D D' E E' R R' lD lE lR ⟨_, aD⟩

theorem pointer_names_note {x y : Item} (h : NoteRel N x y) {k t : Str} (hk : N k = false) :
    Names env x k t ↔ Names env y k t := by
  constructor
  · rintro ⟨n, attrs, v, s, h1, h2, h3, h4⟩
    obtain ⟨b, e, rfl⟩ := h.attrs' h2
    rw [lookup_filter hk] at h3
    rw [h.core.obj, withoutObj_name] at h1
    exact ⟨n, b, v, s, h1, e, h3, h4⟩
  · rintro ⟨n, attrs, v, s, h1, h2, h3, h4⟩
    refine ⟨n, _, v, s, ?_, h.attrs h2, ?_, h4⟩
    · rwa [h.core.obj, withoutObj_name]
    · rwa [lookup_filter hk]

theorem pointsAt_note {x y : Item} (h : NoteRel N x y) {k t : Str} (hk : N k = false) :
    PointsAt env (without N f) x k t ↔ PointsAt env f y k t := by
  refine and_congr (pointer_names_note h hk) ⟨?_, ?_⟩
  · rintro ⟨g, h1, h2⟩
    obtain ⟨g', e, rfl⟩ := h.group' h1
    rw [without_contains] at h2
    exact ⟨g', e, h2⟩
  · rintro ⟨g, h1, h2⟩
    exact ⟨_, h.group h1, by rwa [without_contains]⟩

/-- The address of a signal that exists has no `@`. -/
theorem pointsAt_at (S : NoteAddr N f items items') {x y : Item} (h : NoteRel N x y) {k t w : Str}
    (ha : y.addr = some ('/' :: w)) (hp : PointsAt env f y k t) : '@' ∉ t := by
  obtain ⟨⟨n, attrs, v, s, h1, _, _, _, rfl⟩, g, h2, h3⟩ := hp
  refine contains_at S.named S.intact ?_ h3
  have hn : ∃ u, n = '/' :: u := by
    have ht := h.core.there
    generalize y.obj = o at *
    cases o with
    | file => cases h1; exact ⟨[], rfl⟩
    | node m =>
      cases h1
      exact ⟨w, Option.some.inj ((ht m rfl).symm.trans ha)⟩
    | val => cases h1
    | none => cases h1
  obtain ⟨u, rfl⟩ := hn
  rw [pathFrom]
  split <;> simp [startsWith, List.isPrefixOf]

theorem signalMissing_note (S : NoteAddr N f items items') {x y : Item} (h : NoteRel N x y) :
    SignalMissing env (without N f) items x ↔ SignalMissing env f items' y := by
  have key : ∀ {is : List Item} {i : Item} {f : H5File}, SignalMissing env f is i ↔
      ∃ D E R, InGroups is i D E R ∧ ∃ t, Names env D s%"signal" t ∧
        ¬ PointsAt env f D s%"signal" t := by
    intro is i f
    rw [SignalMissing]
    exact ⟨fun ⟨D, E, R, t, h1, h2⟩ => ⟨D, E, R, h1, t, h2⟩,
      fun ⟨D, E, R, h1, t, h2⟩ => ⟨D, E, R, t, h1, h2⟩⟩
  have hk : N s%"signal" = false := S.only.other (by simp)
  rw [key, key]
  refine inGroups_note S h fun D D' E E' R R' lD lE lR aD => exists_congr fun t => ?_
  rw [pointer_names_note lD hk, pointsAt_note lD hk]

theorem plotField_note (S : NoteAddr N f items items') {x y : Item} (h : NoteRel N x y) {t : Str} :
    PlotField env (without N f) items x t ↔ PlotField env f items' y t := by
  have key : ∀ {is : List Item} {i : Item} {f : H5File}, PlotField env f is i t ↔
      ∃ D E R, InGroups is i D E R ∧ PointsAt env f D s%"signal" t ∧
        ∃ T, itemAt is t = some T ∧ ∃ n a v, T.obj = .node (.dataset n a v) := by
    intro is i f
    rw [PlotField]
    exact ⟨fun ⟨D, E, R, T, n, a, v, h1, h2, h3, h4⟩ => ⟨D, E, R, h1, h2, T, h3, n, a, v, h4⟩,
      fun ⟨D, E, R, h1, h2, T, h3, n, a, v, h4⟩ => ⟨D, E, R, T, n, a, v, h1, h2, h3, h4⟩⟩
  have hk : N s%"signal" = false := S.only.other (by simp)
  rw [key, key]
  refine inGroups_note S h fun D D' E E' R R' lD lE lR ⟨w, aD⟩ => ?_
  rw [pointsAt_note lD hk]
  refine and_congr_right fun hp => ?_
  refine itemAt_note S (pointsAt_at S lD aD hp) fun T T' lT _ => ⟨?_, ?_⟩
  · rintro ⟨n, a, v, e⟩
    obtain ⟨m, e', e''⟩ := lT.node' e
    cases m with
    | dataset => exact ⟨_, _, _, e'⟩
    | datatype => simp [withoutNode] at e''
    | group => simp [withoutNode] at e''
  · rintro ⟨n, a, v, e⟩
    exact ⟨n, _, v, by rw [lT.node e, withoutNode]⟩

theorem niac_note (S : NoteAddr N f items items') {x y : Item} (h : NoteRel N x y) :
    Niac env (without N f) items x ↔ Niac env f items' y := by
  have key : ∀ {is : List Item} {i : Item} {f : H5File}, DefaultPath env f is i ↔
      ∃ D E R, InGroups is i D E R ∧ ∃ e d, E.addr = some e ∧ D.addr = some d ∧
        PointsAt env f R s%"default" e ∧ PointsAt env f E s%"default" d := by
    intro is i f
    rw [DefaultPath]
    exact ⟨fun ⟨D, E, R, e, d, h1, h2⟩ => ⟨D, E, R, h1, e, d, h2⟩,
      fun ⟨D, E, R, h1, e, d, h2⟩ => ⟨D, E, R, e, d, h1, h2⟩⟩
  have hk : N s%"default" = false := S.only.other (by simp)
  rw [Niac, Niac]
  refine and_congr ?_ (exists_congr fun t => plotField_note S h)
  rw [key, key]
  refine inGroups_note S h fun D D' E E' R R' lD lE lR aD => ?_
  refine exists_congr fun e => exists_congr fun d => ?_
  rw [lD.core.addr, lE.core.addr, pointsAt_note lR hk, pointsAt_note lE hk]

/-! ## signals -/

theorem filter_not_note {p : Item → Bool} (hp : ∀ it ∈ items', p it = true → noteItem N it = false) :
    (items'.filter fun it => !noteItem N it).filter p = items'.filter p := by
  rw [List.filter_filter]
  refine List.filter_congr fun it hm => ?_
  cases e : p it with
  | false => simp
  | true => simp [hp it hm e]

theorem noteItem_signal (S : NoteFile N items items') {it : Item} (hm : it ∈ items')
    (h : s%"@signal" <:+ it.classpath) : noteItem N it = false := by
  cases e : noteItem N it with
  | false => rfl
  | true =>
    have hn : N it.name = true := by
      rw [noteItem] at e
      split at e
      · exact e
      · cases e
    rcases (S.notes it hm e).1 with h1 | ⟨cp, h1⟩
    · rw [h1] at h
      exact absurd h (by decide)
    · rw [h1] at h
      exfalso
      have h2 : '@' :: it.name <:+ cp ++ '@' :: it.name := List.suffix_append _ _
      have hne : it.name ≠ s%"signal" := fun e => (S.only _ hn).2 (by simp [e])
      rcases List.suffix_or_suffix_of_suffix h h2 with h3 | h3
      · rcases List.suffix_cons_iff.1 h3 with h3 | h3
        · exact hne (by injection h3 with _ h3; exact h3.symm)
        · exact (S.only _ hn).1 (h3.subset (by simp))
      · rcases List.suffix_cons_iff.1 h3 with h3 | h3
        · exact hne (by injection h3 with _ h3)
        · exact absurd (h3.subset (List.mem_cons_self ..)) (by simp)

theorem dataSignals_note (S : NoteFile N items items') :
    List.Forall₂ (NoteRel N) (dataSignals items) (dataSignals items') := by
  rw [dataSignals, dataSignals, withClasspath, withClasspath,
    ← filter_not_note (N := N) (items' := items')]
  · have h := S.rel
    generalize (items'.filter fun it => !noteItem N it) = l at h
    clear S
    induction h with
    | nil => exact .nil
    | @cons x y _ _ h _ ih =>
      rw [List.filter_cons, List.filter_cons, h.core.classpath]
      split
      · exact .cons h ih
      · exact ih
  · intro it hm hp
    refine noteItem_signal S hm ?_
    rw [of_decide_eq_true hp]
    exact ⟨s%"/NXentry/NXdata", rfl⟩

theorem noteRel_filter {α : Type} {R : α → α → Prop} {P Q : α → Bool} {l l' : List α}
    (h : List.Forall₂ R l l') (hPQ : ∀ x y, R x y → P x = Q y) :
    List.Forall₂ R (l.filter P) (l'.filter Q) := by
  induction h with
  | nil => exact .nil
  | cons hxy _ ih =>
    rw [List.filter_cons, List.filter_cons, hPQ _ _ hxy]
    split
    · exact .cons hxy ih
    · exact ih

theorem exists_note {P Q : Item → Prop} {l l' : List Item} (h : List.Forall₂ (NoteRel N) l l')
    (hPQ : ∀ x y, NoteRel N x y → (P x ↔ Q y)) : (∃ x ∈ l, P x) ↔ ∃ y ∈ l', Q y := by
  induction h with
  | nil => simp
  | cons hxy _ ih => simp only [List.mem_cons, exists_eq_or_imp, hPQ _ _ hxy, ih]

theorem missing_note (S : NoteAddr N f items items') :
    (∃ it ∈ dataSignals items, SignalMissing env (without N f) items it) ↔
      ∃ it ∈ dataSignals items', SignalMissing env f items' it :=
  exists_note (dataSignals_note S.toNoteFile) fun _ _ h => signalMissing_note S h

theorem attributePlot_note (S : NoteAddr N f items items') :
    (∃ a, AttributePlot env (without N f) items a) ↔ ∃ a, AttributePlot env f items' a := by
  rw [attributePlot_iff, attributePlot_iff, missing_note S]
  refine and_congr Iff.rfl (exists_note (dataSignals_note S.toNoteFile) fun _ _ h => ?_)
  exact exists_congr fun t => plotField_note S h

theorem niacLines_note (S : NoteAddr N f items items') :
    niacLines env (without N f) items = niacLines env f items' := by
  classical
  have h : List.Forall₂ (NoteRel N) (niacPaths env (without N f) items) (niacPaths env f items') := by
    rw [niacPaths, niacPaths]
    exact noteRel_filter (dataSignals_note S.toNoteFile)
      fun x y h => decide_eq_decide.2 (niac_note S h)
  rw [niacLines, niacLines]
  simp only [missing_note S]
  generalize niacPaths env (without N f) items = l at *
  generalize niacPaths env f items' = l' at *
  cases h with
  | nil => rfl
  | cons a k =>
    cases k with
    | nil => simp only [a.core.addr]
    | cons b k => rfl

theorem dataLines_note (S : NoteAddr N f items items') {l l' : List Item}
    (h : List.Forall₂ (NoteRel N) l l') :
    dataLines env (without N f) items l = dataLines env f items' l' := by
  classical
  induction h with
  | nil => rfl
  | @cons x y _ _ h _ ih =>
    rw [dataLines, dataLines, h.core.addr, ih]
    exact if_congr (signalMissing_note S h) rfl
      (if_congr (exists_congr fun t => plotField_note S h) rfl rfl)

/-! ## marks -/

theorem fieldSignal_note {x y : Item} (h : NoteRel N x y) : FieldSignal x ↔ FieldSignal y := by
  have hx : ∀ {i : Item}, s%"@signal" <:+ i.classpath →
      i.classpath ≠ s%"non-NeXus content" := fun hs => nexus_of_at (hs.subset (by simp))
  rw [FieldSignal, FieldSignal, h.core.classpath]
  refine and_congr_right fun hs => ⟨?_, ?_⟩
  · rintro ⟨d, hd, n, a, v, e⟩
    obtain ⟨d', hd', hl, _⟩ := h.parent' (hx hs) hd
    obtain ⟨m, e', e''⟩ := hl.node' e
    cases m with
    | dataset => exact ⟨d', hd', _, _, _, e'⟩
    | datatype => simp [withoutNode] at e''
    | group => simp [withoutNode] at e''
  · rintro ⟨d, hd, n, a, v, e⟩
    obtain ⟨d', hd', hl, _⟩ := h.parent (hx hs) hd
    exact ⟨d', hd', n, _, v, by rw [hl.node e, withoutNode]⟩

theorem mark_note {x y : Item} (h : NoteRel N x y) : Mark env x ↔ Mark env y := by
  rw [Mark, Mark, fieldSignal_note h]
  refine and_congr Iff.rfl (exists_congr fun v => and_congr ?_ Iff.rfl)
  rw [h.core.obj]
  generalize y.obj = o
  cases o <;> simp [withoutObj]

theorem nexus_of_mark {y : Item} (h : Mark env y) : y.classpath ≠ s%"non-NeXus content" :=
  nexus_of_at (h.1.1.subset (by simp))

theorem groupOf_note {x y : Item} (h : NoteRel N x y)
    (hc : y.classpath ≠ s%"non-NeXus content") : groupOf x = groupOf y := by
  have h2 := h.ancestors hc
  rw [groupOf, groupOf, Item.parent, Item.parent]
  generalize x.ancestors = l at *
  generalize y.ancestors = l' at *
  cases h2 with
  | nil => rfl
  | cons x k =>
    cases k with
    | nil => rfl
    | cons y k => exact y.addr

/-- Marks of the file without notes, and of the file. -/
def MarkRel (env : Env) (N : Str → Bool) (x y : Item) : Prop := NoteRel N x y ∧ Mark env y

theorem marks_note (S : NoteFile N items items') :
    PermBy (MarkRel env N) (marks env items) (marks env items') := by
  classical
  have h1 : PermBy (NoteRel N) (items.filter fun i => Mark env i)
      (items'.filter fun i => Mark env i) := by
    rw [← filter_not_note (N := N) (items' := items')]
    · exact (PermBy.of_forall₂ S.rel).filter fun x y h => decide_eq_decide.2 (mark_note h)
    · intro it hm hp
      exact noteItem_signal S hm (of_decide_eq_true hp).1.1
  have h2 : PermBy (MarkRel env N) (items.filter fun i => Mark env i)
      (items'.filter fun i => Mark env i) := by
    obtain ⟨m, p, k⟩ := h1
    refine ⟨m, p, ?_⟩
    have hm : ∀ y ∈ items'.filter fun i => Mark env i, Mark env y :=
      fun y hy => of_decide_eq_true (List.mem_filter.1 hy).2
    generalize (items'.filter fun i => Mark env i) = l at *
    clear p
    induction k with
    | nil => exact .nil
    | cons h _ ih =>
      exact .cons ⟨h, hm _ (by simp)⟩ (ih fun y hy => hm y (List.mem_cons_of_mem _ hy))
  rw [marks, marks]
  exact .perm_left ((byClasspath_perm items).filter _)
    (h2.perm_right ((byClasspath_perm items').filter _).symm)

theorem markedGroups_note (S : NoteFile N items items') {g : Option Str} :
    g ∈ markedGroups env items ↔ g ∈ markedGroups env items' := by
  rw [mem_markedGroups, mem_markedGroups]
  constructor
  · rintro ⟨x, hm, rfl⟩
    obtain ⟨y, hy, hl, hk⟩ := (marks_note S).mem hm
    exact ⟨y, hy, (groupOf_note hl (nexus_of_mark hk)).symm⟩
  · rintro ⟨y, hm, rfl⟩
    obtain ⟨x, hx, hl, hk⟩ := ((marks_note S).symm (S := fun y x => MarkRel env N x y)
      fun _ _ h => h).mem hm
    exact ⟨x, hx, groupOf_note hl (nexus_of_mark hk)⟩

theorem marksIn_note (S : NoteFile N items items') (g : Option Str) :
    PermBy (MarkRel env N) (marksIn env items g) (marksIn env items' g) := by
  rw [marksIn, marksIn]
  refine (marks_note S).filter fun x y h => ?_
  rw [groupOf_note h.1 (nexus_of_mark h.2)]

theorem permBy_single {α : Type} {R : α → α → Prop} {a b : List α} (h : PermBy R a b) {x : α}
    (e : a = [x]) : ∃ y, b = [y] ∧ R x y := by
  have hl := h.length
  subst e
  obtain ⟨y, rfl⟩ := List.length_eq_one_iff.1 hl.symm
  obtain ⟨z, hz, hR⟩ := h.mem (List.mem_singleton.2 rfl)
  rw [List.mem_singleton.1 hz] at hR
  exact ⟨y, rfl, hR⟩

theorem groupLine_note (S : NoteFile N items items') (g : Option Str) :
    groupLine env items g = groupLine env items' g := by
  have h := marksIn_note (env := env) S g
  rw [groupLine, groupLine]
  split
  · rename_i it e
    obtain ⟨it', e', hl⟩ := permBy_single h e
    rw [e']
    simp only [hl.1.core.addr]
  · rename_i he
    split
    · rename_i it' e'
      obtain ⟨it, e, _⟩ := permBy_single (h.symm (S := fun y x => MarkRel env N x y)
        fun _ _ h => h) e'
      exact absurd e (he it)
    · rfl

theorem signalPlot_exists {is : List Item}
    (hp : ∀ it ∈ marks env is, ∀ d, it.parent = some d → ∃ a, d.addr = some a) :
    (∃ a, SignalPlot env is a) ↔
      ∃ g ∈ markedGroups env is, (marksIn env is g).length = 1 := by
  classical
  constructor
  · rintro ⟨a, before, g, after, it, d, h1, h2, _⟩
    exact ⟨g, by rw [h1]; simp, by rw [h2]; rfl⟩
  · intro h
    obtain ⟨before, g, after, e, h1, h2⟩ := last_with h
    obtain ⟨it, hit⟩ := List.length_eq_one_iff.1 h1
    have hm : it ∈ marksIn env is g := by rw [hit]; simp
    rw [marksIn, List.mem_filter] at hm
    have hm := hm.1
    have hmk : Mark env it := by
      rw [marks, List.mem_filter] at hm
      exact of_decide_eq_true hm.2
    obtain ⟨d, hd, _⟩ := hmk.1.2
    obtain ⟨a, ha⟩ := hp it hm d hd
    exact ⟨a, before, g, after, it, d, e, hit, hd, ha, h2⟩

theorem signalPlot_note (S : NoteFile N items items') :
    (∃ a, SignalPlot env items a) ↔ ∃ a, SignalPlot env items' a := by
  have hp : ∀ x y, MarkRel env N x y → ∀ d', y.parent = some d' → ∃ d a, x.parent = some d ∧
      d.addr = some a ∧ d'.addr = some a := by
    intro x y ⟨h, hk⟩ d' hd'
    obtain ⟨d, hd, hl, _⟩ := h.parent (nexus_of_mark hk) hd'
    obtain ⟨_, d'', e, n, a, v, ho⟩ := hk.1
    rw [hd'] at e
    cases e
    have := hl.core.there _ ho
    exact ⟨d, _, hd, hl.core.addr.trans this, this⟩
  rw [signalPlot_exists, signalPlot_exists]
  · constructor
    · rintro ⟨g, h1, h2⟩
      exact ⟨g, (markedGroups_note S).1 h1, (marksIn_note S g).length ▸ h2⟩
    · rintro ⟨g, h1, h2⟩
      exact ⟨g, (markedGroups_note S).2 h1, (marksIn_note S g).length.trans h2⟩
  · intro y hy d' hd'
    obtain ⟨x, hx, h⟩ := ((marks_note S).symm (S := fun y x => MarkRel env N x y)
      fun _ _ h => h).mem hy
    obtain ⟨d, a, _, _, ha⟩ := hp x y h d' hd'
    exact ⟨a, ha⟩
  · intro x hx d hd
    obtain ⟨y, hy, h⟩ := (marks_note S).mem hx
    obtain ⟨d', hd', hl, _⟩ := h.1.parent' (nexus_of_mark h.2) hd
    obtain ⟨e, a, he, ha, _⟩ := hp x y h d' hd'
    rw [hd] at he
    cases he
    exact ⟨a, ha⟩

theorem signalLines_note {x y : Item} (h : NoteRel N x y) :
    signalLines env x = signalLines env y := by
  classical
  rw [signalLines, signalLines, h.core.addr]
  exact if_congr (mark_note h) rfl (if_congr (fieldSignal_note h) rfl rfl)

theorem allSignalLines_note (S : NoteFile N items items') {l : Line} :
    l ∈ (byClasspath items).flatMap (signalLines env) ↔
      l ∈ (byClasspath items').flatMap (signalLines env) := by
  simp only [List.mem_flatMap, mem_byClasspath]
  constructor
  · rintro ⟨x, hx, hl⟩
    obtain ⟨y, hy, h, _⟩ := S.up hx
    exact ⟨y, hy, signalLines_note h ▸ hl⟩
  · rintro ⟨y, hy, hl⟩
    have hs : FieldSignal y := by
      rw [signalLines] at hl
      split at hl
      · rename_i h; exact h.1
      · split at hl
        · assumption
        · cases hl
    obtain ⟨x, hx, h⟩ := S.down hy (noteItem_signal S hy hs.1)
    exact ⟨x, hx, signalLines_note h ▸ hl⟩

theorem searchLines_note (S : NoteAddr N f items items') {l : Line} :
    l ∈ searchLines env (without N f) items ↔ l ∈ searchLines env f items' := by
  rw [searchLines, searchLines, dataLines_note S (dataSignals_note S.toNoteFile), niacLines_note S]
  simp only [List.mem_append]
  refine or_congr Iff.rfl ?_
  by_cases ha : ∃ a, AttributePlot env f items' a
  · rw [if_pos ha, if_pos ((attributePlot_note S).2 ha)]
  · rw [if_neg ha, if_neg fun h => ha ((attributePlot_note S).1 h)]
    rw [List.mem_append, List.mem_append, allSignalLines_note S.toNoteFile]
    refine or_congr Iff.rfl ?_
    simp only [List.mem_map, markedGroups_note S.toNoteFile, groupLine_note S.toNoteFile]

/-! ## verdict -/

theorem hasClass_note (S : NoteFile N items items') {c : Str} :
    HasClass env items c ↔ HasClass env items' c := by
  constructor
  · rintro ⟨x, hm, g, hg, hc, hcl⟩
    obtain ⟨y, hy, hl, _⟩ := S.up hm
    obtain ⟨g', e, rfl⟩ := hl.group' hg
    rw [groupClass_without S.only, hl.core.classpath] at hcl
    exact ⟨y, hy, g', e, fun k => hc (hl.outside.2 k), hcl⟩
  · rintro ⟨y, hm, g, hg, hc, hcl⟩
    obtain ⟨x, hx, hl⟩ := S.down hm (noteItem_group hg)
    refine ⟨x, hx, _, hl.group hg, fun k => hc (hl.outside.1 k), ?_⟩
    rwa [groupClass_without S.only, hl.core.classpath]

theorem plotVerdict_note (S : NoteAddr N f items items') {classes : Dict Str ClassDef} {st : Status} :
    (∃ c, PlotVerdict env classes mins (without N f) items items st c) ↔
      ∃ c, PlotVerdict env classes mins f items' items' st c := by
  have hA := attributePlot_note (env := env) S
  have hB := signalPlot_note (env := env) S.toNoteFile
  have hC : PlotRequired env classes mins items ↔ PlotRequired env classes mins items' := by
    simp only [PlotRequired, hasClass_note S.toNoteFile]
  constructor
  · rintro ⟨c, h⟩
    cases h with
    | byAttribute a ha => obtain ⟨b, hb⟩ := hA.1 ⟨a, ha⟩; exact ⟨_, .byAttribute b hb⟩
    | bySignal a ha hs =>
      obtain ⟨b, hb⟩ := hB.1 ⟨a, hs⟩
      exact ⟨_, .bySignal b (fun h => ha (hA.2 h)) hb⟩
    | required ha hs hr => exact ⟨_, .required (hA.not.1 ha) (hB.not.1 hs) (hC.1 hr)⟩
    | optional ha hs hr => exact ⟨_, .optional (hA.not.1 ha) (hB.not.1 hs) (hC.not.1 hr)⟩
  · rintro ⟨c, h⟩
    cases h with
    | byAttribute a ha => obtain ⟨b, hb⟩ := hA.2 ⟨a, ha⟩; exact ⟨_, .byAttribute b hb⟩
    | bySignal a ha hs =>
      obtain ⟨b, hb⟩ := hB.2 ⟨a, hs⟩
      exact ⟨_, .bySignal b (fun h => ha (hA.1 h)) hb⟩
    | required ha hs hr => exact ⟨_, .required (hA.not.2 ha) (hB.not.2 hs) (hC.2 hr)⟩
    | optional ha hs hr => exact ⟨_, .optional (hA.not.2 ha) (hB.not.2 hs) (hC.not.2 hr)⟩

theorem expected_note (S : NoteAddr N f items items') {l : Line} :
    Expected env mgr mins f items' l ↔
      Expected env mgr mins (without N f) items l ∨ NoteLine env mgr N items' l := by
  constructor
  · rintro (h | h | h | h | h)
    · exact (NameLine.down S.toNoteFile h).imp_left .inl
    · exact (ValueLine.down S.toNoteFile h).imp_left (.inr ∘ .inl)
    · exact (GroupLine.down S.toNoteFile h).imp_left (.inr ∘ .inr ∘ .inl)
    · exact .inl (.inr (.inr (.inr (.inl (DefinitionLine.down S.toNoteFile h)))))
    · refine .inl (.inr (.inr (.inr (.inr ?_))))
      cases h with
      | search h => exact .search ((searchLines_note S).2 h)
      | verdict h =>
        obtain ⟨c, h⟩ := (plotVerdict_note S).2 ⟨_, h⟩
        exact .verdict h
  · rintro (h | h)
    · rcases h with h | h | h | h | h
      · exact .inl (NameLine.up S.toNoteFile h)
      · exact .inr (.inl (ValueLine.up S.toNoteFile h))
      · exact .inr (.inr (.inl (GroupLine.up S.toNoteFile h)))
      · exact .inr (.inr (.inr (.inl (DefinitionLine.up S.toNoteFile h))))
      · refine .inr (.inr (.inr (.inr ?_)))
        cases h with
        | search h => exact .search ((searchLines_note S).1 h)
        | verdict h =>
          obtain ⟨c, h⟩ := (plotVerdict_note S).1 ⟨_, h⟩
          exact .verdict h
    · exact NoteLine.expected S.toNoteFile h

end Punx

import Verif.Props.Renamed
import Verif.Props.Extras
import Verif.Props.Part2
import Verif.Props.Describe2

/-!
# C134: renamed groups and fields, addresses
-/

namespace Punx
open Spec

variable {env : Env} {mgr : Manager} {Free : Str → Prop} {f f' : H5File}

/-- Files with renamed groups and fields, objects with their addresses as names, and names that mean nothing. -/
structure RePair (env : Env) (mgr : Manager) (Free : Str → Prop) (f f' : H5File) : Prop where
  ren : Renamed env Free f f'
  one : WellNamedFile f
  one' : WellNamedFile f'
  free : Meaningless env mgr Free

theorem RePair.symm (S : RePair env mgr Free f f') : RePair env mgr Free f' f :=
  ⟨S.ren.symm, S.one', S.one, S.free⟩

theorem RePair.root (S : RePair env mgr Free f f') : RNode env Free f f' f.root f'.root :=
  ⟨S.ren.root, S.one.root, S.one'.root⟩

/-- Objects at the same place of the files. -/
def SamePlace (f f' : H5File) (n n' : Node) : Prop := ∃ cs cs', Walk f.root f'.root cs cs' n n'

theorem SamePlace.symm {n n' : Node} (h : SamePlace f f' n n') : SamePlace f' f n' n := by
  obtain ⟨cs, cs', h⟩ := h
  exact ⟨cs', cs, h.symm⟩

theorem SamePlace.root : SamePlace f f' f.root f'.root := ⟨[], [], .nil⟩

theorem RePair.node (S : RePair env mgr Free f f') {n n' : Node} (h : SamePlace f f' n n') :
    RNode env Free f f' n n' := by
  obtain ⟨cs, cs', h⟩ := h
  exact h.rnode S.root

/-! ## following paths -/

theorem SamePlace.start {g g' : Node} (h : SamePlace f f' g g') (p : Str) :
    SamePlace f f' (startNode f g p) (startNode f' g' p) := by
  rw [startNode, startNode]
  split
  · exact .root
  · exact h

theorem corr_fixed {p : Str} (hp : ∀ c ∈ split '/' p, ¬ Free c)
    (n n' : Node) : Corr Free n n' (pathParts p) (pathParts p) :=
  .fixed fun c hc => hp c (List.mem_filter.1 hc).1

theorem RePair.contains_fixed (S : RePair env mgr Free f f') {g g' : Node} (h : SamePlace f f' g g')
    {p : Str} (hp : ∀ c ∈ split '/' p, ¬ Free c) : h5contains f g p = h5contains f' g' p :=
  h5contains_congr ((corr_fixed hp _ _).group (S.node (h.start p)))
    ((corr_fixed hp _ _).exists_ (S.node (h.start p)))

theorem RePair.get_fixed (S : RePair env mgr Free f f') {g g' : Node} (h : SamePlace f f' g g')
    {p : Str} (hp : ∀ c ∈ split '/' p, ¬ Free c) :
    (∃ e, h5get f g p = .error e ∧ h5get f' g' p = .error e) ∨
    (h5get f g p = .ok none ∧ h5get f' g' p = .ok none) ∨
    ∃ m m', h5get f g p = .ok (some m) ∧ h5get f' g' p = .ok (some m') ∧ SamePlace f f' m m' := by
  rw [h5get, h5get]
  split
  · exact .inl ⟨_, rfl, rfl⟩
  · right
    obtain ⟨cs, cs', hw⟩ := h.start p
    rcases (corr_fixed hp _ _).resolve (S.node (h.start p)) with ⟨h1, h2⟩ | ⟨m, m', h1, h2, h3⟩
    · rw [h1, h2]
      exact .inl ⟨rfl, rfl⟩
    · rw [h1, h2]
      exact .inr ⟨m, m', rfl, rfl, _, _, hw.append h3⟩

theorem RePair.contains_moved (S : RePair env mgr Free f f') {t t' : Str}
    (h : Moved Free f f' t t') (g g' : Node) : h5contains f g t = h5contains f' g' t' := by
  obtain ⟨u, u', rfl, rfl, h⟩ := h
  have hs : ∀ (f : H5File) (g : Node) (u : Str), startNode f g ('/' :: u) = f.root :=
    fun f g u => rfl
  have hp : ∀ u : Str, pathParts ('/' :: u) = (split '/' u).filter (fun c => c ≠ [] ∧ c ≠ s%".") := by
    intro u
    rw [pathParts, split_cons_sep, List.filter_cons_of_neg (by simp)]
  have hd : endsInDot ('/' :: u) = endsInDot ('/' :: u') := by
    rw [endsInDot, endsInDot, split_cons_sep, split_cons_sep, List.filter_cons_of_neg (by simp),
      List.filter_cons_of_neg (by simp)]
    exact h.dot S.root
  have hn : ∀ u : Str, ¬ '/' :: u = [] := fun u => by simp
  rw [h5contains, h5contains, if_neg (hn u), if_neg (hn u'), hs, hs, hp, hp, hd,
    (h.filter S.root).exists_ S.root, (h.filter S.root).group S.root]

/-- Corresponding paths with an empty component at the beginning are the same. -/
theorem corr_empty {n n' : Node} (hn : RNode env Free f f' n n')
    {cs ds : List Str} (h : Corr Free n n' ([] :: cs) ds) :
    ds = [] :: cs ∧ ∀ c ∈ [] :: cs, ¬ Free c := by
  cases h with
  | fixed h => exact ⟨rfl, h⟩
  | step h1 h2 _ =>
    rcases re_get hn.re h1 h2 with ⟨_, _, _, _, l, _⟩ | ⟨_, e, _⟩
    · exact absurd rfl l.empty
    · cases e

theorem split_head_iff {s : Str} : (∃ cs, split '/' s = [] :: cs) ↔ s = [] ∨ s%"/" <+: s := by
  cases s with
  | nil => exact ⟨fun _ => .inl rfl, fun _ => ⟨[], rfl⟩⟩
  | cons a s =>
    by_cases ha : a = '/'
    · subst ha
      rw [split_cons_sep]
      exact ⟨fun _ => .inr ⟨s, rfl⟩, fun _ => ⟨_, rfl⟩⟩
    · obtain ⟨w, ws, _, h2⟩ := split_cons_ne ha s
      rw [h2]
      constructor
      · rintro ⟨_, e⟩
        injection e with e _
        cases e
      · rintro (e | ⟨t, e⟩)
        · cases e
        · injection e with e _
          exact absurd e.symm ha

theorem slashed_inj {s t : Str} (h : split '/' s = split '/' t) : s = t := by
  have := slashed_split s
  rw [h, slashed_split] at this
  injection this with _ this
  exact this.symm

/-- Paths to the same place from a group. -/
theorem RePair.contains_corr (S : RePair env mgr Free f f') {g g' : Node} (hg : SamePlace f f' g g')
    {s s' : Str} (h : Corr Free g g' (split '/' s) (split '/' s')) :
    h5contains f g s = h5contains f' g' s' := by
  by_cases hs : s = [] ∨ s%"/" <+: s
  · obtain ⟨cs, e⟩ := split_head_iff.2 hs
    rw [e] at h
    obtain ⟨e', hf⟩ := corr_empty (S.node hg) h
    obtain rfl : s = s' := slashed_inj (e.trans e'.symm)
    exact S.contains_fixed hg (e ▸ hf)
  · have hs' : ¬ (s' = [] ∨ s%"/" <+: s') := by
      intro k
      obtain ⟨cs, e⟩ := split_head_iff.2 k
      rw [e] at h
      obtain ⟨e', _⟩ := corr_empty (S.node hg).symm h.symm
      exact hs (split_head_iff.1 ⟨cs, e'⟩)
    rw [h5contains, h5contains, if_neg (fun k => hs (.inl k)), if_neg (fun k => hs' (.inl k)),
      startNode_relative (fun k => hs (.inr k)), startNode_relative (fun k => hs' (.inr k))]
    have hd : endsInDot s = endsInDot s' := h.dot (S.node hg)
    have h1 : linkExists g (pathParts s) = linkExists g' (pathParts s') :=
      (h.filter (S.node hg)).exists_ (S.node hg)
    have h2 : groupThere g (pathParts s) = groupThere g' (pathParts s') :=
      (h.filter (S.node hg)).group (S.node hg)
    rw [hd, h1, h2]

/-! ## addresses -/

theorem slashed_of {cs : List Str} (hne : cs ≠ []) (h : ∀ c ∈ cs, '/' ∉ c) :
    ∃ u, slashed cs = '/' :: u ∧ split '/' u = cs := by
  cases cs with
  | nil => exact absurd rfl hne
  | cons c cs =>
    refine ⟨c ++ slashed cs, rfl, ?_⟩
    have := split_slashed h
    rw [show slashed (c :: cs) = '/' :: (c ++ slashed cs) from rfl, split_cons_sep] at this
    injection this

theorem Spec.Moved.of {cs ds : List Str} (hne : cs ≠ []) (h1 : ∀ c ∈ cs, '/' ∉ c)
    (h2 : ∀ c ∈ ds, '/' ∉ c) (h : Corr Free f.root f'.root cs ds) :
    Moved Free f f' (slashed cs) (slashed ds) := by
  have hne' : ds ≠ [] := by
    rintro rfl
    exact hne h.symm.nil
  obtain ⟨u, e, hu⟩ := slashed_of hne h1
  obtain ⟨u', e', hu'⟩ := slashed_of hne' h2
  exact ⟨u, u', e, e', by rwa [hu, hu']⟩

theorem RePair.moved_unique (S : RePair env mgr Free f f') {t s s' : Str}
    (h : Moved Free f f' t s) (h' : Moved Free f f' t s') : s = s' := by
  obtain ⟨u, v, rfl, rfl, h⟩ := h
  obtain ⟨u', v', e, rfl, h'⟩ := h'
  injection e with _ e
  subst e
  rw [slashed_inj (h.unique S.root h')]

theorem RePair.moved_iff (S : RePair env mgr Free f f') {t t' s s' : Str}
    (h : Moved Free f f' t t') (h' : Moved Free f f' s s') : t = s ↔ t' = s' := by
  constructor
  · rintro rfl
    exact S.moved_unique h h'
  · rintro rfl
    exact S.symm.moved_unique h.symm h'.symm

theorem Walk.named {n n' m m' : Node} {cs cs' : List Str} (h : Walk n n' cs cs' m m') :
    ∀ {p : Str}, WellNamed p n → WellNamed (p ++ slashed cs) m := by
  induction h with
  | nil => intro p w; rwa [show slashed [] = [] from rfl, List.append_nil]
  | @step s s' c c' a a' ks ks' q q' m m' i cs cs' h1 h2 _ ih =>
    intro p w
    rw [WellNamed] at w
    have := ih (wellNamedKids_get _ w.2.2.2 h1).2.2.2
    rwa [show p ++ slashed (c :: cs) = p ++ '/' :: c ++ slashed cs by simp [slashed]]

theorem Walk.name {m n' m' : Node} {cs cs' : List Str} (w : WellNamedFile f)
    (h : Walk f.root n' cs cs' m m') : (cs = [] ∧ m = f.root) ∨ cs ≠ [] ∧ m.name = slashed cs := by
  generalize hr : f.root = r at h
  cases h with
  | nil => exact .inl ⟨rfl, rfl⟩
  | @step s s' c c' a a' ks ks' q q' m m' i cs cs' h1 h2 h3 =>
    right
    cases hr
    refine ⟨by simp, ?_⟩
    exact wellNamed_name (h3.named (wellNamedKids_get _ w.2.2 h1).2.2.2)

/-- The names of objects at the same place. -/
theorem RePair.name (S : RePair env mgr Free f f') {n n' : Node} (h : SamePlace f f' n n') :
    ∃ cs cs', n.name = slashed cs ∧ n'.name = slashed cs' ∧ cs ≠ [] ∧
      (∀ c ∈ cs, '/' ∉ c ∧ '@' ∉ c) ∧ (∀ c ∈ cs', '/' ∉ c ∧ '@' ∉ c) ∧
      Corr Free f.root f'.root cs cs' := by
  obtain ⟨cs, cs', hw⟩ := h
  obtain ⟨l, l'⟩ := hw.labels S.root
  rcases hw.name S.one with ⟨rfl, rfl⟩ | ⟨h1, h2⟩
  · rcases hw.symm.name S.one' with ⟨rfl, rfl⟩ | ⟨h1, _⟩
    · refine ⟨[[]], [[]], rfl, rfl, by simp, by simp, by simp, .fixed ?_⟩
      rintro c hc hf
      rw [List.mem_singleton.1 hc] at hf
      exact (S.free.label _ hf).empty rfl
    · cases hw
      exact absurd rfl h1
  · rcases hw.symm.name S.one' with ⟨rfl, rfl⟩ | ⟨h3, h4⟩
    · cases hw
      exact absurd rfl h1
    · have := hw.corr (Free := Free) (.fixed (cs := []) nofun)
      rw [List.append_nil, List.append_nil] at this
      exact ⟨cs, cs', h2, h4, h1, fun c hc => ⟨(l c hc).slash, (l c hc).at_⟩,
        fun c hc => ⟨(l' c hc).slash, (l' c hc).at_⟩, this⟩

theorem at_slashed {cs : List Str} (h : ∀ c ∈ cs, '@' ∉ c) : '@' ∉ slashed cs := by
  intro hc
  rw [slashed, List.mem_flatMap] at hc
  obtain ⟨c, hm, hc⟩ := hc
  rcases List.mem_cons.1 hc with e | e
  · exact absurd e (by decide)
  · exact h c hm e

theorem Spec.Spot.symm {t t' : Str} (h : Spot Free f f' t t') : Spot Free f' f t' t :=
  ⟨⟨h.1.2, h.1.1⟩, h.2.symm⟩

theorem RePair.spot (S : RePair env mgr Free f f') {n n' : Node} (h : SamePlace f f' n n') :
    Spot Free f f' n.name n'.name := by
  obtain ⟨cs, cs', e, e', hne, h1, h2, hc⟩ := S.name h
  rw [e, e']
  exact ⟨⟨at_slashed fun c hc => (h1 c hc).2, at_slashed fun c hc => (h2 c hc).2⟩,
    .of hne (fun c hc => (h1 c hc).1) (fun c hc => (h2 c hc).1) hc⟩

theorem RePair.spot_root (S : RePair env mgr Free f f') : Spot Free f f' s%"/" s%"/" := S.spot .root

theorem slash_end {cs : List Str} (h : ∀ c ∈ cs, Label c) : ¬ s%"/" <:+ slashed cs := by
  rcases List.eq_nil_or_concat cs with rfl | ⟨init, c, rfl⟩
  · rintro ⟨t, e⟩
    exact absurd (congrArg List.length e) (by simp [slashed])
  · rw [List.concat_eq_append] at h ⊢
    rw [show slashed (init ++ [c]) = slashed init ++ '/' :: c by simp [slashed]]
    intro k
    have l := h c (by simp)
    exact l.slash ((slash_suffix l.empty k).subset (List.mem_singleton.2 rfl))

/-- Joined paths. -/
theorem RePair.join (S : RePair env mgr Free f f') {n n' : Node} (h : SamePlace f f' n n') {s s' : Str}
    (hs : '@' ∉ s ∧ '@' ∉ s') (hc : Corr Free n n' (split '/' s) (split '/' s')) :
    Spot Free f f' (pathFrom n.name s) (pathFrom n'.name s') := by
  have ha := (S.spot h).1
  have hat : ∀ {n s : Str}, '@' ∉ n → '@' ∉ s → '@' ∉ pathFrom n s := by
    intro n s h1 h2 h3
    rw [pathFrom] at h3
    split at h3 <;> simp [h1, h2] at h3
  refine ⟨⟨hat ha.1 hs.1, hat ha.2 hs.2⟩, ?_⟩
  obtain ⟨cs, cs', hw⟩ := h
  obtain ⟨l, l'⟩ := hw.labels S.root
  rcases hw.name S.one with ⟨rfl, rfl⟩ | ⟨h1, h2⟩
  · rcases hw.symm.name S.one' with ⟨rfl, rfl⟩ | ⟨h1, _⟩
    · exact ⟨s, s', rfl, rfl, hc⟩
    · cases hw
      exact absurd rfl h1
  · rcases hw.symm.name S.one' with ⟨rfl, rfl⟩ | ⟨h3, h4⟩
    · cases hw
      exact absurd rfl h1
    · rw [pathFrom, pathFrom, h2, h4, if_neg (slash_end l), if_neg (slash_end l')]
      have e : ∀ (cs : List Str) (s : Str), slashed cs ++ '/' :: s = slashed (cs ++ split '/' s) := by
        intro cs s
        rw [← slashed_split s]
        simp [slashed]
      rw [e, e]
      refine .of (by simp [h1]) ?_ ?_ (hw.corr hc) <;> intro c hc <;>
        rcases List.mem_append.1 hc with hc | hc
      · exact (l c hc).slash
      · exact sep_notMem_split hc
      · exact (l' c hc).slash
      · exact sep_notMem_split hc

theorem Spec.SameAddress.symm {a a' : Str} (h : SameAddress Free f f' a a') : SameAddress Free f' f a' a := by
  obtain ⟨p, p', r, h1, h2, h3, h4⟩ := h
  exact ⟨p', p, r, h1.symm, h3, h2, h4⟩

theorem Spec.Spot.addr {a a' : Str} (h : Spot Free f f' a a') : SameAddress Free f f' a a' :=
  ⟨a, a', [], h, by simp, by simp, .inl rfl⟩

theorem Spec.Spot.attr {a a' : Str} (h : Spot Free f f' a a') (k : Str) :
    SameAddress Free f f' (a ++ '@' :: k) (a' ++ '@' :: k) :=
  ⟨a, a', '@' :: k, h, rfl, rfl, .inr ⟨k, rfl⟩⟩

theorem at_parts {p q r s : Str} (hp : '@' ∉ p) (hq : '@' ∉ q) (hr : r = [] ∨ ∃ x, r = '@' :: x)
    (hs : s = [] ∨ ∃ x, s = '@' :: x) (e : p ++ r = q ++ s) : p = q ∧ r = s := by
  rcases hr with rfl | ⟨x, rfl⟩ <;> rcases hs with rfl | ⟨y, rfl⟩
  · simpa using e
  · rw [List.append_nil] at e
    rw [e] at hp
    exact absurd (List.mem_append_right _ (List.mem_cons_self ..)) hp
  · rw [List.append_nil] at e
    rw [← e] at hq
    exact absurd (List.mem_append_right _ (List.mem_cons_self ..)) hq
  · obtain ⟨h1, h2⟩ := split_at hp hq e
    exact ⟨h1, by rw [h2]⟩

theorem RePair.addr_eq (S : RePair env mgr Free f f') {a a' b' : Str} (h : SameAddress Free f f' a a')
    (k : SameAddress Free f f' a b') : a' = b' := by
  obtain ⟨p, p', r, h1, rfl, rfl, h4⟩ := h
  obtain ⟨q, q', s, k1, k2, rfl, k4⟩ := k
  obtain ⟨rfl, rfl⟩ := at_parts h1.1.1 k1.1.1 h4 k4 k2
  rw [S.moved_unique h1.2 k1.2]

theorem RePair.addr_iff (S : RePair env mgr Free f f') {a a' b b' : Str}
    (h : SameAddress Free f f' a a') (k : SameAddress Free f f' b b') : a = b ↔ a' = b' := by
  constructor
  · rintro rfl
    exact S.addr_eq h k
  · rintro rfl
    exact S.symm.addr_eq h.symm k.symm

end Punx

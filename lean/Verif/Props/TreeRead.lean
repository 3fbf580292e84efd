import Verif.Spec.TreeRead
import Verif.Props.H5TreeAttrs

/-!
# C122: the tree report can be read back (indentation)
-/

namespace Punx

open Spec

/-- Paths from the depths of the entries. -/
def withPaths : List Str → List TreeEntry → List (List Str × TreeEntry)
  | _, [] => []
  | st, e :: es =>
    (st.take (e.depth - 1) ++ [e.name], e) :: withPaths (st.take (e.depth - 1) ++ [e.name]) es

/-- The path of the last entry. -/
def endPath : List Str → List TreeEntry → List Str
  | st, [] => st
  | st, e :: es => endPath (st.take (e.depth - 1) ++ [e.name]) es

theorem withPaths_append (st : List Str) (a b : List TreeEntry) :
    withPaths st (a ++ b) = withPaths st a ++ withPaths (endPath st a) b := by
  induction a generalizing st with
  | nil => rfl
  | cons e a ih => simp only [List.cons_append, withPaths, endPath, ih]

theorem endPath_take {d : Nat} {es : List TreeEntry} (h : ∀ e ∈ es, d < e.depth) {st P : List Str}
    (hP : P.length = d) (hst : st.take d = P) : (endPath st es).take d = P := by
  induction es generalizing st with
  | nil => exact hst
  | cons e es ih =>
    refine ih (fun x hx => h x (List.mem_cons_of_mem _ hx)) ?_
    have hd : d ≤ e.depth - 1 := by
      have := h e (by simp)
      omega
    have hl : d ≤ st.length := by
      rw [← hP, ← hst, List.length_take]
      omega
    rw [List.take_append_of_le_length (by rw [List.length_take]; omega), List.take_take,
      Nat.min_eq_left hd, hst]

/-- The entries show what is at paths below `P`. -/
def Placed (d : Nat) (es : List TreeEntry) (S : List Str → What → List (Str × Val) → Prop) : Prop :=
  (∀ e ∈ es, d < e.depth) ∧
  ∀ st P : List Str, P.length = d → st.take d = P →
    (∀ x ∈ withPaths st es, ∃ q, x.1 = P ++ q ∧ S q x.2.what x.2.attrs) ∧
    ∀ q w as, S q w as → ∃ x ∈ withPaths st es, x.1 = P ++ q ∧ x.2.what = w ∧ x.2.attrs = as

theorem Placed.nil {d : Nat} {S : List Str → What → List (Str × Val) → Prop}
    (h : ∀ q w as, ¬ S q w as) : Placed d [] S :=
  ⟨by simp, fun _ _ _ _ => ⟨by simp [withPaths], fun q w as hs => absurd hs (h q w as)⟩⟩

theorem Placed.append {d : Nat} {a b : List TreeEntry}
    {S T U : List Str → What → List (Str × Val) → Prop} (ha : Placed d a S) (hb : Placed d b T)
    (hu : ∀ q w as, U q w as ↔ S q w as ∨ T q w as) : Placed d (a ++ b) U := by
  refine ⟨fun e he => (List.mem_append.1 he).elim (ha.1 e) (hb.1 e), fun st P hP hst => ?_⟩
  have h1 := ha.2 st P hP hst
  have h2 := hb.2 (endPath st a) P hP (endPath_take ha.1 hP hst)
  rw [withPaths_append]
  constructor
  · intro x hx
    rcases List.mem_append.1 hx with hx | hx
    · obtain ⟨q, e1, e2⟩ := h1.1 x hx
      exact ⟨q, e1, (hu _ _ _).2 (.inl e2)⟩
    · obtain ⟨q, e1, e2⟩ := h2.1 x hx
      exact ⟨q, e1, (hu _ _ _).2 (.inr e2)⟩
  · intro q w as hs
    rcases (hu _ _ _).1 hs with hs | hs
    · obtain ⟨x, hx, e⟩ := h1.2 q w as hs
      exact ⟨x, List.mem_append_left _ hx, e⟩
    · obtain ⟨x, hx, e⟩ := h2.2 q w as hs
      exact ⟨x, List.mem_append_right _ hx, e⟩

theorem Placed.flatMap {d : Nat} {ι : Type} {f : ι → List TreeEntry}
    {S : ι → List Str → What → List (Str × Val) → Prop} {l : List ι}
    (h : ∀ i ∈ l, Placed d (f i) (S i)) :
    Placed d (l.flatMap f) (fun q w as => ∃ i ∈ l, S i q w as) := by
  induction l with
  | nil => exact .nil (by simp)
  | cons i l ih =>
    rw [List.flatMap_cons]
    refine (h i (by simp)).append (ih fun j hj => h j (List.mem_cons_of_mem _ hj)) ?_
    intro q w as
    simp

/-- The outline of what is behind a link. -/
noncomputable def outlineLink (env : Env) (isNeXus : Bool) (d : Nat)
    (l : Str × LinkKind × Option Node) : Outlined :=
  match l with
  | (link, kind, some n) =>
    if followed kind then outlineMember env isNeXus d link kind n
    else ⟨link, false, [unfollowedEntry d link kind]⟩
  | (link, kind, none) => ⟨link, false, [unfollowedEntry d link kind]⟩

theorem outlineMembers_links (env : Env) (isNeXus : Bool) (d : Nat) :
    ∀ kids : Kids, outlineMembers env isNeXus d kids = (memberLinks kids).map (outlineLink env isNeXus d)
  | .nil => rfl
  | .cons link kind n rest => by
    rw [outlineMembers, memberLinks, List.map_cons, outlineMembers_links env isNeXus d rest]
    rfl
  | .broken link kind rest => by
    rw [outlineMembers, memberLinks, List.map_cons, outlineMembers_links env isNeXus d rest]
    rfl

/-- What is shown for one link. -/
def LinkShows (env : Env) (isNeXus : Bool) (l : Str × LinkKind × Option Node) (q : List Str) (w : What)
    (as : List (Str × Val)) : Prop :=
  (q = [l.1] ∧ appearance env isNeXus l.2.1 l.2.2 = (w, as)) ∨
  ∃ name attrs sub p, l.2.2 = some (.group name attrs sub) ∧ followed l.2.1 = true ∧
    ¬ NexusLink env attrs name ∧ q = l.1 :: p ∧ ShownAt env isNeXus sub p w as

theorem shownAt_iff {env : Env} {isNeXus : Bool} {kids : Kids} {q : List Str} {w : What}
    {as : List (Str × Val)} :
    ShownAt env isNeXus kids q w as ↔ ∃ l ∈ memberLinks kids, LinkShows env isNeXus l q w as := by
  constructor
  · intro h
    cases h with
    | here h => exact ⟨_, h, .inl ⟨rfl, rfl⟩⟩
    | within h1 h2 h3 h4 => exact ⟨_, h1, .inr ⟨_, _, _, _, rfl, h2, h3, rfl, h4⟩⟩
  · rintro ⟨⟨link, kind, o⟩, hl, ⟨rfl, h⟩ | ⟨name, attrs, sub, p, h1, h2, h3, rfl, h4⟩⟩
    · have := ShownAt.here (env := env) (isNeXus := isNeXus) hl
      simp only at h
      rw [h] at this
      exact this
    · simp only at h1
      subst h1
      exact .within hl h2 h3 h4

theorem Placed.single {d : Nat} {env : Env} {isNeXus : Bool} {link : Str} {kind : LinkKind}
    {o : Option Node} {w : What} {as : List (Str × Val)}
    (ha : appearance env isNeXus kind o = (w, as))
    (hn : ∀ name attrs sub, o = some (.group name attrs sub) → followed kind = true →
      NexusLink env attrs name) :
    Placed d [⟨d + 1, link, w, as⟩] (LinkShows env isNeXus (link, kind, o)) := by
  refine ⟨by simp, fun st P hP hst => ?_⟩
  simp only [withPaths, Nat.add_sub_cancel, hst, List.mem_singleton, forall_eq, exists_eq_left]
  refine ⟨⟨[link], rfl, .inl ⟨rfl, ha⟩⟩, ?_⟩
  rintro q w' as' (⟨rfl, h⟩ | ⟨name, attrs, sub, p, h1, h2, h3, _⟩)
  · rw [ha] at h
    injection h with e1 e2
    exact ⟨rfl, e1, e2⟩
  · exact absurd (hn _ _ _ h1 h2) h3

/-- A group and what is below it. -/
theorem Placed.group {d : Nat} {env : Env} {isNeXus : Bool} {link : Str} {kind : LinkKind}
    {name : Str} {attrs : List (Str × Val)} {sub : Kids} {es : List TreeEntry}
    (hf : followed kind = true) (hn : ¬ NexusLink env attrs name)
    (hes : Placed (d + 1) es (ShownAt env isNeXus sub)) :
    Placed d (⟨d + 1, link, .group attrs, attrs ++ location kind⟩ :: es)
      (LinkShows env isNeXus (link, kind, some (.group name attrs sub))) := by
  have ha : appearance env isNeXus kind (some (.group name attrs sub)) =
      (.group attrs, attrs ++ location kind) := by
    simp only [appearance, hf]
    rw [if_neg hn]
  refine ⟨?_, fun st P hP hst => ?_⟩
  · intro e he
    rcases List.mem_cons.1 he with rfl | he
    · simp
    · exact (Nat.lt_succ_self d).trans (hes.1 e he)
  · have h := hes.2 (P ++ [link]) (P ++ [link]) (by simp [hP]) (by
      rw [List.take_of_length_le (by simp [hP])])
    simp only [withPaths, Nat.add_sub_cancel, hst]
    constructor
    · intro x hx
      rcases List.mem_cons.1 hx with rfl | hx
      · exact ⟨[link], rfl, .inl ⟨rfl, ha⟩⟩
      · obtain ⟨q, e1, e2⟩ := h.1 x hx
        exact ⟨link :: q, by rw [e1]; simp, .inr ⟨_, _, _, _, rfl, hf, hn, rfl, e2⟩⟩
    · rintro q w as (⟨rfl, h1⟩ | ⟨name', attrs', sub', p, h1, _, _, rfl, h4⟩)
      · simp only at h1
        rw [ha] at h1
        injection h1 with e1 e2
        exact ⟨_, List.mem_cons_self .., rfl, e1, e2⟩
      · simp only [Option.some.injEq, Node.group.injEq] at h1
        obtain ⟨rfl, rfl, rfl⟩ := h1
        obtain ⟨x, hx, e1, e2⟩ := h.2 p w as h4
        exact ⟨x, List.mem_cons_of_mem _ hx, by rw [e1]; simp, e2⟩

theorem Placed.unfollowed {d : Nat} {env : Env} {isNeXus : Bool} {link : Str} {kind : LinkKind}
    {o : Option Node} (h : o = none ∨ followed kind = false) :
    Placed d [unfollowedEntry (d + 1) link kind] (LinkShows env isNeXus (link, kind, o)) := by
  have key : ∀ w as, unfollowedEntry (d + 1) link kind = ⟨d + 1, link, w, as⟩ →
      appearance env isNeXus kind o = (w, as) := by
    intro w as he
    have h0 : appearance env isNeXus kind o = unfollowedAs kind := by
      unfold appearance
      rcases h with rfl | h
      · rfl
      · rw [h]
        cases o with
        | none => rfl
        | some n => cases n <;> rfl
    rw [h0]
    cases kind <;> simp_all [unfollowedEntry, unfollowedAs]
  have hd : ∃ w as, unfollowedEntry (d + 1) link kind = ⟨d + 1, link, w, as⟩ := by
    cases kind <;> exact ⟨_, _, rfl⟩
  obtain ⟨w, as, he⟩ := hd
  rw [he]
  refine .single (key w as he) ?_
  rintro name attrs sub rfl hf
  rcases h with h | h
  · cases h
  · rw [h] at hf; cases hf

theorem perm_of_map {α β : Type} {f : α → β} {l' : List β} {l : List α} (h : l'.Perm (l.map f)) :
    ∃ k : List α, k.Perm l ∧ k.map f = l' := by
  induction l' generalizing l with
  | nil =>
    have := h.symm.eq_nil
    rw [List.map_eq_nil_iff] at this
    subst this
    exact ⟨[], .refl _, rfl⟩
  | cons b l' ih =>
    obtain ⟨a, ha, rfl⟩ := List.mem_map.1 (h.subset (List.mem_cons_self ..))
    obtain ⟨s, t, rfl⟩ := List.append_of_mem ha
    have h' : (f a :: l').Perm (f a :: (s ++ t).map f) := by
      refine h.trans ?_
      rw [List.map_append, List.map_cons, List.map_append]
      exact List.perm_middle
    obtain ⟨k, hk, rfl⟩ := ih h'.cons_inv
    exact ⟨a :: k, (hk.cons a).trans List.perm_middle.symm, rfl⟩

/-- Members in the order of the report. -/
theorem placed_arrange {d : Nat} {env : Env} {isNeXus : Bool} {kids : Kids}
    (h : ∀ l ∈ memberLinks kids, Placed d (outlineLink env isNeXus (d + 1) l).entries
      (LinkShows env isNeXus l)) :
    Placed d (arrange (outlineMembers env isNeXus (d + 1) kids)) (ShownAt env isNeXus kids) := by
  -- the links in the order of the report
  have key : ∃ ls : List (Str × LinkKind × Option Node), ls.Perm (memberLinks kids) ∧
      arrange (outlineMembers env isNeXus (d + 1) kids) =
        ls.flatMap (fun l => (outlineLink env isNeXus (d + 1) l).entries) := by
    obtain ⟨items, groups, hp, _, _, _, _, he⟩ := arrange_order (outlineMembers env isNeXus (d + 1) kids)
    rw [outlineMembers_links] at hp
    obtain ⟨ls, h1, h2⟩ := perm_of_map hp
    refine ⟨ls, h1, ?_⟩
    rw [he, ← List.flatMap_append, ← h2, List.flatMap_map]
  obtain ⟨ls, hp, he⟩ := key
  rw [he]
  have := Placed.flatMap (l := ls) (fun l hl => h l (hp.subset hl))
  refine ⟨this.1, fun st P hP hst => ?_⟩
  have h2 := this.2 st P hP hst
  have hiff : ∀ q w as, (∃ i ∈ ls, LinkShows env isNeXus i q w as) ↔ ShownAt env isNeXus kids q w as := by
    intro q w as
    rw [shownAt_iff]
    exact ⟨fun ⟨i, hi, x⟩ => ⟨i, hp.subset hi, x⟩, fun ⟨i, hi, x⟩ => ⟨i, hp.symm.subset hi, x⟩⟩
  constructor
  · intro x hx
    obtain ⟨q, e1, e2⟩ := h2.1 x hx
    exact ⟨q, e1, (hiff _ _ _).1 e2⟩
  · intro q w as hs
    exact h2.2 q w as ((hiff _ _ _).2 hs)

mutual
theorem placed_member (env : Env) (isNeXus : Bool) (d : Nat) (link : Str) (kind : LinkKind)
    (hf : followed kind = true) : ∀ n : Node,
    Placed d (outlineMember env isNeXus (d + 1) link kind n).entries
      (LinkShows env isNeXus (link, kind, some n))
  | .group name attrs kids => by
    have ih := placed_members env isNeXus (d + 1) kids
    rw [outlineMember]
    by_cases hn : NexusLink env attrs name
    · rw [if_pos hn]
      refine .single (by simp only [appearance, hf]; rw [if_pos hn]) ?_
      rintro name' attrs' sub' h _
      simp only [Option.some.injEq, Node.group.injEq] at h
      obtain ⟨rfl, rfl, rfl⟩ := h
      exact hn
    · rw [if_neg hn]
      exact .group hf hn ih
  | .dataset name attrs data => by
    rw [outlineMember]
    by_cases hn : NexusLink env attrs name
    · rw [if_pos hn]
      exact .single (by simp only [appearance, hf]; rw [if_pos hn]) (by rintro _ _ _ h; cases h)
    · rw [if_neg hn]
      by_cases ht : isNeXus = true ∧ AnyTarget env attrs name
      · rw [if_pos ht]
        exact .single (by simp only [appearance, hf]; rw [if_neg hn, if_pos ht])
          (by rintro _ _ _ h; cases h)
      · rw [if_neg ht]
        exact .single (by simp only [appearance, hf]; rw [if_neg hn, if_neg ht])
          (by rintro _ _ _ h; cases h)
  | .datatype name attrs => by
    rw [outlineMember]
    exact .single (by simp only [appearance, hf]) (by rintro _ _ _ h; cases h)
theorem placed_links (env : Env) (isNeXus : Bool) (d : Nat) : ∀ kids : Kids,
    ∀ l ∈ memberLinks kids, Placed d (outlineLink env isNeXus (d + 1) l).entries
      (LinkShows env isNeXus l)
  | .nil => by simp [memberLinks]
  | .cons link kind n rest => by
    intro l hl
    rw [memberLinks] at hl
    rcases List.mem_cons.1 hl with rfl | hl
    · simp only [outlineLink]
      by_cases hf : followed kind = true
      · rw [if_pos hf]
        exact placed_member env isNeXus d link kind hf n
      · rw [if_neg hf]
        exact .unfollowed (.inr (by simpa using hf))
    · exact placed_links env isNeXus d rest l hl
  | .broken link kind rest => by
    intro l hl
    rw [memberLinks] at hl
    rcases List.mem_cons.1 hl with rfl | hl
    · exact .unfollowed (.inl rfl)
    · exact placed_links env isNeXus d rest l hl
theorem placed_members (env : Env) (isNeXus : Bool) (d : Nat) (kids : Kids) :
    Placed d (arrange (outlineMembers env isNeXus (d + 1) kids)) (ShownAt env isNeXus kids) :=
  placed_arrange (placed_links env isNeXus d kids)
end

end Punx

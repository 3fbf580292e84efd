import Verif.Props.H5TreeAttrs

/-!
# C40: links that are not followed do not stop the report
-/

namespace Punx
open Spec

theorem insertBy_of_all_le {α : Type} {le : α → α → Bool} {a : α} {l : List α}
    (h : ∀ b ∈ l, le a b = true) : insertBy le a l = a :: l := by
  cases l with
  | nil => rfl
  | cons b bs => simp [insertBy, h b (by simp)]

theorem insertBy_filterMap {α β : Type} {le : α → α → Bool} {le' : β → β → Bool} {g : α → Option β}
    (hg : ∀ a a' b b', g a = some b → g a' = some b' → le a a' = le' b b')
    (htr : ∀ a b c, le a b = true → le b c = true → le a c = true) (a : α) (l : List α)
    (hl : l.Pairwise (fun a b => le a b = true)) :
    (insertBy le a l).filterMap g = match g a with
      | none => l.filterMap g
      | some b => insertBy le' b (l.filterMap g) := by
  induction l with
  | nil => cases h : g a <;> simp [insertBy, h]
  | cons x xs ih =>
    rw [List.pairwise_cons] at hl
    have ih := ih hl.2
    simp only [insertBy]
    split
    · rename_i hax
      cases ha : g a with
      | none => simp [ha]
      | some b =>
        rw [List.filterMap_cons, ha]
        refine (insertBy_of_all_le ?_).symm
        intro y hy
        obtain ⟨x', hx', hy⟩ := List.mem_filterMap.1 hy
        rw [← hg a x' b y ha hy]
        rcases List.mem_cons.1 hx' with rfl | hx'
        · exact hax
        · exact htr _ _ _ hax (hl.1 x' hx')
    · rename_i hax
      cases ha : g a with
      | none =>
        rw [ha] at ih
        simp only [List.filterMap_cons, ih]
      | some b =>
        rw [ha] at ih
        simp only [List.filterMap_cons, ih]
        cases hx : g x with
        | none => rfl
        | some y =>
          simp only [insertBy]
          rw [← hg a x b y ha hx, if_neg hax]

theorem sortBy_filterMap {α β : Type} {le : α → α → Bool} {le' : β → β → Bool} {g : α → Option β}
    (hg : ∀ a a' b b', g a = some b → g a' = some b' → le a a' = le' b b')
    (htot : ∀ a b, le a b = true ∨ le b a = true)
    (htr : ∀ a b c, le a b = true → le b c = true → le a c = true) (l : List α) :
    (sortBy le l).filterMap g = sortBy le' (l.filterMap g) := by
  induction l with
  | nil => rfl
  | cons a as ih =>
    rw [sortBy, insertBy_filterMap hg htr a _ (sortBy_sorted htot htr as), List.filterMap_cons, ih]
    cases g a <;> rfl

/-- A member and what is left of it: nothing of a link that is not followed. -/
structure Thin where
  full : Member
  left : Option Member

/-- The remaining member fails just as the full one; a dropped one does not fail. -/
def Thin.Fair (z : Thin) : Prop :=
  match z.left with
  | some m => z.full.name = m.name ∧ z.full.isGroup = m.isGroup ∧
      ∀ e, z.full.out = .error e ↔ m.out = .error e
  | none => ∃ ls, z.full.out = .ok ls

theorem concatE_cons_error {x : Except PyErr (List TLine)} {l : List (Except PyErr (List TLine))}
    {e : PyErr} : concatE (x :: l) = .error e ↔
      x = .error e ∨ (∃ ls, x = .ok ls) ∧ concatE l = .error e := by
  cases x with
  | error e' => simp [concatE]
  | ok ls =>
    simp only [concatE]
    cases concatE l <;> simp

theorem ok_iff {α : Type} {x y : Except PyErr α} (h : ∀ e, x = .error e ↔ y = .error e) :
    (∃ a, x = .ok a) ↔ ∃ a, y = .ok a := by
  cases x with
  | error e => rw [(h e).1 rfl]
  | ok a =>
    cases y with
    | error e => cases (h e).2 rfl
    | ok b => simp

theorem concat_thin (zs : List Thin) (h : ∀ z ∈ zs, z.Fair) (e : PyErr) :
    concatE (zs.map (fun z => z.full.out)) = .error e ↔
      concatE ((zs.filterMap Thin.left).map Member.out) = .error e := by
  induction zs with
  | nil => simp [concatE]
  | cons z zs ih =>
    have ih := ih (fun z hz => h z (by simp [hz]))
    have hz := h z (by simp)
    unfold Thin.Fair at hz
    rw [List.map_cons, List.filterMap_cons, concatE_cons_error]
    cases hl : z.left with
    | none =>
      rw [hl] at hz
      obtain ⟨ls, hls⟩ := hz
      simp [hls, ih]
    | some m =>
      rw [hl] at hz
      simp only [List.map_cons, concatE_cons_error]
      rw [hz.2.2 e, ok_iff hz.2.2, ih]

theorem filter_filterMap_left (p : Member → Bool) (zs : List Thin)
    (h : ∀ z ∈ zs, z.Fair) (hp : ∀ m m' : Member, m.isGroup = m'.isGroup → p m = p m') :
    (zs.filter (fun z => p z.full)).filterMap Thin.left = (zs.filterMap Thin.left).filter p := by
  induction zs with
  | nil => rfl
  | cons z zs ih =>
    have ih := ih (fun z hz => h z (by simp [hz]))
    have hz := h z (by simp)
    unfold Thin.Fair at hz
    rw [List.filter_cons, List.filterMap_cons]
    cases hl : z.left with
    | none =>
      split
      · rw [List.filterMap_cons, hl]; exact ih
      · exact ih
    | some m =>
      rw [hl] at hz
      simp only [List.filter_cons]
      rw [← hp _ _ hz.2.1]
      split
      · rw [List.filterMap_cons, hl]; simp only [ih]
      · exact ih

theorem assemble_thin (zs : List Thin) (h : ∀ z ∈ zs, z.Fair) (e : PyErr) :
    assemble (zs.map Thin.full) = .error e ↔ assemble (zs.filterMap Thin.left) = .error e := by
  -- names are kept
  have hname : ∀ z ∈ zs, ∀ m, z.left = some m → z.full.name = m.name := by
    intro z hz m hm
    have := h z hz
    unfold Thin.Fair at this
    rw [hm] at this
    exact this.1
  -- compare by the name of the remaining member, which is the same
  let nm : Thin → Str := fun z => match z.left with
    | some m => m.name
    | none => z.full.name
  have hnm : ∀ z ∈ zs, nm z = z.full.name := by
    intro z hz
    simp only [nm]
    cases hl : z.left with
    | none => rfl
    | some m => exact (hname z hz m hl).symm
  have hsort : ∀ ys : List Thin, (∀ z ∈ ys, nm z = z.full.name) →
      (sortBy (fun a b => strLe (nm a) (nm b)) ys).map Thin.full =
        sortBy (fun a b => strLe a.name b.name) (ys.map Thin.full) := by
    intro ys hys
    have ins : ∀ (a : Thin) (l : List Thin), nm a = a.full.name → (∀ z ∈ l, nm z = z.full.name) →
        (insertBy (fun a b => strLe (nm a) (nm b)) a l).map Thin.full =
          insertBy (fun a b => strLe a.name b.name) a.full (l.map Thin.full) := by
      intro a l ha hl
      induction l with
      | nil => rfl
      | cons b bs ih =>
        simp only [insertBy, List.map_cons, ha, hl b (by simp)]
        split
        · rfl
        · rw [List.map_cons]
          rw [ih (fun z hz => hl z (by simp [hz]))]
    induction ys with
    | nil => rfl
    | cons a as ih =>
      have ih := ih (fun z hz => hys z (by simp [hz]))
      rw [List.map_cons, sortBy, sortBy, ins a _ (hys a (by simp)), ih]
      intro z hz
      exact hys z (by simp [(mem_sortBy).1 hz])
  have hleft : (sortBy (fun a b => strLe (nm a) (nm b)) zs).filterMap Thin.left =
      sortBy (fun a b => strLe a.name b.name) (zs.filterMap Thin.left) := by
    refine sortBy_filterMap (le := fun a b => strLe (nm a) (nm b)) ?_ (fun _ _ => strLe_total _ _) (fun _ _ _ h1 h2 => strLe_trans h1 h2) zs
    intro a a' b b' ha ha'
    simp only [nm, ha, ha']
  have hfair : ∀ z ∈ sortBy (fun a b => strLe (nm a) (nm b)) zs, z.Fair :=
    fun z hz => h z (mem_sortBy.1 hz)
  unfold assemble
  rw [← hsort zs hnm, ← hleft]
  generalize sortBy (fun a b => strLe (nm a) (nm b)) zs = ys at hfair
  have key := concat_thin (ys.filter (fun z => !z.full.isGroup) ++ ys.filter (fun z => z.full.isGroup))
    (by
      intro z hz
      rcases List.mem_append.1 hz with hz | hz
      · exact hfair z (List.mem_filter.1 hz).1
      · exact hfair z (List.mem_filter.1 hz).1) e
  rw [List.filterMap_append,
    filter_filterMap_left (fun m => !m.isGroup) ys hfair (fun m m' h => by rw [h]),
    filter_filterMap_left (fun m => m.isGroup) ys hfair (fun m m' h => h)] at key
  simp only [List.map_append] at key ⊢
  rw [← key]
  have e1 : ∀ p : Member → Bool, ((ys.map Thin.full).filter p).map Member.out =
      (ys.filter (fun z => p z.full)).map (fun z => z.full.out) := by
    intro p
    rw [List.filter_map, List.map_map]
    rfl
  rw [e1, e1]

theorem renderAttr_str_ok (env : Env) (indent name s : Str) :
    ∃ l, renderAttr env indent name (.str s) = .ok l := ⟨_, rfl⟩

theorem renderUnfollowed_fine (c : TreeCfg) (link : Str) (kind : LinkKind) (indent : Str) :
    ∃ ls, renderUnfollowed c link kind indent = .ok ls := by
  cases kind with
  | soft path => exact ⟨_, rfl⟩
  | hard => cases hc : c.showAttrs <;>
      exact ⟨_, by simp only [renderUnfollowed, renderAttrs, hc, externalAttrs]; rfl⟩
  | external file path ex =>
    cases hc : c.showAttrs with
    | false => exact ⟨_, by simp only [renderUnfollowed, renderAttrs, hc]; rfl⟩
    | true => exact ⟨_, by simp only [renderUnfollowed, renderAttrs, hc, externalAttrs]; rfl⟩

/-- Errors of two steps. -/
theorem two_steps_error {α β γ : Type} (x : Except PyErr α) {y z : Except PyErr β}
    (g : α → β → γ) (h : ∀ e, y = .error e ↔ z = .error e) (e : PyErr) :
    (do let a ← x; let b ← y; Except.ok (g a b)) = .error e ↔
      (do let a ← x; let b ← z; Except.ok (g a b)) = .error e := by
  cases x with
  | error e' => exact Iff.rfl
  | ok a =>
    cases y with
    | error e' =>
      rw [(h e').1 rfl]
    | ok b =>
      cases z with
      | error e' => cases (h e').2 rfl
      | ok b' =>
        constructor <;> (intro h; cases h)

mutual
theorem renderMember_prune (c : TreeCfg) (link : Str) (kind : LinkKind) (indent : Str) :
    ∀ n : Node, (Thin.mk (renderMember c link kind indent n)
      (some (renderMember c link kind indent (pruneNode n)))).Fair
  | .group oname attrs kids => by
    have ih := renderMembers_prune c (indent ++ s%"  ") kids
    simp only [Thin.Fair]
    rw [pruneNode, renderMember, renderMember]
    cases hb : isNeXusLink c.env attrs oname with
    | error e => exact ⟨rfl, rfl, fun e => Iff.rfl⟩
    | ok b =>
      cases b with
      | true => exact ⟨rfl, rfl, fun e => Iff.rfl⟩
      | false => exact ⟨rfl, rfl, fun e => two_steps_error _ _ ih e⟩
  | .dataset oname attrs di => by
    simp only [Thin.Fair]
    rw [pruneNode]
    · simp
    · simp
  | .datatype oname attrs => by
    simp only [Thin.Fair]
    rw [pruneNode]
    · simp
    · simp
theorem renderMembers_prune (c : TreeCfg) (indent : Str) (kids : Kids) (e : PyErr) :
    assemble (renderMembers c indent kids) = .error e ↔
      assemble (renderMembers c indent (pruneKids kids)) = .error e := by
  obtain ⟨zs, h1, h2, h3⟩ := thinMembers c indent kids
  rw [← h1, ← h2]
  exact assemble_thin zs h3 e
theorem thinMembers (c : TreeCfg) (indent : Str) :
    ∀ kids : Kids, ∃ zs : List Thin, zs.map Thin.full = renderMembers c indent kids ∧
      zs.filterMap Thin.left = renderMembers c indent (pruneKids kids) ∧ ∀ z ∈ zs, z.Fair
  | .nil => ⟨[], rfl, rfl, by simp⟩
  | .cons link kind n rest => by
    obtain ⟨zs, h1, h2, h3⟩ := thinMembers c indent rest
    rw [renderMembers, pruneKids]
    by_cases hf : followed kind = true
    · rw [if_pos hf, if_pos hf, renderMembers, if_pos hf]
      refine ⟨⟨_, some _⟩ :: zs, by rw [List.map_cons, h1], by simp [h2]; rfl, ?_⟩
      intro z hz
      rcases List.mem_cons.1 hz with rfl | hz
      · exact renderMember_prune c link kind indent n
      · exact h3 z hz
    · rw [if_neg hf, if_neg hf]
      refine ⟨⟨_, none⟩ :: zs, by rw [List.map_cons, h1], by simp [h2], ?_⟩
      intro z hz
      rcases List.mem_cons.1 hz with rfl | hz
      · exact renderUnfollowed_fine c link kind indent
      · exact h3 z hz
  | .broken link kind rest => by
    obtain ⟨zs, h1, h2, h3⟩ := thinMembers c indent rest
    rw [renderMembers, pruneKids]
    refine ⟨⟨_, none⟩ :: zs, by rw [List.map_cons, h1], by simp [h2], ?_⟩
    intro z hz
    rcases List.mem_cons.1 hz with rfl | hz
    · exact renderUnfollowed_fine c link kind indent
    · exact h3 z hz
end

/-- The report fails if and only if it fails, with the same exception, for the file without its
soft links and unresolvable external links. -/
theorem links_do_not_break (c : TreeCfg) (fname : Str) (f : H5File) (e : PyErr) :
    renderFile c fname f = .error e ↔ renderFile c fname (pruneFile f) = .error e :=
  two_steps_error _ _ (renderMembers_prune c [] f.kids) e

/-- A file whose members are all links that are not followed has a report, if it has one without
them. -/
theorem links_do_not_break_ok (c : TreeCfg) (fname : Str) (f : H5File) :
    (∃ ls, renderFile c fname f = .ok ls) ↔ ∃ ls, renderFile c fname (pruneFile f) = .ok ls :=
  ok_iff (links_do_not_break c fname f)

end Punx

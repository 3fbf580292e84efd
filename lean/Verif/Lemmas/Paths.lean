import Verif.Model.H5

/-!
# Paths that end with "."
-/

namespace Punx

/-- Is it a group? -/
def Node.grp : Node → Bool
  | .group .. => true
  | _ => false

theorem groupThere_eq (n : Node) (cs : List Str) :
    groupThere n cs = ((resolve n cs).map Node.grp).getD false := by
  rw [groupThere]
  cases resolve n cs with
  | none => rfl
  | some m => cases m <;> rfl

theorem groupThere_iff {n : Node} {cs : List Str} :
    groupThere n cs = true ↔ ∃ m, resolve n cs = some m ∧ m.grp = true := by
  rw [groupThere_eq]
  cases resolve n cs with
  | none => simp
  | some m => simp

/-- The same answer, if both paths lead nowhere, or to two groups, or to two other objects. -/
theorem groupThere_congr {n n' : Node} {cs ds : List Str} {R : Node → Node → Prop}
    (h : Option.Rel R (resolve n cs) (resolve n' ds)) (hR : ∀ {m m'}, R m m' → m.grp = m'.grp) :
    groupThere n cs = groupThere n' ds := by
  rw [groupThere_eq, groupThere_eq]
  revert h
  generalize resolve n cs = x
  generalize resolve n' ds = y
  intro h
  cases h with
  | none => rfl
  | some k => simp [hR k]

theorem h5contains_congr {f f' : H5File} {g g' : Node} {p : Str}
    (h1 : groupThere (startNode f g p) (pathParts p) = groupThere (startNode f' g' p) (pathParts p))
    (h2 : linkExists (startNode f g p) (pathParts p) = linkExists (startNode f' g' p) (pathParts p)) :
    h5contains f g p = h5contains f' g' p := by
  rw [h5contains, h5contains, h1, h2]

theorem h5contains_mono {f f' : H5File} {g g' : Node} {p : Str}
    (h1 : groupThere (startNode f g p) (pathParts p) = true →
      groupThere (startNode f' g' p) (pathParts p) = true)
    (h2 : linkExists (startNode f g p) (pathParts p) = true →
      linkExists (startNode f' g' p) (pathParts p) = true)
    (h : h5contains f g p = true) : h5contains f' g' p = true := by
  unfold h5contains at h ⊢
  split at h
  · cases h
  · rename_i hp
    rw [if_neg hp]
    split at h
    · rename_i hd
      rw [if_pos hd]
      exact h1 h
    · rename_i hd
      rw [if_neg hd]
      exact h2 h

theorem linkExists_resolve : ∀ (cs : List Str) {n m : Node}, resolve n cs = some m →
    linkExists n cs = true
  | [], _, _, _ => rfl
  | [c], n, m, h => by
    cases n with
    | dataset => cases h
    | datatype => cases h
    | group s a ks =>
      simp only [resolve, linkExists] at h ⊢
      cases e : ks.find c with
      | none => rw [e] at h; cases h
      | some o => rfl
  | c :: d :: cs, n, m, h => by
    cases n with
    | dataset => cases h
    | datatype => cases h
    | group s a ks =>
      rw [resolve] at h
      simp only [linkExists]
      cases e : ks.find c with
      | none => rw [e] at h; cases h
      | some o =>
        rw [e] at h
        cases o with
        | none => cases h
        | some k => exact linkExists_resolve (d :: cs) h

theorem linkExists_of_group {n : Node} {cs : List Str} (h : groupThere n cs = true) :
    linkExists n cs = true := by
  obtain ⟨m, h, _⟩ := groupThere_iff.1 h
  exact linkExists_resolve cs h

/-- If the path goes on, it is a group. -/
theorem group_of_linkExists : ∀ (cs : List Str) {d : Str} {ds : List Str} {n : Node},
    linkExists n (cs ++ d :: ds) = true → groupThere n cs = true
  | [], d, ds, n, h => by
    cases n with
    | dataset => cases ds <;> cases h
    | datatype => cases ds <;> cases h
    | group s a ks => rfl
  | c :: cs, d, ds, n, h => by
    cases n with
    | dataset => cases cs <;> cases h
    | datatype => cases cs <;> cases h
    | group s a ks =>
      have e1 : ∃ x xs, cs ++ d :: ds = x :: xs := by
        cases cs with
        | nil => exact ⟨_, _, rfl⟩
        | cons x xs => exact ⟨_, _, rfl⟩
      obtain ⟨x, xs, e1⟩ := e1
      rw [List.cons_append, e1] at h
      simp only [linkExists] at h
      cases e : ks.find c with
      | none => rw [e] at h; cases h
      | some o =>
        rw [e] at h
        cases o with
        | none => cases h
        | some k =>
          rw [← e1] at h
          have := group_of_linkExists cs (n := k) h
          rw [groupThere_iff] at this ⊢
          simpa only [resolve, e] using this

theorem groupThere_prefix : ∀ (cs ds : List Str) {n : Node}, groupThere n (cs ++ ds) = true →
    groupThere n cs = true
  | cs, [], n, h => by rwa [List.append_nil] at h
  | cs, d :: ds, n, h => group_of_linkExists cs (linkExists_of_group h)

/-- The last component, if the components are known. -/
theorem endsInDot_of {p : Str} {cs : List Str} (h : (split '/' p).filter (· ≠ []) = cs)
    (hd : ∀ c ∈ cs, c ≠ s%".") : endsInDot p = false := by
  rw [endsInDot, h]
  cases e : cs.getLast? with
  | none => rfl
  | some c => simpa using hd c (List.mem_of_getLast? e)

end Punx

import Verif.Spec.TreeAlone
import Verif.Props.Showable

/-!
# C154: each member of a file is shown by its own lines
-/

namespace Punx
open Spec

private theorem rendered_alone {c : TreeCfg} {indent l : Str} {k : LinkKind} {o : Option Node}
    {ks : Kids} (h : LinkedFrom l k o ks) : ∃ m, renderMembers c indent (onlyLink l k o) = [m] ∧
      m ∈ renderMembers c indent ks := by
  induction h with
  | here => exact ⟨_, rfl, by rw [renderMembers]; exact List.mem_cons_self⟩
  | nowhere => exact ⟨_, rfl, by rw [renderMembers]; exact List.mem_cons_self⟩
  | cons _ ih =>
    obtain ⟨m, e, hm⟩ := ih
    exact ⟨m, e, by rw [renderMembers]; exact List.mem_cons_of_mem _ hm⟩
  | broken _ ih =>
    obtain ⟨m, e, hm⟩ := ih
    exact ⟨m, e, by rw [renderMembers]; exact List.mem_cons_of_mem _ hm⟩

private theorem assemble_part {ms : List Member} {m : Member} {ls : List TLine} (hm : m ∈ ms)
    (h : assemble ms = .ok ls) : ∃ pre part post, ls = pre ++ part ++ post ∧ assemble [m] = .ok part := by
  rw [assemble, concatE_ok] at h
  obtain ⟨outs, e, rfl⟩ := h
  have hin : m.out ∈ outs.map Except.ok := by
    rw [← e, List.mem_append, List.mem_map, List.mem_map]
    cases hg : m.isGroup with
    | false => exact .inl ⟨m, by simp [mem_sortBy, hm, hg], rfl⟩
    | true => exact .inr ⟨m, by simp [mem_sortBy, hm, hg], rfl⟩
  obtain ⟨part, hp, ho⟩ := List.mem_map.1 hin
  obtain ⟨a, b, rfl⟩ := List.append_of_mem hp
  refine ⟨a.flatten, part, b.flatten, by simp, ?_⟩
  rw [assemble, concatE_ok]
  refine ⟨[part], ?_, by simp⟩
  cases hg : m.isGroup <;> simp [sortBy, insertBy, hg, ho]

private theorem mapE_length {α β : Type} {f : α → Except PyErr β} {l : List α} {r : List β}
    (h : mapE f l = .ok r) : r.length = l.length := (mapE_ok.1 h).length_eq

/-- **C154**: what is shown of a member of the root is what is shown of it in the file that has
only this member, after the lines of the root. -/
theorem tree_member_alone {env : Env} {shown : Int} {sa : Bool} {fname : Str} {f : H5File}
    {nexus : Bool} {l : Str} {k : LinkKind} {o : Option Node} {ts : List Str}
    (hm : LinkedFrom l k o f.kids) (ht : ToldNexus env f nexus)
    (ht' : ToldNexus env ⟨f.attrs, onlyLink l k o⟩ nexus)
    (h : treeReport env shown sa fname (.hdf5 f) = .ok (some ts)) :
    ∃ head pre part post, ts = head ++ (pre ++ part ++ post) ∧
      head.length = 1 + (if sa then f.attrs.length else 0) ∧
      treeReport env shown sa fname (.hdf5 ⟨f.attrs, onlyLink l k o⟩) = .ok (some (head ++ part)) := by
  have told : ∀ g : H5File, ToldNexus env g nexus → isNeXusFile env (.hdf5 g) = .ok (some nexus) := by
    intro g hg
    cases nexus with
    | true => exact ((isNeXusFile_spec env).2.2.1 g).2 hg
    | false => exact ((isNeXusFile_spec env).2.2.2.1 g).2 hg
  obtain ⟨f', b, ls, e, h1, h2, rfl⟩ := treeReport_ok.1 h
  cases e
  rw [told f ht] at h1
  cases h1
  obtain ⟨m, hone, hmem⟩ := rendered_alone (c := ⟨env, nexus, sa, shown⟩) (indent := []) hm
  simp only [renderFile, Option.getD_some, bind, Except.bind] at h2
  split at h2
  · cases h2
  · rename_i head hh
    split at h2
    · cases h2
    · rename_i body hb
      cases h2
      obtain ⟨pre, part, post, rfl, hp⟩ := assemble_part hmem hb
      refine ⟨head.map TLine.text, pre.map TLine.text, part.map TLine.text, post.map TLine.text,
        by simp, ?_, ?_⟩
      · simp only [renderHead, renderAttrs, bind, Except.bind] at hh
        split at hh
        · cases hh
        · split at hh
          · cases hh
          · rename_i as ha
            cases hh
            cases sa with
            | false => cases ha; rfl
            | true =>
              have := mapE_length ha
              simp only [externalAttrs, List.append_nil] at this
              simp [this, Nat.add_comm]
      · refine treeReport_ok.2 ⟨_, some nexus, head ++ part, rfl, told _ ht', ?_, by simp⟩
        simp only [renderFile, Option.getD_some, bind, Except.bind, hh, hone, hp]

private theorem told_alone {l : Str} {k : LinkKind} {o : Option Node} {ks : Kids}
    (hm : LinkedFrom l k o ks) : (l, o) ∈ ks.toList := by
  induction hm with
  | here => simp [Kids.toList]
  | nowhere => simp [Kids.toList]
  | cons _ ih => simp [Kids.toList, ih]
  | broken _ ih => simp [Kids.toList, ih]

/-- **C154**: in files that are no NeXus files this is so for every member. -/
theorem tree_member_plain {env : Env} {shown : Int} {sa : Bool} {fname : Str} {f : H5File}
    {l : Str} {k : LinkKind} {o : Option Node} {ts : List Str}
    (hm : LinkedFrom l k o f.kids) (ht : ToldNexus env f false)
    (h : treeReport env shown sa fname (.hdf5 f) = .ok (some ts)) :
    ∃ head pre part post, ts = head ++ (pre ++ part ++ post) ∧
      head.length = 1 + (if sa then f.attrs.length else 0) ∧
      treeReport env shown sa fname (.hdf5 ⟨f.attrs, onlyLink l k o⟩) = .ok (some (head ++ part)) := by
  refine tree_member_alone hm ht (fun name n hn => ?_) h
  cases o with
  | none => simp [onlyLink, Kids.toList] at hn
  | some m =>
    simp only [onlyLink, Kids.toList, List.mem_singleton, Prod.mk.injEq, Option.some.injEq] at hn
    obtain ⟨rfl, rfl⟩ := hn
    exact ht _ _ (told_alone hm)

/-- **C154**: in NeXus files this is so for every entry. -/
theorem tree_entry_alone {env : Env} {shown : Int} {sa : Bool} {fname : Str} {f : H5File}
    {l : Str} {k : LinkKind} {n : Node} {ts : List Str}
    (hm : LinkedFrom l k (some n) f.kids) (hn : GroupOf env s%"NXentry" n) (ht : ToldNexus env f true)
    (h : treeReport env shown sa fname (.hdf5 f) = .ok (some ts)) :
    ∃ head pre part post, ts = head ++ (pre ++ part ++ post) ∧
      head.length = 1 + (if sa then f.attrs.length else 0) ∧
      treeReport env shown sa fname (.hdf5 ⟨f.attrs, onlyLink l k (some n)⟩) =
        .ok (some (head ++ part)) :=
  tree_member_alone hm ht ⟨[], l, n, [], rfl, hn, nofun⟩ h

end Punx

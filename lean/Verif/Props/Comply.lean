import Verif.Props.Accepts
import Verif.Props.Extras
import Verif.Spec.Comply

/-!
# C145: entries and the application definitions that they declare
-/

namespace Punx
open Spec

variable {env : Env} {mgr : Manager} {f : H5File}

theorem wellNamedKids_mem {path l : Str} {m : Node} : (ks : Kids) → WellNamedKids path ks →
    (l, some m) ∈ ks.toList → '/' ∉ l ∧ WellNamed (path ++ '/' :: l) m
  | .nil, _, h => by simp [Kids.toList] at h
  | .cons l' k n rest, w, h => by
    rw [WellNamedKids] at w
    rw [Kids.toList, List.mem_cons] at h
    rcases h with h | h
    · cases h
      exact ⟨w.2.1, w.2.2.2.1⟩
    · exact wellNamedKids_mem rest w.2.2.2.2 h
  | .broken l' k rest, w, h => by
    rw [WellNamedKids] at w
    rw [Kids.toList, List.mem_cons] at h
    rcases h with h | h
    · cases h
    · exact wellNamedKids_mem rest w h

/-- The members of a group are catalogued with the group. -/
theorem kids_member {c : Item} {pos : List Nat} {i : Nat} {ks : Kids} {l : Str} {m : Node}
    (h : (l, some m) ∈ ks.toList) :
    ∃ pos', ∀ x ∈ contentsNode env c pos' m, x ∈ contentsKids env c pos i ks := by
  obtain ⟨j, hj⟩ := List.getElem?_of_mem h
  exact ⟨_, fun x hx => contentsKids_get ks c pos i j hj hx⟩

/-- The field `definition` of a group of the path `cp` is catalogued below this path. -/
theorem definition_member {c : Item} {pos : List Nat} {n path : Str} {a : List (Str × Val)} {ks : Kids}
    (w : WellNamed path (.group n a ks)) (hd : HasDefinition (.group n a ks)) {cp : Str}
    (hcp : classpathIn env c.classpath (.group n a ks) = cp) (h1 : cp ≠ s%"non-NeXus content")
    (h2 : ¬ s%"/" <:+ cp) :
    ∃ it ∈ contentsNode env c pos (.group n a ks), it.classpath = cp ++ s%"/definition" ∧
      ∃ p, it.parent = some p ∧ p.obj.asGroup = some (.group n a ks) := by
  obtain ⟨m, hm, hne⟩ := hd
  rw [WellNamed] at w
  obtain ⟨hl, wm⟩ := wellNamedKids_mem ks w.2.2.2 hm
  have hcont : containerOf (memberItem env c pos (.group n a ks)) a =
      memberItem env c pos (.group n a ks) := by
    rw [containerOf, if_neg]
    show classpathIn env c.classpath (.group n a ks) ≠ _
    rwa [hcp]
  obtain ⟨pos', hpos⟩ := kids_member (env := env) (c := memberItem env c pos (.group n a ks))
    (pos := pos) (i := 0) hm
  refine ⟨memberItem env (memberItem env c pos (.group n a ks)) pos' m, ?_, ?_, _, rfl, rfl⟩
  · rw [contentsNode]
    refine List.mem_cons_of_mem _ (List.mem_append_right _ ?_)
    rw [hcont]
    refine hpos _ ?_
    cases m with
    | group n' a' k' => exact absurd rfl (hne n' a' k')
    | dataset => rw [contentsNode]; exact List.mem_cons_self
    | datatype => rw [contentsNode]; exact List.mem_cons_self
  · show classpathIn env (classpathIn env c.classpath (.group n a ks)) m = _
    rw [hcp]
    have hb := wellNamed_name wm
    cases m with
    | group n' a' k' => exact absurd rfl (hne n' a' k')
    | dataset m' a' d =>
      have hb : m' = path ++ '/' :: s%"definition" := hb
      simp only [classpathIn, if_neg h1, if_neg h2]
      rw [hb, baseName_member hl]
    | datatype m' a' =>
      have hb : m' = path ++ '/' :: s%"definition" := hb
      simp only [classpathIn, if_neg h1, if_neg h2]
      rw [hb, baseName_member hl]

/-- The field `definition` of an entry is catalogued as the declaration of a definition. -/
theorem entry_definition (w : WellNamedFile f) {g : Node} (hg : EntryGroup env f g)
    (hd : HasDefinition g) : ∃ it ∈ contents env f, IsDefinition it ∧
      ∃ p, it.parent = some p ∧ p.obj.asGroup = some g := by
  have root : ∀ {x : Item}, x ∈ contentsKids env (rootOf f) [] 0 f.kids → x ∈ contents env f :=
    fun hx => by
      rw [contents]
      exact List.mem_cons_of_mem _ (List.mem_append_right _ hx)
  cases hg with
  | @entry l n a ks hm hc =>
    obtain ⟨_, wm⟩ := wellNamedKids_mem f.kids w.2.2 hm
    obtain ⟨pos', hpos⟩ := kids_member (env := env) (c := rootOf f) (pos := []) (i := 0) hm
    obtain ⟨it, hit, hcp, h⟩ := definition_member (env := env) (c := rootOf f) (pos := pos') wm hd
      (cp := s%"/NXentry") (by
        show classpathIn env [] (.group n a ks) = _
        simp [classpathIn, hc]) (by decide) (by decide)
    exact ⟨it, root (hpos it hit), .inl hcp, h⟩
  | @subentry l n l' n' a a' ks ks' hm hc hm' hc' =>
    obtain ⟨_, wm⟩ := wellNamedKids_mem f.kids w.2.2 hm
    obtain ⟨pos', hpos⟩ := kids_member (env := env) (c := rootOf f) (pos := []) (i := 0) hm
    have w' := wm
    rw [WellNamed] at w'
    obtain ⟨_, wm'⟩ := wellNamedKids_mem ks w'.2.2.2 hm'
    have hcp : (memberItem env (rootOf f) pos' (.group n a ks)).classpath = s%"/NXentry" := by
      show classpathIn env [] (.group n a ks) = _
      simp [classpathIn, hc]
    obtain ⟨pos2, hpos2⟩ := kids_member (env := env)
      (c := memberItem env (rootOf f) pos' (.group n a ks)) (pos := pos') (i := 0) hm'
    obtain ⟨it, hit, hcp2, h⟩ := definition_member (env := env)
      (c := memberItem env (rootOf f) pos' (.group n a ks)) (pos := pos2) wm' hd
      (cp := s%"/NXentry/NXsubentry") (by
        rw [hcp]
        simp [classpathIn, hc', List.suffix_cons_iff]) (by decide) (by decide)
    refine ⟨it, root (hpos it ?_), .inr hcp2, h⟩
    rw [contentsNode]
    refine List.mem_cons_of_mem _ (List.mem_append_right _ ?_)
    rw [containerOf, if_neg (by rw [hcp]; decide)]
    exact hpos2 it hit

/-! ## C145 -/

/-- **C145**: in a file that is accepted every NXentry group of the root, and every NXsubentry group in one
of these, that has a field `definition` follows the definition that it declares, as far as the fields
at the top of its entry are concerned.  Missing for the full statement: groups, attributes and the fields
of groups of the definition, entries without the field, and entries elsewhere; all are violated. -/
theorem accepted_follows_partial {mins : Dict (Str × Str) Int} (w : WellNamedFile f)
    (h : Accepted env mgr mins f) {g : Node} (hg : EntryGroup env f g) (hd : HasDefinition g) :
    ∃ name, Declares env f g name ∧ FollowsDefinition env mgr f g name := by
  obtain ⟨it, hit, hi, p, hp, hpg⟩ := entry_definition w hg hd
  obtain ⟨p', g', hp', hpg', name, hn, had⟩ := h.valid.definitions it hit hi
  rw [hp] at hp'; cases hp'
  rw [hpg] at hpg'; cases hpg'
  have hdecl : DeclaredBy env f (contents env f) g name := ⟨it, hit, hi, p, hp, hpg, hn⟩
  refine ⟨name, hn, ?_⟩
  cases e : Dict.get? mgr.classes name with
  | none => exact absurd (.unknownDefinition hdecl e) (h.clean _ _)
  | some ad =>
    obtain ⟨gname, entry, more, hgr, hf⟩ := had ad e
    refine ⟨ad, gname, entry, more, e, fun hc => h.clean _ _ (.noApplication hdecl e hc), hgr, ?_⟩
    intro fld hfld
    have hr : RequiredIn env mgr f (contents env f) g fld :=
      ⟨name, ad, gname, entry, more, hdecl, e, hgr, hfld⟩
    rcases hf fld hfld with ⟨n, hn, _⟩ | ⟨hno, _⟩
    · refine ⟨n, hn, fun hne => ?_⟩
      by_contra hv
      exact h.clean _ _ (.wrongValue hr hn hne hv)
    · exact absurd (.missingField hr hno) (h.clean _ _)

/-- **C145**, for the command. -/
theorem passed_follows_partial {lib : Lib} {pattern : Str → Pat} {w : Disks} {files : Str → FileState}
    {upper : Char → Str} {abspath : Str → Str} {sets : Dict Str FileSet} {a : ValidateArgs}
    (hs : allFileSets w.source w.user = .ok sets)
    (hw : ∀ kv ∈ sets, WellDescribed kv.2) (hd : SoundSet w sets a) (ha : PlainAscii a.report)
    (hdig : env.isdigit s%"1" = true) (hf : files a.infile = .hdf5 f) (hn : WellNamedFile f)
    (h : Passes (funcValidate (commandWorld lib pattern w env files upper abspath) a)) :
    ∃ mgr, CommandReaches lib pattern w files sets a mgr f ∧
      ∀ g, EntryGroup env f g → HasDefinition g →
        ∃ name, Declares env f g name ∧ FollowsDefinition env mgr f g name := by
  rw [command_passes_iff hs hw hd ha hdig (fun file e => by rw [hf] at e; cases e; exact hn)] at h
  obtain ⟨mgr, file, hr, hacc⟩ := h
  cases reaches_file hr hf
  exact ⟨mgr, hr, fun g hg hd => accepted_follows_partial hn hacc hg hd⟩

end Punx

import Verif.Props.Comply
import Verif.Cases.Accepts

/-!
# C145 applied to files
-/

namespace Punx
open Spec

/-- Definitions with an application definition whose entry has a group. -/
def scanMgr : Manager :=
  { sampleMgr with classes := sampleMgr.classes ++ [
      baseClass s%"NXsubentry" [] [] [],
      (s%"NXscan", ⟨s%"NXscan", .applications, [], [(s%"entry", .mk [] [(s%"instrument", default)]
        [(s%"title", {}), (s%"definition", { enums := [some s%"NXscan"] })] [])], [], [], []⟩)] }

theorem scanMgr_entry (d : ClassDef) (h : Dict.get? scanMgr.classes s%"NXentry" = some d) :
    (Dict.keys d.groups).Nodup := by
  cases h
  decide

/-- The fields of the definition, in the group `p`. -/
def scanFields (p : Str) (name : Str) (rest : Kids) : Kids :=
  .cons s%"title" .hard (.dataset (p ++ s%"/title") [] (.ofVal (.str s%"t")))
    (.cons s%"definition" .hard (.dataset (p ++ s%"/definition") [] (.ofVal (.str name))) rest)

/-- A group with a marked field, in the group `p`. -/
def plotIn (p : Str) (rest : Kids) : Kids :=
  .cons s%"x" .hard (.dataset (p ++ s%"/x") [(s%"signal", .int 1)] (.ofVal (.int 1))) rest

/-- The entry of `scanFile`. -/
def scanEntry : Node :=
  .group s%"/e" [(s%"NX_class", .str s%"NXentry")] (scanFields s%"/e" s%"NXscan" (plotIn s%"/e" .nil))

/-- An entry that follows the definition, but does not have its group. -/
def scanFile : H5File where
  attrs := []
  kids := .cons s%"e" .hard scanEntry .nil

theorem scanFile_wellNamed : WellNamedFile scanFile := by
  simp [WellNamedFile, scanFile, scanEntry, scanFields, plotIn, WellNamedKids, WellNamed, Kids.toList]

theorem scanFile_entry : EntryGroup sampleEnv scanFile scanEntry :=
  .entry (l := s%"e") (by simp [scanFile, Kids.toList, scanEntry]) (by rfl)

theorem scanEntry_definition : HasDefinition scanEntry :=
  ⟨.dataset s%"/e/definition" [] (.ofVal (.str s%"NXscan")),
    by simp [scanFields, Kids.toList], fun _ _ _ h => by cases h⟩

theorem scanFile_accepted : Accepted sampleEnv scanMgr [] scanFile :=
  (accepted_iff (by rfl) scanFile_wellNamed scanMgr_entry).2 ⟨by rfl, by decide +kernel⟩

/-- `accepted_follows_partial`: the fields are there. -/
example : ∃ name, Declares sampleEnv scanFile scanEntry name ∧
    FollowsDefinition sampleEnv scanMgr scanFile scanEntry name :=
  accepted_follows_partial scanFile_wellNamed scanFile_accepted scanFile_entry scanEntry_definition

/-- `passed_follows_partial`: the hypotheses hold for the file with one entry. -/
example : ∃ sets mgr, CommandReaches easyLib cmdPattern accSets (accDisk partA) sets (accCall s%"v1") mgr
    partA ∧
    ∀ g, EntryGroup sampleEnv partA g → HasDefinition g →
      ∃ name, Declares sampleEnv partA g name ∧ FollowsDefinition sampleEnv mgr partA g name := by
  obtain ⟨sets, f, _, hs, hw, hf, hdir, _, _⟩ := acc_listed
  have hd := acc_sound hf (hdir ▸ ⟨cmd_has, cmd_lawful⟩)
  exact ⟨sets, passed_follows_partial (f := partA) (files := accDisk partA) hs hw hd (acc_plain _) rfl
    (acc_disk _ _) partA_wellNamed partA_passes⟩

/-- **C145** (violated): an entry without the field `definition` is accepted. -/
theorem accepted_undeclared : ¬ ∀ (env : Env) (mgr : Manager) (f : H5File) (g : Node),
    Accepted env mgr [] f → EntryGroup env f g → ∃ name, Declares env f g name := by
  intro h
  obtain ⟨name, n, a, d, hd, _⟩ := h sampleEnv sampleMgr partA entryA
    ((accepted_iff (by rfl) partA_wellNamed sampleMgr_entry).2 ⟨by rfl, by decide +kernel⟩)
    (.entry (l := s%"a") (by simp [partA, Kids.toList, entryA]) (by rfl))
  have e : h5get partA entryA s%"definition" = .ok none := by rfl
  rw [e] at hd
  cases hd

/-- **C145** (violated): an entry without a group of the definition that it declares is accepted. -/
theorem accepted_incomplete : ¬ ∀ (env : Env) (mgr : Manager) (f : H5File) (g : Node) (name gname : Str)
    (ad : ClassDef) (entry : GroupSpec) (more : Dict Str GroupSpec),
    Accepted env mgr [] f → EntryGroup env f g → Declares env f g name →
    Dict.get? mgr.classes name = some ad → ad.groups = (gname, entry) :: more →
    ∀ k ∈ Dict.keys entry.groups, ∃ n, h5get f g k = .ok (some n) := by
  intro h
  obtain ⟨n, hn⟩ := h sampleEnv scanMgr scanFile scanEntry s%"NXscan" _ _ _ _ scanFile_accepted
    scanFile_entry ⟨_, _, _, by rfl, .inl (.inl (.inl rfl))⟩ (by rfl) (by rfl) s%"instrument" (by decide)
  have e : h5get scanFile scanEntry s%"instrument" = .ok none := by rfl
  rw [e] at hn
  cases hn

/-- A subentry in a group of an entry, with a definition that does not exist. -/
def deepEntry : Node :=
  .group s%"/e/d/s" [(s%"NX_class", .str s%"NXsubentry")] (scanFields s%"/e/d/s" s%"NXnone" .nil)

def deepFile : H5File where
  attrs := []
  kids := .cons s%"e" .hard (.group s%"/e" [(s%"NX_class", .str s%"NXentry")]
    (.cons s%"d" .hard (.group s%"/e/d" [(s%"NX_class", .str s%"NXdata")]
      (.cons s%"s" .hard deepEntry (plotIn s%"/e/d" .nil))) .nil)) .nil

theorem deepFile_wellNamed : WellNamedFile deepFile := by
  simp [WellNamedFile, deepFile, deepEntry, scanFields, plotIn, WellNamedKids, WellNamed, Kids.toList]

/-- **C145** (violated): a subentry that is not in an entry may declare any definition. -/
theorem accepted_deep : ¬ ∀ (env : Env) (mgr : Manager) (f : H5File) (it : Item) (g : Node) (name : Str),
    Accepted env mgr [] f → it ∈ contents env f → it.obj.asGroup = some g →
    nxClassOf env g.attrs = some s%"NXsubentry" → Declares env f g name →
    ∃ ad, Dict.get? mgr.classes name = some ad := by
  intro h
  have h5 : ((contents sampleEnv deepFile)[5]?).bind (·.obj.asGroup) = some deepEntry := by rfl
  obtain ⟨it, e, hg⟩ := Option.bind_eq_some_iff.1 h5
  have hit := List.mem_of_getElem? e
  obtain ⟨ad, had⟩ := h sampleEnv scanMgr deepFile it deepEntry s%"NXnone"
    ((accepted_iff (by rfl) deepFile_wellNamed scanMgr_entry).2 ⟨by rfl, by decide +kernel⟩) hit hg
    (by rfl) ⟨_, _, _, by rfl, .inl (.inl (.inl rfl))⟩
  have e : Dict.get? scanMgr.classes s%"NXnone" = none := by rfl
  rw [e] at had
  cases had

end Punx

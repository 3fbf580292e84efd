import Verif.Props.Installed
import Verif.Cases.Command
import Mathlib.Tactic.FinCases

/-!
# C105: an archive is installed, then a file is validated
-/

namespace Punx
open Spec

/-- Look up a path in an archive. -/
def archiveAt (z : Archive) (top : Str) (q : FPath) : Option FObj :=
  match z.members.reverse.find? (fun m => isExtractable m.name endings (categories ++ [top]) &&
    decide (extractPath m.name = top :: q)) with
  | some m => some (memberObj m)
  | none =>
    if z.members.any (fun m => isExtractable m.name endings (categories ++ [top]) &&
      ((top :: q).isPrefixOf (extractPath m.name) &&
        decide ((top :: q).length < (extractPath m.name).length)))
    then some .dir else none

theorem archiveHas_at (z : Archive) {top : Str} (ht : top ≠ []) (q : FPath) :
    ArchiveHas z top q (archiveAt z top q) := by
  unfold archiveAt
  split
  · rename_i m h
    obtain ⟨hp, as, bs, hl, hno⟩ := List.find?_eq_some_iff_append.1 h
    simp only [Bool.and_eq_true, decide_eq_true_eq, extractable_iff ht] at hp
    refine .inl ⟨m, ⟨bs.reverse, as.reverse, ?_, hp.1, hp.2, ?_⟩, rfl⟩
    · have := congrArg List.reverse hl
      simpa using this
    · intro m' hm' hw he
      have := hno m' (List.mem_reverse.1 hm')
      rw [(extractable_iff ht).2 hw, he] at this
      simp at this
  · rename_i h
    have hn : ¬ ∃ m, FinalAt z top (top :: q) m := by
      rintro ⟨m, hm⟩
      obtain ⟨h1, h2, h3⟩ := finalAt_wanted hm
      have := List.find?_eq_none.1 h m (List.mem_reverse.2 h1)
      rw [(extractable_iff ht).2 h2, h3] at this
      simp at this
    refine .inr ⟨hn, ?_⟩
    split
    · rename_i ha
      obtain ⟨m, hm, hp⟩ := List.any_eq_true.1 ha
      simp only [Bool.and_eq_true, decide_eq_true_eq, extractable_iff ht, List.isPrefixOf_iff_prefix] at hp
      obtain ⟨hw, ⟨rest, hr⟩, hl⟩ := hp
      obtain ⟨m', hm'⟩ := exists_finalAt hm hw
      refine .inl ⟨⟨_, m', hm', by simp, ?_⟩, rfl⟩
      cases rest with
      | nil => rw [← hr] at hl; simp at hl
      | cons w ws => exact ⟨w, ws, hr.symm⟩
    · rename_i ha
      refine .inr ⟨?_, rfl⟩
      rintro ⟨p, m, hm, _, w, rest, he⟩
      obtain ⟨h1, h2, h3⟩ := finalAt_wanted hm
      refine ha (List.any_eq_true.2 ⟨m, h1, ?_⟩)
      rw [h3, he]
      simp [(extractable_iff ht).2 h2]

/-- An archive of definitions. -/
def defsArchive : Archive :=
  { members :=
      [⟨s%"definitions-main/", [], ⟨2021, 12, 17, 13, 9, 18⟩⟩,
       ⟨s%"definitions-main/README.md", s%"read", ⟨2021, 12, 17, 13, 9, 18⟩⟩,
       ⟨s%"definitions-main/applications/NXapp.nxdl.xml", s%"x", ⟨2021, 12, 17, 13, 9, 18⟩⟩,
       ⟨s%"definitions-main/base_classes/NXdata.nxdl.xml", s%"x", ⟨2021, 12, 17, 13, 9, 18⟩⟩,
       ⟨s%"definitions-main/base_classes/NXentry.nxdl.xml", s%"data", ⟨2021, 12, 17, 13, 9, 18⟩⟩,
       ⟨s%"definitions-main/base_classes/NXroot.nxdl.xml", s%"entry", ⟨2021, 12, 17, 13, 9, 18⟩⟩,
       ⟨s%"definitions-main/contributed_definitions/NXcon.nxdl.xml", s%"x", ⟨2021, 12, 17, 13, 9, 18⟩⟩,
       ⟨s%"definitions-main/nxdl.xsd", s%"schema", ⟨2020, 1, 1, 0, 0, 0⟩⟩,
       ⟨s%"definitions-main/nxdlTypes.xsd", s%"types", ⟨2020, 1, 1, 0, 0, 0⟩⟩]
    comment := s%"041c2c0" }

theorem defsArchive_tidy : OneDirectory defsArchive s%"definitions-main" := by
  refine ⟨by simp [defsArchive], by decide, by decide, ?_⟩
  intro m hm
  simp only [defsArchive, List.mem_cons, List.not_mem_nil, or_false] at hm
  rcases hm with rfl | rfl | rfl | rfl | rfl | rfl | rfl | rfl | rfl <;> exact ⟨_, rfl⟩

/-- The three texts of definitions. -/
def defsLxml : Lxml where
  xsd t := if t = s%"schema" then cmdXsd else nxTypesXsd
  xml t :=
    if t = s%"entry" then some (.elem true s%"definition" [] [groupX s%"NXentry" []])
    else if t = s%"data" then some (.elem true s%"definition" [] [groupX s%"NXdata" []])
    else if t = s%"x" then some (.elem true s%"definition" [] [fieldX s%"x"])
    else none

/-- The set in the archive: the files in the order of the archive ... -/
def defsDir : SetDir :=
  ⟨true, some cmdXsd, some nxTypesXsd, fun c => some (match c with
    | .baseClasses =>
      [⟨s%"NXdata.nxdl.xml", defsLxml.xml s%"x"⟩, ⟨s%"NXentry.nxdl.xml", defsLxml.xml s%"data"⟩,
       ⟨s%"NXroot.nxdl.xml", defsLxml.xml s%"entry"⟩]
    | .applications => [⟨s%"NXapp.nxdl.xml", defsLxml.xml s%"x"⟩]
    | .contributed => [⟨s%"NXcon.nxdl.xml", defsLxml.xml s%"x"⟩])⟩

/-- ... and in the order in which the operating system may list them. -/
def defsDirListed : SetDir :=
  ⟨true, some cmdXsd, some nxTypesXsd, fun c => some (match c with
    | .baseClasses =>
      [⟨s%"NXroot.nxdl.xml", defsLxml.xml s%"entry"⟩, ⟨s%"NXdata.nxdl.xml", defsLxml.xml s%"x"⟩,
       ⟨s%"NXentry.nxdl.xml", defsLxml.xml s%"data"⟩]
    | .applications => [⟨s%"NXapp.nxdl.xml", defsLxml.xml s%"x"⟩]
    | .contributed => [⟨s%"NXcon.nxdl.xml", defsLxml.xml s%"x"⟩])⟩

/-- Which members are wanted, and where they go. -/
def defsPlaces : List (Bool × FPath × FObj) := defsArchive.members.map fun m =>
  (isExtractable m.name endings (categories ++ [s%"definitions-main"]), extractPath m.name, memberObj m)

theorem defsPlaces_eq : defsPlaces =
  [(false, [s%"definitions-main"], .dir),
   (false, [s%"definitions-main", s%"README.md"], .file (.raw s%"read")),
   (true, [s%"definitions-main", s%"applications", s%"NXapp.nxdl.xml"], .file (.raw s%"x")),
   (true, [s%"definitions-main", s%"base_classes", s%"NXdata.nxdl.xml"], .file (.raw s%"x")),
   (true, [s%"definitions-main", s%"base_classes", s%"NXentry.nxdl.xml"], .file (.raw s%"data")),
   (true, [s%"definitions-main", s%"base_classes", s%"NXroot.nxdl.xml"], .file (.raw s%"entry")),
   (true, [s%"definitions-main", s%"contributed_definitions", s%"NXcon.nxdl.xml"], .file (.raw s%"x")),
   (true, [s%"definitions-main", s%"nxdl.xsd"], .file (.raw s%"schema")),
   (true, [s%"definitions-main", s%"nxdlTypes.xsd"], .file (.raw s%"types"))] := by
  decide +kernel

theorem archiveAt_places {z : Archive} {top : Str} {q : FPath} {l : List (Bool × FPath × FObj)}
    (h : z.members.map (fun m =>
      (isExtractable m.name endings (categories ++ [top]), extractPath m.name, memberObj m)) = l) :
    archiveAt z top q =
      match l.reverse.find? (fun x => x.1 && decide (x.2.1 = top :: q)) with
      | some x => some x.2.2
      | none => if l.any (fun x => x.1 && ((top :: q).isPrefixOf x.2.1 &&
          decide ((top :: q).length < x.2.1.length))) then some .dir else none := by
  subst h
  unfold archiveAt
  rw [← List.map_reverse, List.find?_map, List.any_map]
  simp only [Function.comp_def]
  cases z.members.reverse.find? _ <;> rfl

/-- The paths in the archive, with texts. -/
theorem defsArchive_at (c : Category) (n : Str) :
    archiveAt defsArchive s%"definitions-main" [categoryDir c, n] =
      match c with
      | .baseClasses =>
        if n = s%"NXroot.nxdl.xml" then some (.file (.raw s%"entry"))
        else if n = s%"NXentry.nxdl.xml" then some (.file (.raw s%"data"))
        else if n = s%"NXdata.nxdl.xml" then some (.file (.raw s%"x")) else none
      | .applications => if n = s%"NXapp.nxdl.xml" then some (.file (.raw s%"x")) else none
      | .contributed => if n = s%"NXcon.nxdl.xml" then some (.file (.raw s%"x")) else none := by
  rw [archiveAt_places defsPlaces_eq]
  cases c
  · by_cases h1 : n = s%"NXroot.nxdl.xml"
    · subst h1; rfl
    by_cases h2 : n = s%"NXentry.nxdl.xml"
    · subst h2; rfl
    by_cases h3 : n = s%"NXdata.nxdl.xml"
    · subst h3; rfl
    simp [categoryDir, List.find?, List.isPrefixOf, Ne.symm h1, Ne.symm h2, Ne.symm h3, h1, h2, h3]
  · by_cases h1 : n = s%"NXapp.nxdl.xml"
    · subst h1; rfl
    simp [categoryDir, List.find?, List.isPrefixOf, Ne.symm h1, h1]
  · by_cases h1 : n = s%"NXcon.nxdl.xml"
    · subst h1; rfl
    simp [categoryDir, List.find?, List.isPrefixOf, Ne.symm h1, h1]

theorem one_of_three {α : Type} {p q r : Prop} [Decidable p] [Decidable q] [Decidable r] {a b c : α} :
    (if p then some a else if q then some b else if r then some c else none) ≠ none ↔ r ∨ q ∨ p := by
  by_cases p <;> by_cases q <;> by_cases r <;> simp [*]

theorem one_of_one {α : Type} {p : Prop} [Decidable p] {a : α} :
    (if p then some a else none) ≠ none ↔ p := by
  by_cases p <;> simp [*]

theorem named_iff {l : List NxdlFile} {n : Str} :
    (∃ f ∈ l, f.name = n) ↔ n ∈ l.map (·.name) := by
  rw [List.mem_map]

/-- What the archive has, as the directory of a set. -/
theorem defsDir_of : DirOf defsLxml (archiveAt defsArchive s%"definitions-main") defsDir := by
  have h1 : textAt (archiveAt defsArchive s%"definitions-main") [s%"nxdl.xsd"] = some s%"schema" := by
    decide +kernel
  have h2 : textAt (archiveAt defsArchive s%"definitions-main") [s%"nxdlTypes.xsd"] =
      some s%"types" := by
    decide +kernel
  have hc : ∀ c fs, defsDir.listing c = some fs → fs = match c with
      | .baseClasses =>
        [⟨s%"NXdata.nxdl.xml", defsLxml.xml s%"x"⟩, ⟨s%"NXentry.nxdl.xml", defsLxml.xml s%"data"⟩,
         ⟨s%"NXroot.nxdl.xml", defsLxml.xml s%"entry"⟩]
      | .applications => [⟨s%"NXapp.nxdl.xml", defsLxml.xml s%"x"⟩]
      | .contributed => [⟨s%"NXcon.nxdl.xml", defsLxml.xml s%"x"⟩] := by
    intro c fs h
    injection h with h
    exact h.symm
  refine ⟨by decide +kernel, ?_, ?_, ?_, ?_, ?_, ?_⟩
  · rw [h1]; rfl
  · rw [h2]; rfl
  · intro c
    have : archiveAt defsArchive s%"definitions-main" [categoryDir c] = some .dir := by
      cases c <;> decide +kernel
    rw [this]
    exact ⟨fun h => (by cases h), fun h => absurd rfl h⟩
  · intro c fs h
    rw [hc c fs h]
    cases c <;> decide
  · intro c fs h n
    rw [hc c fs h, defsArchive_at, named_iff]
    cases c
    · rw [one_of_three]
      simp only [List.map_cons, List.map_nil, List.mem_cons, List.not_mem_nil, or_false]
    · rw [one_of_one]
      simp only [List.map_cons, List.map_nil, List.mem_cons, List.not_mem_nil, or_false]
    · rw [one_of_one]
      simp only [List.map_cons, List.map_nil, List.mem_cons, List.not_mem_nil, or_false]
  · intro c fs h f hf
    unfold textAt
    rw [hc c fs h] at hf
    rw [defsArchive_at]
    cases c <;> simp only [List.mem_cons, List.not_mem_nil, or_false] at hf
    · rcases hf with rfl | rfl | rfl <;> rfl
    · rw [hf]; rfl
    · rw [hf]; rfl

/-- `punx install main`, the cache is empty. -/
def defsUse : Use :=
  { net := fun _ => .archive defsArchive, rm := [], written := s%"today", name := s%"main",
    update := false }

/-- The disks afterwards. -/
def defsSets : Disks where
  source := ⟨s%"/x/punx/cache", [], fun _ => none⟩
  user := ⟨s%"/home/me/.config/punx", [s%"main"], applyAll emptyDisk (defsUse.alone emptyDisk).ops⟩
  dir p := if p = s%"/home/me/.config/punx/main" then defsDirListed else ⟨false, none, none, fun _ => none⟩

theorem defs_installed : (defsUse.alone emptyDisk).res = .ok () := by
  have : (defsUse.alone emptyDisk).res.toBool = true := by decide +kernel
  revert this
  cases (defsUse.alone emptyDisk).res <;> simp [Except.toBool]

theorem emptyDisk_below {k : Str} {q : FPath} : emptyDisk (k :: q) = none := if_neg (by simp)

/-- What is on the disk is what is in the archive. -/
theorem defs_content {q : FPath} (hq : q ≠ [infoName]) :
    defsSets.user.disk (s%"main" :: q) = archiveAt defsArchive s%"definitions-main" q :=
  installed_content (u := defsUse) rfl defsArchive_tidy (by decide)
    (fun q hq => absurd emptyDisk_below hq) (.inr emptyDisk_below) (fun q => emptyDisk_below)
    defs_installed rfl hq (archiveHas_at _ (by decide) q)

theorem defsDir_perm : DirOf defsLxml (fun q => defsSets.user.disk (s%"main" :: q)) defsDirListed := by
  have h := dirOf_congr (fun q hq => (defs_content hq).symm) defsDir_of
  have hp : ∀ c, ∃ fs gs, defsDir.listing c = some fs ∧ defsDirListed.listing c = some gs ∧
      fs.Perm gs := by
    intro c
    refine ⟨_, _, rfl, rfl, ?_⟩
    cases c
    · exact (List.perm_append_comm (l₁ := [_, _]) (l₂ := [_]))
    · exact .refl _
    · exact .refl _
  refine ⟨h.here, h.xsd, h.types, ?_, ?_, ?_, ?_⟩
  · intro c
    obtain ⟨fs, gs, h1, h2, _⟩ := hp c
    rw [← h.missing c, h1, h2]
    simp
  all_goals
    intro c gs hg
    obtain ⟨fs, gs', h1, h2, hperm⟩ := hp c
    rw [h2] at hg
    injection hg with hg
    subst hg
  · exact ((hperm.map _).nodup_iff).1 (h.distinct c fs h1)
  · intro n
    rw [← h.names c fs h1 n]
    exact ⟨fun ⟨f, hf, e⟩ => ⟨f, hperm.mem_iff.2 hf, e⟩, fun ⟨f, hf, e⟩ => ⟨f, hperm.mem_iff.1 hf, e⟩⟩
  · exact fun f hf => h.content c fs h1 f (hperm.mem_iff.2 hf)

theorem defs_lawful : LawfulDocs defsDir := by
  have hg : ∀ t, Lawful (groupX t []) := fun t => .elem (by simp [Dict.keys]) (by simp)
  have hf : Lawful (fieldX s%"x") := .elem (by simp [Dict.keys]) (by simp)
  have hd : ∀ x, Lawful x → Lawful (.elem true s%"definition" [] [x]) := by
    intro x hx
    refine .elem (by simp [Dict.keys]) ?_
    intro y hy
    rw [List.mem_singleton] at hy
    rw [hy]
    exact hx
  intro c fs f x h1 h2 h3
  injection h1 with h1
  subst h1
  cases c <;> simp only [List.mem_cons, List.not_mem_nil, or_false] at h2
  · rcases h2 with rfl | rfl | rfl <;> (injection h3 with h3; subst h3)
    · exact hd _ hf
    · exact hd _ (hg _)
    · exact hd _ (hg _)
  · subst h2; injection h3 with h3; subst h3; exact hd _ hf
  · subst h2; injection h3 with h3; subst h3; exact hd _ hf

/-- `punx validate --file_set_name main --report error a.h5` -/
def defsCall : ValidateArgs := ⟨s%"a.h5", some s%"main", s%"error"⟩

def defsWorld : World :=
  commandWorld easyLib cmdPattern defsSets sampleEnv cmdFiles (fun c => [c]) id

theorem defs_printed :
    printed (funcValidate defsWorld defsCall).log =
      [(some s%"/e/d@axes", s%"axes['q'] exists", .error),
       (some s%"/e/d@axes", s%"valid name @axes['.']", .error),
       (some s%"/e/d/y@target", s%"attribute value", .error)] := by
  decide +kernel

/-- `validate_after_install` for these commands: three lines are expected with the definitions of
the archive. -/
example (l : Line) :
    (∃ mgr, OwnDefinitions easyLib cmdPattern defsDir mgr ∧ Validatable sampleEnv mgr attrFile ∧
      Asked s%"error" l.2.2 ∧ Expected sampleEnv mgr [] attrFile (contents sampleEnv attrFile) l) ↔
    l ∈ [(some s%"/e/d@axes", s%"axes['q'] exists", Status.error),
       (some s%"/e/d@axes", s%"valid name @axes['.']", .error),
       (some s%"/e/d/y@target", s%"attribute value", .error)] := by
  obtain ⟨sets, hs, hw⟩ : ∃ sets, allFileSets defsSets.source defsSets.user = .ok sets ∧
      ∀ kv ∈ sets, WellDescribed kv.2 := by
    have h : (allFileSets defsSets.source defsSets.user).toOption.any (fun sets => sets.all
        (fun kv => kv.2.lastModified.isSome && kv.2.sha.isSome)) = true := by decide +kernel
    cases e : allFileSets defsSets.source defsSets.user with
    | error e' => rw [e] at h; cases h
    | ok sets =>
      rw [e] at h
      refine ⟨sets, rfl, fun kv hkv => ?_⟩
      have := List.all_eq_true.1 h kv hkv
      simp only [Bool.and_eq_true, Option.isSome_iff_ne_none] at this
      exact this
  have hn : ∀ file, cmdFiles defsCall.infile = .hdf5 file → file = attrFile := by
    intro file h
    have : FileState.hdf5 attrFile = .hdf5 file := h
    injection this with this
    exact this.symm
  have h := validate_after_install (lib := easyLib) (pattern := cmdPattern) (lx := defsLxml)
    (u := defsUse) (w := defsSets) (env := sampleEnv) (files := cmdFiles) (upper := fun c => [c])
    (abspath := id) (a := defsCall) rfl defsArchive_tidy (by decide)
    (fun q hq => absurd emptyDisk_below hq) (.inr emptyDisk_below) (fun q => emptyDisk_below)
    defs_installed rfl (by decide) hs hw defsDir_perm
    ⟨_, archiveHas_at _ (by decide), defsDir_of⟩
    ⟨.baseClasses, _, ⟨s%"NXdata.nxdl.xml", _⟩, rfl, List.mem_cons_self .., ⟨s%"NXdata", rfl⟩⟩
    defs_lawful rfl (by unfold PlainAscii; decide) rfl
    (fun file h => by rw [hn file h]; exact attrFile_wellNamed)
  rw [← defs_printed, mem_printed]
  constructor
  · rintro ⟨mgr, h1, h2, h3, h4⟩
    obtain ⟨rows, sm, sc, h5⟩ := (h s%"a.h5" l).2 ⟨rfl,
      (report_option_refused (other := fun c => [c]) (by unfold PlainAscii; decide)).1 rfl, by decide, h3,
      mgr, attrFile, h1, rfl, h2, h4⟩
    exact ⟨_, rows, sm, sc, h5⟩
  · rintro ⟨f, rows, sm, sc, h5⟩
    obtain ⟨_, _, _, h3, mgr, file, h1, hf, h2, h4⟩ := (h f l).1 ⟨rows, sm, sc, h5⟩
    cases hn file hf
    exact ⟨mgr, h1, h2, h3, h4⟩

end Punx

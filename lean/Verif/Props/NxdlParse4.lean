import Verif.Props.NxdlParse3

/-!
# C50, C51: the classes of a directory
-/

namespace Punx
open Spec

/-! ## the list of files -/

theorem titled_iff {f : NxdlFile} {t : Str} : Titled f t ↔ titleOf f = t := by
  unfold Titled titleOf
  constructor
  · rintro ⟨hd, h | ⟨rest, h⟩⟩
    · have := firstComp_eq (c := '.') (w := t) (rest := []) hd (.inl rfl)
      rw [h]; simpa using this
    · have := firstComp_eq (c := '.') (w := t) (rest := '.' :: rest) hd (.inr ⟨rest, rfl⟩)
      rw [h]; exact this
  · rintro rfl
    obtain ⟨rest, h1, h2, h3⟩ := firstComp_spec '.' f.name
    refine ⟨h2, ?_⟩
    rcases h3 with rfl | ⟨r, rfl⟩
    · left; simpa using h1
    · exact .inr ⟨r, h1⟩

theorem isNxdl_iff {f : NxdlFile} : IsNxdl f ↔ endsWith f.name s%".nxdl.xml" = true := by
  rw [endsWith_iff]
  constructor
  · rintro ⟨s, h⟩; exact ⟨s, h.symm⟩
  · rintro ⟨s, h⟩; exact ⟨s, h.symm⟩

/-- order of reading -/
def ReadBefore (p q : Category × NxdlFile) : Prop :=
  rank p.1 < rank q.1 ∨ p.1 = q.1 ∧ strLe p.2.name q.2.name = true

theorem mem_nxdlFiles {fs : List NxdlFile} {f : NxdlFile} :
    f ∈ nxdlFiles fs ↔ f ∈ fs ∧ IsNxdl f := by
  unfold nxdlFiles
  rw [List.mem_filter, mem_sortBy, isNxdl_iff]

theorem nxdlFiles_sorted (fs : List NxdlFile) :
    (nxdlFiles fs).Pairwise fun a b => strLe a.name b.name = true := by
  unfold nxdlFiles
  exact (sortBy_sorted (le := fun a b : NxdlFile => strLe a.name b.name)
    (fun a b => strLe_total _ _) (fun a b c h1 h2 => strLe_trans h1 h2) fs).filter _

theorem fileListFrom_ok {dir : DefDir} : ∀ {cs : List Category}
    {l : List (Category × NxdlFile)}, fileListFrom dir cs = .ok l →
    cs.Pairwise (fun a b => rank a < rank b) →
    (∀ c f, (c, f) ∈ l ↔ c ∈ cs ∧ ∃ fs, dir.listing c = some fs ∧ f ∈ fs ∧ IsNxdl f) ∧
    l.Pairwise ReadBefore ∧ ∀ c ∈ cs, (dir.listing c).isSome
  | [], l, h, _ => by
    injection h with h; subst h
    exact ⟨fun c f => by simp, .nil, by simp⟩
  | c0 :: cs, l, h, hcs => by
    rw [fileListFrom] at h
    cases hl : dir.listing c0 with
    | none => rw [hl] at h; cases h
    | some fs =>
      rw [hl] at h
      simp only at h
      cases hr : fileListFrom dir cs with
      | error e => rw [hr] at h; cases h
      | ok rest =>
        rw [hr] at h
        injection h with h
        subst h
        obtain ⟨hlt, hcs'⟩ := List.pairwise_cons.1 hcs
        obtain ⟨i1, i2, i3⟩ := fileListFrom_ok hr hcs'
        refine ⟨?_, ?_, ?_⟩
        · intro c f
          rw [List.mem_append, i1]
          constructor
          · rintro (h | h)
            · obtain ⟨g, hg, he⟩ := List.mem_map.1 h
              injection he with e1 e2
              subst e1 e2
              obtain ⟨h1, h2⟩ := mem_nxdlFiles.1 hg
              exact ⟨by simp, fs, hl, h1, h2⟩
            · exact ⟨by simp [h.1], h.2⟩
          · rintro ⟨hc, fs', h1, h2, h3⟩
            rcases List.mem_cons.1 hc with rfl | hc
            · left
              rw [hl] at h1
              injection h1 with h1
              subst h1
              exact List.mem_map.2 ⟨f, mem_nxdlFiles.2 ⟨h2, h3⟩, rfl⟩
            · exact .inr ⟨hc, fs', h1, h2, h3⟩
        · rw [List.pairwise_append]
          refine ⟨?_, i2, ?_⟩
          · rw [List.pairwise_map]
            exact (nxdlFiles_sorted fs).imp fun h => .inr ⟨rfl, h⟩
          · rintro p hp ⟨c', f'⟩ hq
            obtain ⟨g, _, rfl⟩ := List.mem_map.1 hp
            exact .inl (hlt c' ((i1 c' f').1 hq).1)
        · intro c hc
          rcases List.mem_cons.1 hc with rfl | hc
          · rw [hl]; rfl
          · exact i3 c hc

theorem mem_allCategories (c : Category) : c ∈ allCategories := by cases c <;> simp [allCategories]

theorem nxdlFileList_ok {dir : DefDir} {l : List (Category × NxdlFile)}
    (h : nxdlFileList dir = .ok l) :
    (∀ c f, (c, f) ∈ l ↔ ∃ fs, dir.listing c = some fs ∧ f ∈ fs ∧ IsNxdl f) ∧
    l.Pairwise ReadBefore ∧ (∀ c, (dir.listing c).isSome) ∧ dir.here = true := by
  unfold nxdlFileList at h
  split at h
  · rename_i hh
    obtain ⟨h1, h2, h3⟩ := fileListFrom_ok h (by simp [allCategories, rank])
    exact ⟨fun c f => by rw [h1]; simp [mem_allCategories], h2,
      fun c => h3 c (mem_allCategories c), hh⟩
  · cases h

theorem nxdlFileList_succeeds {dir : DefDir} (hh : dir.here = true)
    (h : ∀ c, (dir.listing c).isSome) : ∃ l, nxdlFileList dir = .ok l := by
  unfold nxdlFileList
  rw [if_pos hh]
  have : ∀ cs, ∃ l, fileListFrom dir cs = .ok l := by
    intro cs
    induction cs with
    | nil => exact ⟨[], rfl⟩
    | cons c cs ih =>
      obtain ⟨l, hl⟩ := ih
      obtain ⟨fs, hfs⟩ := Option.isSome_iff_exists.1 (h c)
      rw [fileListFrom, hfs]
      simp only [hl]
      exact ⟨_, rfl⟩
  exact this _

/-! ## reading the files -/

theorem readFile_ok {valid : Xml → Bool} {c : Category} {f : NxdlFile} {cd : ClassDef}
    {d d' : Defaults} : readFile valid c f d = .ok (cd, d') ↔
      ∃ x, f.content = some x ∧ valid x = true ∧
        readDefinition (titleOf f) c x d = .ok (cd, d') := by
  unfold readFile
  cases h : f.content with
  | none => simp [Reader.raise]
  | some x =>
    simp only [Option.some.injEq, exists_eq_left']
    split
    · rename_i hv; simp [hv]
    · rename_i hv; simp [Reader.raise, hv]

/-- what is known about the class `cd` read from the file -/
def ReadFrom (valid : Xml → Bool) (p : Category × NxdlFile) (cd : ClassDef) : Prop :=
  ∃ x d d', p.2.content = some x ∧ valid x = true ∧
    readDefinition (titleOf p.2) p.1 x d = .ok (cd, d')

theorem readFiles_get {valid : Xml → Bool} : ∀ {l : List (Category × NxdlFile)}
    {acc r : Dict Str ClassDef} {d d' : Defaults}, readFiles valid l acc d = .ok (r, d') →
    ∀ t, (∃ pre p post cd, l = pre ++ p :: post ∧ titleOf p.2 = t ∧
        (∀ q ∈ post, titleOf q.2 ≠ t) ∧ Dict.get? r t = some cd ∧ ReadFrom valid p cd) ∨
      ((∀ q ∈ l, titleOf q.2 ≠ t) ∧ Dict.get? r t = Dict.get? acc t)
  | [], acc, r, d, d', h, t => by
    rw [readFiles, Reader.pure_ok] at h
    obtain ⟨rfl, rfl⟩ := h
    exact .inr ⟨by simp, rfl⟩
  | (c, f) :: l, acc, r, d, d', h, t => by
    rw [readFiles] at h
    obtain ⟨cd, d1, h1, h⟩ := Reader.bind_ok.1 h
    rcases readFiles_get h t with ⟨pre, p, post, cd', hl, ht, hp, hg, hr⟩ | ⟨hno, hg⟩
    · exact .inl ⟨(c, f) :: pre, p, post, cd', by simp [hl], ht, hp, hg, hr⟩
    · by_cases htf : titleOf f = t
      · left
        obtain ⟨x, hx, hv, hx'⟩ := readFile_ok.1 h1
        refine ⟨[], (c, f), l, cd, rfl, htf, hno, ?_, x, d, d1, hx, hv, hx'⟩
        rw [hg, Dict.get?_set, if_pos htf]
      · right
        refine ⟨?_, ?_⟩
        · intro q hq
          rcases List.mem_cons.1 hq with rfl | hq
          · exact htf
          · exact hno q hq
        · rw [hg, Dict.get?_set, if_neg htf]

theorem readFiles_state {valid : Xml → Bool} : ∀ {l : List (Category × NxdlFile)}
    {acc r : Dict Str ClassDef} {d d' : Defaults}, readFiles valid l acc d = .ok (r, d') →
    Cell (∃ f x, (Category.applications, f) ∈ l ∧ f.content = some x ∧ HasField x) d d' ∧
      (Declared d → Declared d')
  | [], acc, r, d, d', h => by
    rw [readFiles, Reader.pure_ok] at h
    obtain ⟨_, rfl⟩ := h
    exact ⟨.of_eq (by simp) rfl, id⟩
  | (c, f) :: l, acc, r, d, d', h => by
    rw [readFiles] at h
    obtain ⟨cd, d1, h1, h⟩ := Reader.bind_ok.1 h
    obtain ⟨x, hx, _, hx'⟩ := readFile_ok.1 h1
    obtain ⟨a1, a2, a3⟩ := readDefinition_state hx'
    obtain ⟨b1, b2⟩ := readFiles_state h
    refine ⟨?_, b2 ∘ a3⟩
    have hcell : Cell (c = .applications ∧ HasField x) d d1 := by
      by_cases hc : c = .applications
      · have := a2 hc
        exact ⟨fun hp => this.1 hp.2, fun hn => this.2 fun hf => hn ⟨hc, hf⟩⟩
      · exact .of_eq (fun hp => hc hp.1) (by rw [a1 hc])
    refine hcell.trans b1 ?_
    constructor
    · rintro ⟨g, y, hm, hy, hf⟩
      rcases List.mem_cons.1 hm with he | hm
      · injection he with e1 e2
        subst e1 e2
        rw [hx] at hy
        injection hy with hy
        subst hy
        exact .inl ⟨rfl, hf⟩
      · exact .inr ⟨g, y, hm, hy, hf⟩
    · rintro (⟨rfl, hf⟩ | ⟨g, y, hm, hy, hf⟩)
      · exact ⟨f, x, by simp, hx, hf⟩
      · exact ⟨g, y, by simp [hm], hy, hf⟩

theorem readFiles_succeeds {valid : Xml → Bool} : ∀ {l : List (Category × NxdlFile)}
    {acc : Dict Str ClassDef} {d : Defaults}, Declared d →
    (Succeeds (readFiles valid l acc) d ↔
      ∀ p ∈ l, ∃ x, p.2.content = some x ∧ valid x = true ∧ GoodDocument x)
  | [], acc, d, _ => by rw [readFiles]; simp [succeeds_pure]
  | (c, f) :: l, acc, d, hd => by
    rw [readFiles]
    constructor
    · intro h
      obtain ⟨cd, d1, h1, h⟩ := succeeds_bind.1 h
      obtain ⟨x, hx, hv, hx'⟩ := readFile_ok.1 h1
      have hd1 := (readDefinition_state hx').2.2 hd
      intro p hp
      rcases List.mem_cons.1 hp with hpe | hp
      · rw [hpe]
        exact ⟨x, hx, hv, (document_readable_iff hd).1 ⟨cd, d1, hx'⟩⟩
      · exact (readFiles_succeeds hd1).1 h p hp
    · intro h
      obtain ⟨x, hx, hv, hgood⟩ := h (c, f) (by simp)
      obtain ⟨cd, d1, hr⟩ := (document_readable_iff (title := titleOf f) (c := c) hd).2 hgood
      have hd1 := (readDefinition_state hr).2.2 hd
      exact succeeds_bind.2 ⟨cd, d1, readFile_ok.2 ⟨x, hx, hv, hr⟩,
        (readFiles_succeeds hd1).2 fun p hp => h p (by simp [hp])⟩

theorem loadClasses_ok {valid : Xml → Bool} {dir : DefDir} {s : Defaults}
    (hs : dir.schema = some s) {cl : Dict Str ClassDef} {o : Option Defaults}
    (h : loadClasses valid dir = .ok (cl, o)) :
    ∃ l d', nxdlFileList dir = .ok l ∧ readFiles valid l [] s = .ok (cl, d') ∧ o = some d' := by
  unfold loadClasses at h
  split at h
  · cases hl : nxdlFileList dir with
    | error e => rw [hl] at h; cases h
    | ok l =>
      rw [hl, hs] at h
      refine ⟨l, ?_⟩
      cases hr : readFiles valid l [] s with
      | error e =>
        have : (readFiles valid l []).run s = .error e := hr
        simp only [bind, Except.bind] at h
        rw [this] at h
        cases h
      | ok p =>
        have : (readFiles valid l []).run s = .ok p := hr
        simp only [bind, Except.bind] at h
        rw [this] at h
        injection h with h
        injection h with h1 h2
        exact ⟨p.2, rfl, by rw [← h1], h2.symm⟩
  · cases h

/-! ## C50 -/

theorem wins_last {dir : DefDir} {l : List (Category × NxdlFile)}
    (hl : nxdlFileList dir = .ok l) {t : Str} {pre post : List (Category × NxdlFile)}
    {p : Category × NxdlFile} (he : l = pre ++ p :: post) (ht : titleOf p.2 = t)
    (hpost : ∀ q ∈ post, titleOf q.2 ≠ t) : Wins dir t p.1 p.2 := by
  obtain ⟨hm, hs, _, _⟩ := nxdlFileList_ok hl
  obtain ⟨fs, h1, h2, h3⟩ := (hm p.1 p.2).1 (by rw [he]; simp)
  refine ⟨⟨fs, h1, h2⟩, h3, titled_iff.2 ht, ?_⟩
  intro c' fs' f' g1 g2 g3 g4
  have hq : (c', f') ∈ l := (hm c' f').2 ⟨fs', g1, g2, g3⟩
  rw [he] at hq hs
  rw [titled_iff] at g4
  rcases List.mem_append.1 hq with hq | hq
  · have := (List.pairwise_append.1 hs).2.2 (c', f') hq p (by simp)
    exact this
  · rcases List.mem_cons.1 hq with hq | hq
    · subst hq
      exact .inr ⟨rfl, strLe_refl _⟩
    · exact absurd g4 (hpost _ hq)

/-- In a directory file names are distinct. -/
def DistinctNames (dir : DefDir) : Prop :=
  ∀ c fs f g, dir.listing c = some fs → f ∈ fs → g ∈ fs → f.name = g.name → f = g

theorem wins_unique {dir : DefDir} (hu : DistinctNames dir) {t : Str} {c c' : Category}
    {f f' : NxdlFile} (h : Wins dir t c f) (h' : Wins dir t c' f') : c = c' ∧ f = f' := by
  obtain ⟨⟨fs, a1, a2⟩, a3, a4, a5⟩ := h
  obtain ⟨⟨fs', b1, b2⟩, b3, b4, b5⟩ := h'
  rcases a5 c' fs' f' b1 b2 b3 b4 with h1 | ⟨rfl, h1⟩
  · rcases b5 c fs f a1 a2 a3 a4 with h2 | ⟨rfl, h2⟩
    · omega
    · omega
  · rcases b5 c' fs f a1 a2 a3 a4 with h2 | ⟨_, h2⟩
    · omega
    · rw [a1] at b1
      injection b1 with b1
      subst b1
      exact ⟨rfl, hu c' fs f f' a1 a2 b2 (strLe_antisymm h2 h1)⟩

/-- **C50.** A class exists exactly if some definition file has its name. -/
theorem class_defined_iff {valid : Xml → Bool} {dir : DefDir} {s : Defaults}
    (hs : dir.schema = some s) {cl : Dict Str ClassDef} {o : Option Defaults}
    (h : loadClasses valid dir = .ok (cl, o)) (t : Str) :
    (Dict.get? cl t).isSome ↔
      ∃ c fs f, dir.listing c = some fs ∧ f ∈ fs ∧ IsNxdl f ∧ Titled f t := by
  obtain ⟨l, d', hl, hr, _⟩ := loadClasses_ok hs h
  obtain ⟨hm, _, _, _⟩ := nxdlFileList_ok hl
  rcases readFiles_get hr t with ⟨pre, p, post, cd, he, ht, _, hg, _⟩ | ⟨hno, hg⟩
  · constructor
    · intro _
      obtain ⟨fs, h1, h2, h3⟩ := (hm p.1 p.2).1 (by rw [he]; simp)
      exact ⟨p.1, fs, p.2, h1, h2, h3, titled_iff.2 ht⟩
    · intro _; rw [hg]; rfl
  · constructor
    · intro hh; rw [hg] at hh; simp [Dict.get?] at hh
    · rintro ⟨c, fs, f, h1, h2, h3, h4⟩
      exact absurd (titled_iff.1 h4) (hno (c, f) ((hm c f).2 ⟨fs, h1, h2, h3⟩))

/-- **C50.** Every class comes from the winning file of its name: a contributed
definition replaces an application which replaces a base class, and within a category
the alphabetically last file is used. -/
theorem class_from_winner {valid : Xml → Bool} {dir : DefDir} {s : Defaults}
    (hs : dir.schema = some s) (hu : DistinctNames dir)
    (hlaw : ∀ c fs f x, dir.listing c = some fs → f ∈ fs → f.content = some x → Lawful x)
    {cl : Dict Str ClassDef} {o : Option Defaults}
    (h : loadClasses valid dir = .ok (cl, o)) {t : Str} {c : Category} {f : NxdlFile}
    (hw : Wins dir t c f) :
    ∃ cd x, Dict.get? cl t = some cd ∧ f.content = some x ∧ valid x = true ∧
      DescribesClass t c x cd := by
  obtain ⟨l, d', hl, hr, _⟩ := loadClasses_ok hs h
  obtain ⟨hm, _, _, _⟩ := nxdlFileList_ok hl
  obtain ⟨⟨fs, a1, a2⟩, a3, a4, a5⟩ := id hw
  rcases readFiles_get hr t with ⟨pre, p, post, cd, he, ht, hp, hg, hread⟩ | ⟨hno, _⟩
  · have hw' := wins_last hl he ht hp
    obtain ⟨rfl, rfl⟩ := wins_unique hu hw hw'
    obtain ⟨x, d1, d2, hx, hv, hx'⟩ := hread
    rw [ht] at hx'
    exact ⟨cd, x, hg, hx, hv, definition_contents (hlaw _ fs _ x a1 a2 hx) hx'⟩
  · exact absurd (titled_iff.1 a4) (hno (c, f) ((hm c f).2 ⟨fs, a1, a2, a3⟩))

/-- **C76.** The definitions of a directory are usable only as a whole: they can be loaded
exactly if all three category directories exist and every definition file in them can be
parsed, is valid and is readable. -/
theorem load_succeeds_iff {valid : Xml → Bool} {dir : DefDir} {s : Defaults}
    (hs : dir.schema = some s) (hd : Declared s) :
    (∃ r, loadClasses valid dir = .ok r) ↔
      dir.here = true ∧ (∀ c, (dir.listing c).isSome) ∧
      ∀ c fs f, dir.listing c = some fs → f ∈ fs → IsNxdl f →
        ∃ x, f.content = some x ∧ valid x = true ∧ GoodDocument x := by
  constructor
  · rintro ⟨⟨cl, o⟩, h⟩
    obtain ⟨l, d', hl, hr, _⟩ := loadClasses_ok hs h
    obtain ⟨hm, _, hc, hh⟩ := nxdlFileList_ok hl
    refine ⟨hh, hc, ?_⟩
    intro c fs f h1 h2 h3
    exact (readFiles_succeeds hd).1 ⟨cl, d', hr⟩ (c, f) ((hm c f).2 ⟨fs, h1, h2, h3⟩)
  · rintro ⟨hh, hc, hf⟩
    obtain ⟨l, hl⟩ := nxdlFileList_succeeds hh hc
    obtain ⟨hm, _, _, _⟩ := nxdlFileList_ok hl
    obtain ⟨cl, d', hr⟩ := (readFiles_succeeds (valid := valid) (acc := []) hd).2
      (fun p hp => by
        obtain ⟨fs, h1, h2, h3⟩ := (hm p.1 p.2).1 hp
        exact hf p.1 fs p.2 h1 h2 h3)
    refine ⟨(cl, some d'), ?_⟩
    unfold loadClasses
    rw [if_pos hh, hl, hs]
    have : (readFiles valid l []).run s = .ok (cl, d') := hr
    simp only [bind, Except.bind]
    rw [this]

/-! ## C51 -/

theorem isOne_iff {v : DefVal} : v.isOne = true ↔ IsOne v := by
  cases v <;> simp [DefVal.isOne, IsOne]

theorem loadManager_ok {valid : Xml → Bool} {dir : DefDir} {s : Defaults}
    (hs : dir.schema = some s) {ip cp : Option (List Pat)} {m : Manager}
    (h : loadManager valid dir ip cp = .ok m) :
    ∃ d', loadClasses valid dir = .ok (m.classes, some d') ∧
      m.fieldMinOccursIsOne = d'.fieldMinOccurs.map DefVal.isOne := by
  unfold loadManager at h
  cases hc : loadClasses valid dir with
  | error e => rw [hc] at h; cases h
  | ok r =>
    rw [hc] at h
    obtain ⟨cl, o⟩ := r
    obtain ⟨l, d', _, _, rfl⟩ := loadClasses_ok hs hc
    injection h with h
    subst h
    exact ⟨d', rfl, rfl⟩

/-- **C51 (exact condition).** Whether fields (of all classes, base classes included) count
as required depends on one thing: whether some application definition of the file set
has a field. -/
theorem fields_required_iff_partial {valid : Xml → Bool} {dir : DefDir} {s : Defaults}
    (hs : dir.schema = some s) (h0 : ∀ v, s.fieldMinOccurs = some v → ¬ IsOne v)
    {ip cp : Option (List Pat)} {m : Manager} (h : loadManager valid dir ip cp = .ok m) :
    m.fieldMinOccursIsOne = some true ↔
      ∃ fs f x, dir.listing .applications = some fs ∧ f ∈ fs ∧ IsNxdl f ∧
        f.content = some x ∧ HasField x := by
  obtain ⟨d', hc, hm⟩ := loadManager_ok hs h
  obtain ⟨l, d'', hl, hr, he⟩ := loadClasses_ok hs hc
  injection he with he
  subst he
  obtain ⟨hmem, _, _, _⟩ := nxdlFileList_ok hl
  obtain ⟨hcell, _⟩ := readFiles_state hr
  have key : (∃ f x, (Category.applications, f) ∈ l ∧ f.content = some x ∧ HasField x) ↔
      ∃ fs f x, dir.listing .applications = some fs ∧ f ∈ fs ∧ IsNxdl f ∧
        f.content = some x ∧ HasField x := by
    constructor
    · rintro ⟨f, x, h1, h2, h3⟩
      obtain ⟨fs, g1, g2, g3⟩ := (hmem _ _).1 h1
      exact ⟨fs, f, x, g1, g2, g3, h2, h3⟩
    · rintro ⟨fs, f, x, g1, g2, g3, h2, h3⟩
      exact ⟨f, x, (hmem _ _).2 ⟨fs, g1, g2, g3⟩, h2, h3⟩
  rw [← key, hm]
  constructor
  · intro hone
    by_contra hno
    rw [hcell.2 hno] at hone
    cases hv : s.fieldMinOccurs with
    | none => rw [hv] at hone; cases hone
    | some v =>
      rw [hv] at hone
      exact h0 v hv (isOne_iff.1 (Option.some.inj hone))
  · intro hp
    rw [hcell.1 hp]
    rfl

end Punx

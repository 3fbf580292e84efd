import Verif.Props.Contents
import Verif.Props.Completes4

/-!
# C77: when a validation runs to the end
-/

namespace Punx
open Spec

/-! ## the catalogue -/

/-- The class path of the parent tells the place. -/
def At (cp : Str) : Place → Prop
  | .nexus => cp ≠ nonNeXus ∧ ¬ s%"/" <:+ cp
  | .slash => cp ≠ nonNeXus ∧ s%"/" <:+ cp
  | .outside => cp = nonNeXus

theorem place_classpath_ok_iff {env : Env} {p : Item} {pl : Place} (hp : At p.classpath pl)
    {n : Node} (hn : n.name ≠ s%"/") :
    (∃ r, determineClasspath env (some p) (isHdf5Group (.node n)) (objName n.name) n.attrs = .ok r) ↔
      (pl = .nexus → NodeClassOk env n) := by
  cases pl with
  | outside =>
    rw [determineClasspath, if_neg (fun h => hn (objName_slash h))]
    simp only [if_pos (show p.classpath = nonNeXus from hp)]
    simp
  | slash =>
    rw [determineClasspath, if_neg (fun h => hn (objName_slash h))]
    simp only [if_neg hp.1, if_pos (endsWith_iff.2 hp.2)]
    simp
  | nexus =>
    simp only [true_implies]
    constructor
    · rintro ⟨r, h⟩
      cases n with
      | dataset m a d => trivial
      | datatype m a => trivial
      | group m a ks =>
        rw [determineClasspath, if_neg (fun h => hn (objName_slash h))] at h
        simp only [if_neg hp.1, if_neg (fun h => hp.2 (endsWith_iff.1 h))] at h
        refine (decode_class_ok_iff env a).1 ?_
        rw [if_pos (show isHdf5Group (.node (.group m a ks)) = true from rfl)] at h
        cases hd : decodeByteString env ((attrGet a s%"NX_class").getD .none) with
        | ok v => exact ⟨v, rfl⟩
        | error e => simp only [Node.attrs, hd] at h; cases h
    · exact determineClasspath_ok

/-- The place of the members of a group. -/
theorem place_below {env : Env} {p : Item} {pl : Place} (hp : At p.classpath pl) {m : Str}
    {a : List (Str × Val)} (hn : m ≠ s%"/") {r : Str × Option Str}
    (h : determineClasspath env (some p) true (objName m) a = .ok r) :
    At r.1 (pl.below env a) := by
  rw [determineClasspath, if_neg (fun h => hn (objName_slash h))] at h
  cases pl with
  | outside =>
    simp only [if_pos (show p.classpath = nonNeXus from hp)] at h
    injection h with h; rw [← h]; rfl
  | slash =>
    simp only [if_neg hp.1, if_pos (endsWith_iff.2 hp.2)] at h
    injection h with h; rw [← h]; exact hp
  | nexus =>
    simp only [if_neg hp.1, if_neg (fun h => hp.2 (endsWith_iff.1 h)), if_true, attrGet] at h
    cases hdec : decodeByteString env ((attrGet a s%"NX_class").getD .none) with
    | error e => rw [attrGet] at hdec; rw [hdec] at h; cases h
    | ok v =>
      rw [Place.below, decode_class env a hdec]
      rw [attrGet] at hdec
      rw [hdec] at h
      cases v with
      | str t =>
        by_cases hs : startsWith t s%"NX" = true
        · simp only [bind, Except.bind, hs, if_true, Except.ok.injEq] at h
          rw [← h]
          simp only [classOfVal, hs, if_true]
          have hne : t ≠ [] := by rintro rfl; simp [startsWith] at hs
          have hnn : p.classpath ++ s%"/" ++ t ≠ nonNeXus := by
            intro e
            have : '/' ∈ nonNeXus := by rw [← e]; simp
            exact absurd this (by decide)
          have hiff : s%"/" <:+ p.classpath ++ s%"/" ++ t ↔ s%"/" <:+ t := by
            constructor
            · intro hsuf
              exact List.suffix_of_suffix_length_le hsuf ⟨_, rfl⟩ (by
                have := List.length_pos_iff.2 hne
                exact this)
            · exact fun hsuf => hsuf.trans ⟨_, rfl⟩
          split
          · rename_i hsl; exact ⟨hnn, hiff.2 hsl⟩
          · rename_i hsl; exact ⟨hnn, fun e => hsl (hiff.1 e)⟩
        · simp only [bind, Except.bind, hs] at h
          injection h with h
          rw [← h]
          simp only [classOfVal, hs]
          rfl
      | _ => injection h with h; rw [← h]; rfl

mutual
theorem catalogNode_readable (env : Env) (p : Item) (oid : List Nat) {pl : Place}
    (hp : At p.classpath pl) : (n : Node) → AllNodes (fun m => m.name ≠ s%"/") n →
    ((catalogNode env p oid n).res = .ok () ↔
      Intact n ∧ AllNodes (NodeTargetOk env) n ∧ ClassesReadable env pl n)
  | .group n a kids, hn => by
    rw [AllNodes] at hn
    rw [catalogNode, W.bind_ok_iff, Intact, AllNodes, ClassesReadable]
    have h1 := getSubject_node_ok_iff env p (.group n a kids) a oid
    rw [place_classpath_ok_iff hp hn.1] at h1
    have step : ∀ v avs, (getSubject env (some p) (.node (.group n a kids)) a oid).res =
        .ok (v, avs) → At (childParent v avs).classpath (pl.below env a) := by
      intro v avs h
      obtain ⟨e1, _, e3⟩ := getSubject_ok (n := n) rfl h
      obtain ⟨_, hd, _⟩ := mkItem_ok (n := n) rfl e3
      simp only [Prod.mk.injEq] at e1
      obtain ⟨rfl, rfl⟩ := e1
      have := parentFor_classpath (objItem env (some p) (.node (.group n a kids)) n oid) a
      rw [parentFor] at this
      rw [this]
      exact place_below hp hn.1 hd
    constructor
    · rintro ⟨⟨v, avs⟩, h2, h3⟩
      have h4 := (catalogKids_readable env (childParent v avs) oid 0 (step v avs h2) kids hn.2).1 h3
      have h5 := h1.1 ⟨_, h2⟩
      exact ⟨h4.1, ⟨h5.2, h4.2.1⟩, h5.1, h4.2.2⟩
    · rintro ⟨h2, ⟨h3, h4⟩, h5, h6⟩
      obtain ⟨⟨v, avs⟩, h7⟩ := h1.2 ⟨h5, h3⟩
      exact ⟨(v, avs), h7,
        (catalogKids_readable env (childParent v avs) oid 0 (step v avs h7) kids hn.2).2
          ⟨h2, h4, h6⟩⟩
  | .dataset n a d, hn => by
    rw [AllNodes] at hn
    have hi : Intact (.dataset n a d) := by rw [Intact] <;> simp
    have hr : ClassesReadable env pl (.dataset n a d) := by rw [ClassesReadable] <;> simp
    rw [catalogNode, W.bind_ok_iff, AllNodes]
    have h1 := getSubject_node_ok_iff env p (.dataset n a d) a oid
    rw [place_classpath_ok_iff hp hn] at h1
    constructor
    · rintro ⟨r, h2, _⟩
      exact ⟨hi, (h1.1 ⟨_, h2⟩).2, hr⟩
    · rintro ⟨_, h3, _⟩
      obtain ⟨r, h5⟩ := h1.2 ⟨fun _ => trivial, h3⟩
      exact ⟨r, h5, rfl⟩
  | .datatype n a, hn => by
    rw [AllNodes] at hn
    have hi : Intact (.datatype n a) := by rw [Intact] <;> simp
    have hr : ClassesReadable env pl (.datatype n a) := by rw [ClassesReadable] <;> simp
    rw [catalogNode, W.bind_ok_iff, AllNodes]
    have h1 := getSubject_node_ok_iff env p (.datatype n a) a oid
    rw [place_classpath_ok_iff hp hn] at h1
    constructor
    · rintro ⟨r, h2, _⟩
      exact ⟨hi, (h1.1 ⟨_, h2⟩).2, hr⟩
    · rintro ⟨_, h3, _⟩
      obtain ⟨r, h5⟩ := h1.2 ⟨fun _ => trivial, h3⟩
      exact ⟨r, h5, rfl⟩
theorem catalogKids_readable (env : Env) (p : Item) (oid : List Nat) (i : Nat) {pl : Place}
    (hp : At p.classpath pl) : (ks : Kids) → AllKids (fun m => m.name ≠ s%"/") ks →
    ((catalogKids env p oid i ks).res = .ok () ↔
      IntactKids ks ∧ AllKids (NodeTargetOk env) ks ∧ ClassesReadableKids env pl ks)
  | .nil, _ => by simp [catalogKids, IntactKids, AllKids, ClassesReadableKids]
  | .cons l k n rest, hn => by
    rw [AllKids] at hn
    rw [catalogKids, W.bind_ok_iff, IntactKids, AllKids, ClassesReadableKids]
    have h1 := catalogNode_readable env p ((2 * i + 2) :: oid) hp n hn.1
    have h2 := catalogKids_readable env p oid (i + 1) hp rest hn.2
    constructor
    · rintro ⟨⟨⟩, h3, h4⟩
      have h5 := h1.1 h3
      have h6 := h2.1 h4
      exact ⟨⟨h5.1, h6.1⟩, ⟨h5.2.1, h6.2.1⟩, h5.2.2, h6.2.2⟩
    · rintro ⟨⟨h3, h4⟩, ⟨h5, h6⟩, h7, h8⟩
      exact ⟨(), h1.2 ⟨h3, h5, h7⟩, h2.2 ⟨h4, h6, h8⟩⟩
  | .broken l k rest, _ => by
    rw [catalogKids]
    simp [IntactKids]
end

/-- C10, C77: a well named file can be catalogued exactly if no link is broken and all link
targets and the classes of all groups in NeXus content can be read. -/
theorem catalog_completes_iff {env : Env} {f : H5File} (hw : WellNamedFile f) :
    (catalog env f).res = .ok () ↔ FileReadable env f := by
  have hn := wellNamedKids_ne [] f.kids hw.2.2
  have hroot : (∃ r, (getSubject env none (.file f) f.attrs []).res = .ok r) ↔
      targetReadable env (f.attrs.lookup s%"target") := by
    rw [getSubject_eq, ← isNeXusLink_ok_iff env f.attrs s%"/"]
    have hm : mkItem env none (.file f) none [] = (do
        let _ ← (do let _ ← isNeXusLink env f.attrs s%"/"; Except.ok ())
        .ok ⟨⟨[], .file f, s%"/", some s%"/", [], none⟩, []⟩) := rfl
    rw [hm]
    cases isNeXusLink env f.attrs s%"/" <;> simp [bind, Except.bind]
  have step : ∀ v avs, (getSubject env none (.file f) f.attrs []).res = .ok (v, avs) →
      At (childParent v avs).classpath .nexus := by
    intro v avs h
    obtain ⟨e1, _, e3⟩ := getSubject_ok (n := s%"/") rfl h
    simp only [Prod.mk.injEq] at e1
    obtain ⟨rfl, rfl⟩ := e1
    have := parentFor_classpath (objItem env none (.file f) s%"/" []) f.attrs
    rw [parentFor] at this
    rw [this]
    have hcp : (objItem env none (.file f) s%"/" []).classpath = [] := rfl
    rw [hcp]
    exact ⟨by decide, by decide⟩
  rw [catalog, W.bind_ok_iff]
  constructor
  · rintro ⟨⟨v, avs⟩, h1, h2⟩
    have h3 := (catalogKids_readable env (childParent v avs) [] 0 (step v avs h1) f.kids hn).1 h2
    exact ⟨h3.1, hroot.1 ⟨_, h1⟩, h3.2.1, h3.2.2⟩
  · rintro ⟨h1, h2, h3, h4⟩
    obtain ⟨⟨v, avs⟩, h5⟩ := hroot.2 h2
    exact ⟨(v, avs), h5,
      (catalogKids_readable env (childParent v avs) [] 0 (step v avs h5) f.kids hn).2 ⟨h1, h3, h4⟩⟩

/-! ## the whole validation -/

/-- C77: a validation of a well named file runs to the end exactly if the file can be catalogued,
its attributes are of the kinds that the checks expect, its groups can be compared with their
definitions, its declared definitions can be checked and the default plot can be looked for. -/
theorem validation_completes_iff {env : Env} {mgr : Manager} {mins : Dict (Str × Str) Int}
    {f : H5File} (hw : WellNamedFile f) :
    (validateOpen env mgr mins f).res = .ok () ↔ Validatable env mgr f := by
  rw [validateOpen_ok_iff]
  constructor
  · rintro ⟨hc, h⟩
    rw [names_completes_iff hc hw, groups_completes_iff hc hw, definitions_completes_iff hc,
      plot_completes_iff hc hw, catalog_contents hw hc] at h
    exact ⟨(catalog_completes_iff hw).1 hc, h.1.1, h.1.2, h.2.1, h.2.2.1, h.2.2.2⟩
  · rintro ⟨h1, h2, h3, h4, h5, h6⟩
    have hc := (catalog_completes_iff hw).2 h1
    refine ⟨hc, ?_⟩
    rw [names_completes_iff hc hw, groups_completes_iff hc hw, definitions_completes_iff hc,
      plot_completes_iff hc hw, catalog_contents hw hc]
    exact ⟨⟨h2, h3⟩, h4, h5, h6⟩

/-! ## cases -/

theorem niacFile_wellNamed : WellNamedFile niacFile := by
  simp [WellNamedFile, niacFile, dataFile, WellNamedKids, WellNamed, Kids.toList]

/-- A file whose validation runs to the end. -/
example : PlotCheckable sampleEnv niacFile sampleMgr.classes (contents sampleEnv niacFile) :=
  ((validation_completes_iff niacFile_wellNamed).1 niacFile_ok).plot

/-- The signal of a group is named with a dot: the field exists, but it was not catalogued at
the address `/e/d/./x`. -/
def dotFile : H5File := dataFile [] [] [(s%"signal", .str s%"./x")] []

theorem dotFile_wellNamed : WellNamedFile dotFile := by
  simp [WellNamedFile, dotFile, dataFile, WellNamedKids, WellNamed, Kids.toList]

/-- C77: a signal attribute that names an existing field stops the validation, though the file
can be catalogued and all other checks are done. -/
theorem dot_signal_stops :
    (validateOpen sampleEnv sampleMgr [] dotFile).res = .error .keyError ∧
    FileReadable sampleEnv dotFile ∧
    NamesCheckable sampleEnv (contents sampleEnv dotFile) ∧
    GroupsCheckable sampleEnv sampleMgr.classes (contents sampleEnv dotFile) ∧
    DefinitionsCheckable sampleEnv sampleMgr dotFile (contents sampleEnv dotFile) ∧
    ¬ PlotCheckable sampleEnv dotFile sampleMgr.classes (contents sampleEnv dotFile) := by
  have hc : (catalog sampleEnv dotFile).res = .ok () := by rfl
  have h2 : (step2 (mkCtx sampleEnv sampleMgr [] dotFile)).res = .ok () := by rfl
  have h3 : (step3 (mkCtx sampleEnv sampleMgr [] dotFile)).res = .ok () := by rfl
  have h4 : (defaultPlotVerify (mkCtx sampleEnv sampleMgr [] dotFile) []).res ≠ .ok () := by
    have : (defaultPlotVerify (mkCtx sampleEnv sampleMgr [] dotFile) []).res = .error .keyError := by
      rfl
    rw [this]; simp
  rw [← catalog_contents dotFile_wellNamed hc]
  refine ⟨by rfl, (catalog_completes_iff dotFile_wellNamed).1 hc,
    ((names_completes_iff (mgr := sampleMgr) (mins := []) hc dotFile_wellNamed).1 ?_).1,
    (groups_completes_iff hc dotFile_wellNamed).1 h2, (definitions_completes_iff hc).1 h3,
    fun h => h4 ((plot_completes_iff hc dotFile_wellNamed).2 h)⟩
  have : ∀ it ∈ (catalog sampleEnv dotFile).log,
    (nameAndAttribute (mkCtx sampleEnv sampleMgr [] dotFile) [] it).res = .ok () := by
    have e : (W.forEach (catalog sampleEnv dotFile).log (fun it =>
      nameAndAttribute (mkCtx sampleEnv sampleMgr [] dotFile) [] it)).res = .ok () := by rfl
    exact W.forEach_ok_iff.1 e
  exact this

end Punx

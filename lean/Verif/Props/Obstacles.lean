import Verif.Spec.Obstacles
import Verif.Props.Completes5
import Verif.Props.Command2

/-!
# C136: a file that cannot be read stops the validation at the first obstacle
-/

namespace Punx
open Spec

/-- How a run ends that meets these obstacles. -/
def endAt : List PyErr → Except PyErr Unit
  | [] => .ok ()
  | e :: _ => .error e

theorem endAt_append (l m : List PyErr) : endAt (l ++ m) = (endAt l).bind fun _ => endAt m := by
  cases l <;> rfl

theorem ascii_all (xs : List (List UInt8)) :
    (decodeAll asciiDecode xs).isSome ↔ ∀ x ∈ xs, ∀ b ∈ x, b.toNat < 128 := by
  simp only [decodeAll_isSome, asciiDecode_isSome]

theorem isNeXusLink_endAt (env : Env) (attrs : List (Str × Val)) (name : Str) :
    (isNeXusLink env attrs name).map (fun _ => ()) =
      endAt (targetObstacle env (attrs.lookup s%"target")) := by
  rw [isNeXusLink, attrGet]
  cases attrs.lookup s%"target" with
  | none => rfl
  | some v =>
    simp only [Option.getD_some]
    cases v with
    | str s =>
      simp only [targetObstacle, textObstacle, decodeByteString, pyLen, bind, Except.bind]
      cases s <;> rfl
    | bytes b =>
      simp only [targetObstacle, textObstacle, decodeByteString]
      cases env.dec b with
      | none => rfl
      | some s => cases s <;> rfl
    | arrO xs => cases xs <;> rfl
    | arrS xs =>
      cases xs with
      | nil => rfl
      | cons x xs =>
        have hd := ascii_all (x :: xs)
        simp only [targetObstacle, textObstacle, decodeByteString, List.length_cons,
          Nat.zero_lt_succ, if_true, gt_iff_lt]
        cases h : decodeAll asciiDecode (x :: xs) with
        | none =>
          rw [h] at hd
          rw [if_neg (fun k => by simpa using hd.2 k)]
          rfl
        | some ss =>
          rw [h] at hd
          rw [if_pos (hd.1 rfl)]
          have : ss ≠ [] := by
            rintro rfl
            simp only [decodeAll] at h
            split at h <;> cases h
          cases ss with
          | nil => exact absurd rfl this
          | cons => rfl
    | arrNum xs =>
      match xs with
      | [] => rfl
      | [_] => rfl
      | _ :: _ :: _ => rfl
    | list xs => cases xs <;> rfl
    | int => rfl
    | num => rfl
    | none => rfl
    | empty => rfl

theorem decode_endAt (env : Env) (v : Val) :
    (decodeByteString env v).map (fun _ => ()) = endAt (textObstacle env v) := by
  cases v with
  | bytes b =>
    simp only [textObstacle, decodeByteString]
    cases env.dec b <;> rfl
  | arrS xs =>
    cases xs with
    | nil => rfl
    | cons x xs =>
      have hd := ascii_all (x :: xs)
      simp only [textObstacle, decodeByteString, List.length_cons,
        Nat.zero_lt_succ, if_true, gt_iff_lt]
      cases h : decodeAll asciiDecode (x :: xs) with
      | none =>
        rw [h] at hd
        rw [if_neg (fun k => by simpa using hd.2 k)]
        rfl
      | some ss =>
        rw [h] at hd
        rw [if_pos (hd.1 rfl)]
        rfl
  | arrO xs => cases xs <;> rfl
  | _ => rfl

/-- The obstacle in the class of an object. -/
def ownClass (env : Env) (p : Place) : Node → List PyErr
  | .group _ a _ => classObstacle env p a
  | _ => []

/-- The obstacle in the target of an object. -/
def ownTarget (env : Env) : Node → List PyErr
  | .group _ a _ => targetObstacle env (a.lookup s%"target")
  | .dataset _ a _ => targetObstacle env (a.lookup s%"target")
  | .datatype .. => []

/-- The obstacles of an object itself. -/
def ownObstacles (env : Env) (p : Place) (n : Node) : List PyErr := ownClass env p n ++ ownTarget env n

theorem classpath_endAt {env : Env} {p : Item} {pl : Place} (hp : At p.classpath pl)
    {n : Node} (hn : n.name ≠ s%"/") :
    (determineClasspath env (some p) (isHdf5Group (.node n)) (objName n.name) n.attrs).map
      (fun _ => ()) = endAt (ownClass env pl n) := by
  rw [determineClasspath, if_neg (fun h => hn (objName_slash h))]
  cases pl with
  | outside =>
    simp only [if_pos (show p.classpath = nonNeXus from hp)]
    cases n <;> rfl
  | slash =>
    simp only [if_neg hp.1, if_pos (endsWith_iff.2 hp.2)]
    cases n <;> rfl
  | nexus =>
    simp only [if_neg hp.1, if_neg (fun h => hp.2 (endsWith_iff.1 h))]
    cases n with
    | dataset m a d => rfl
    | datatype m a => rfl
    | group m a ks =>
      simp only [isHdf5Group, if_true, Node.attrs]
      have h : endAt (classObstacle env .nexus a) =
          (decodeByteString env ((attrGet a s%"NX_class").getD .none)).map (fun _ => ()) := by
        rw [attrGet, decode_endAt]
        unfold classObstacle
        cases a.lookup s%"NX_class" <;> rfl
      rw [ownClass, h]
      cases decodeByteString env ((attrGet a s%"NX_class").getD .none) with
      | error e => rfl
      | ok v =>
        cases v with
        | str c =>
          simp only [bind, Except.bind]
          split <;> rfl
        | _ => rfl

theorem objectType_endAt (env : Env) (n : Node) :
    objectTypeCheck env (.node n) = endAt (ownTarget env n) := by
  cases n with
  | datatype m a => rfl
  | group m a ks =>
    show (do let _ ← isNeXusLink env a m; Except.ok ()) = _
    rw [ownTarget, ← isNeXusLink_endAt env a m]
    cases isNeXusLink env a m <;> rfl
  | dataset m a d =>
    show (do let _ ← isNeXusLink env a m; Except.ok ()) = _
    rw [ownTarget, ← isNeXusLink_endAt env a m]
    cases isNeXusLink env a m <;> rfl

theorem getSubject_endAt {env : Env} {p : Item} {pl : Place} (hp : At p.classpath pl)
    {n : Node} (hn : n.name ≠ s%"/") (attrs : List (Str × Val)) (oid : List Nat) :
    (getSubject env (some p) (.node n) attrs oid).res.map (fun _ => ()) =
      endAt (ownObstacles env pl n) := by
  have h1 := classpath_endAt (env := env) hp hn
  have h2 := objectType_endAt env n
  have hm : mkItem env (some p) (.node n) none oid = (do
      let (cp, nx) ← determineClasspath env (some p) (isHdf5Group (.node n)) (objName n.name) n.attrs
      objectTypeCheck env (.node n)
      .ok ⟨⟨oid, .node n, objName n.name, some n.name, cp, nx⟩, p.chain⟩) := rfl
  rw [getSubject_eq, hm, ownObstacles, endAt_append, ← h1, ← h2]
  cases determineClasspath env (some p) (isHdf5Group (.node n)) (objName n.name) n.attrs with
  | error e => rfl
  | ok r =>
    simp only [Except.map, Except.bind, bind]
    cases objectTypeCheck env (.node n) <;> rfl

theorem res_bind_endAt {ε α : Type} {x : W ε α} {k : α → W ε Unit} {l m : List PyErr}
    (hx : x.res.map (fun _ => ()) = endAt l) (hk : ∀ a, x.res = .ok a → (k a).res = endAt m) :
    (x >>= k).res = endAt (l ++ m) := by
  rw [endAt_append, ← hx]
  cases h : x.res with
  | error e => rw [W.bind_of_error h]; rfl
  | ok a => rw [W.bind_of_ok h]; exact hk a h

mutual
theorem catalogNode_endAt (env : Env) (p : Item) (oid : List Nat) {pl : Place}
    (hp : At p.classpath pl) : (n : Node) → AllNodes (fun m => m.name ≠ s%"/") n →
    (catalogNode env p oid n).res = endAt (obstacles env pl n)
  | .group n a kids, hn => by
    rw [AllNodes] at hn
    rw [catalogNode, obstacles, ← List.append_assoc]
    refine res_bind_endAt (l := ownObstacles env pl (.group n a kids)) (getSubject_endAt hp hn.1 _ _) ?_
    rintro ⟨v, avs⟩ h
    refine catalogKids_endAt env (childParent v avs) oid 0 ?_ kids hn.2
    obtain ⟨e1, _, e3⟩ := getSubject_ok (n := n) rfl h
    obtain ⟨_, hd, _⟩ := mkItem_ok (n := n) rfl e3
    simp only [Prod.mk.injEq] at e1
    obtain ⟨rfl, rfl⟩ := e1
    have := parentFor_classpath (objItem env (some p) (.node (.group n a kids)) n oid) a
    rw [parentFor] at this
    rw [this]
    exact place_below hp hn.1 hd
  | .dataset n a d, hn => by
    rw [AllNodes] at hn
    rw [catalogNode, obstacles, ← List.append_nil (targetObstacle _ _)]
    exact res_bind_endAt (l := ownObstacles env pl (.dataset n a d)) (m := [])
      (getSubject_endAt hp hn _ _) fun _ _ => rfl
  | .datatype n a, hn => by
    rw [AllNodes] at hn
    rw [catalogNode, obstacles]
    exact res_bind_endAt (l := ownObstacles env pl (.datatype n a)) (m := [])
      (getSubject_endAt hp hn _ _) fun _ _ => rfl
theorem catalogKids_endAt (env : Env) (p : Item) (oid : List Nat) (i : Nat) {pl : Place}
    (hp : At p.classpath pl) : (ks : Kids) → AllKids (fun m => m.name ≠ s%"/") ks →
    (catalogKids env p oid i ks).res = endAt (obstaclesKids env pl ks)
  | .nil, _ => by rw [catalogKids, obstaclesKids]; rfl
  | .cons l k n rest, hn => by
    rw [AllKids] at hn
    rw [catalogKids, obstaclesKids]
    refine res_bind_endAt ?_ fun _ _ => catalogKids_endAt env p oid (i + 1) hp rest hn.2
    rw [catalogNode_endAt env p ((2 * i + 2) :: oid) hp n hn.1]
    cases endAt (obstacles env pl n) <;> rfl
  | .broken l k rest, _ => by rw [catalogKids, obstaclesKids]; rfl
end

theorem catalog_endAt {env : Env} {f : H5File} (hw : WellNamedFile f) :
    (catalog env f).res = endAt (obstaclesFile env f) := by
  have hn := wellNamedKids_ne [] f.kids hw.2.2
  rw [catalog, obstaclesFile]
  refine res_bind_endAt ?_ ?_
  · rw [getSubject_eq, ← isNeXusLink_endAt env f.attrs s%"/"]
    have hm : mkItem env none (.file f) none [] = (do
        let _ ← (do let _ ← isNeXusLink env f.attrs s%"/"; Except.ok ())
        .ok ⟨⟨[], .file f, s%"/", some s%"/", [], none⟩, []⟩) := rfl
    rw [hm]
    cases isNeXusLink env f.attrs s%"/" <;> rfl
  · rintro ⟨v, avs⟩ h
    refine catalogKids_endAt env (childParent v avs) [] 0 ?_ f.kids hn
    obtain ⟨e1, _, e3⟩ := getSubject_ok (n := s%"/") rfl h
    simp only [Prod.mk.injEq] at e1
    obtain ⟨rfl, rfl⟩ := e1
    have := parentFor_classpath (objItem env none (.file f) s%"/" []) f.attrs
    rw [parentFor] at this
    rw [this]
    have hcp : (objItem env none (.file f) s%"/" []).classpath = [] := rfl
    rw [hcp]
    exact ⟨by decide, by decide⟩

/-- **C136.** The objects of a file are read up to the first obstacle, whose exception ends the
reading. -/
theorem reading_stops_at {env : Env} {f : H5File} (hw : WellNamedFile f) (e : PyErr) :
    (catalog env f).res = .error e ↔ (obstaclesFile env f).head? = some e := by
  rw [catalog_endAt hw]
  cases obstaclesFile env f <;> simp [endAt]

/-- **C136.** If there is no obstacle, and only then, the whole file is read. -/
theorem reading_completes_iff {env : Env} {f : H5File} (hw : WellNamedFile f) :
    (catalog env f).res = .ok () ↔ obstaclesFile env f = [] := by
  rw [catalog_endAt hw]
  cases obstaclesFile env f <;> simp [endAt]

/-- **C136.** A validation of a file with an obstacle ends with the exception of the first one, before
anything is found. -/
theorem obstacle_ends_validation {env : Env} {mgr : Manager} {mins : Dict (Str × Str) Int}
    {f : H5File} (hw : WellNamedFile f) {e : PyErr} (h : (obstaclesFile env f).head? = some e) :
    (validateOpen env mgr mins f).res = .error e ∧ (validateOpen env mgr mins f).log = [] := by
  have hc := (reading_stops_at hw e).2 h
  rw [validateOpen, hc]
  exact ⟨rfl, rfl⟩

theorem textObstacle_kind {env : Env} {v : Val} {e : PyErr} (h : e ∈ textObstacle env v) :
    e = .unicodeDecodeError := by
  unfold textObstacle at h
  split at h
  · split at h
    · cases h
    · simpa using h
  · split at h
    · cases h
    · simpa using h
  · cases h

theorem targetObstacle_kind {env : Env} {v : Option Val} {e : PyErr} (h : e ∈ targetObstacle env v) :
    e = .typeError ∨ e = .valueError ∨ e = .unicodeDecodeError := by
  unfold targetObstacle at h
  split at h
  case h_1 => cases h
  case h_8 => simp_all
  case h_9 => exact .inr (.inr (textObstacle_kind h))
  all_goals simp_all

mutual
theorem obstacles_kind (env : Env) {e : PyErr} : (p : Place) → (n : Node) → e ∈ obstacles env p n →
    e = .keyError ∨ e = .typeError ∨ e = .valueError ∨ e = .unicodeDecodeError
  | p, .group _ a kids, h => by
    rw [obstacles, List.mem_append, List.mem_append] at h
    rcases h with h | h | h
    · unfold classObstacle at h
      split at h
      · exact .inr (.inr (.inr (textObstacle_kind h)))
      · cases h
    · exact .inr (targetObstacle_kind h)
    · exact obstaclesKids_kind env _ kids h
  | p, .dataset _ a _, h => by
    rw [obstacles] at h
    exact .inr (targetObstacle_kind h)
  | p, .datatype .., h => by rw [obstacles] at h; cases h
theorem obstaclesKids_kind (env : Env) {e : PyErr} : (p : Place) → (k : Kids) →
    e ∈ obstaclesKids env p k →
    e = .keyError ∨ e = .typeError ∨ e = .valueError ∨ e = .unicodeDecodeError
  | p, .nil, h => by rw [obstaclesKids] at h; cases h
  | p, .cons _ _ n rest, h => by
    rw [obstaclesKids, List.mem_append] at h
    exact h.elim (obstacles_kind env p n) (obstaclesKids_kind env p rest)
  | p, .broken _ _ rest, h => by
    rw [obstaclesKids, List.mem_cons] at h
    exact h.elim .inl (obstaclesKids_kind env p rest)
end

theorem obstaclesFile_kind {env : Env} {f : H5File} {e : PyErr} (h : e ∈ obstaclesFile env f) :
    e = .keyError ∨ e = .typeError ∨ e = .valueError ∨ e = .unicodeDecodeError := by
  rw [obstaclesFile, List.mem_append] at h
  exact h.elim (fun h => .inr (targetObstacle_kind h)) (obstaclesKids_kind env _ _)

theorem validateAndReport_error {w : World} {mgr : Manager} {infile : Str} {f : H5File} {e : PyErr}
    (choices : List Str) (hf : w.files infile = .hdf5 f)
    (hr : (validateOpen w.env mgr [] f).res = .error e) (h1 : e ≠ .fileNotFound)
    (h2 : e ≠ .hdf5OpenError) :
    (validateAndReport w mgr infile choices).log = [.openFile infile] ∧
    (validateAndReport w mgr infile choices).res = .error e := by
  unfold validateAndReport validate
  simp only [hf, VState.init, hr]
  cases e <;> exact ⟨rfl, rfl⟩

/-- **C136.** If `punx validate` reaches a data file with an obstacle, it ends with the exception of
the first one: the definitions were read and the file was opened, and nothing is printed. -/
theorem obstacle_ends_command {lib : Lib} {pattern : Str → Pat} {w : Disks} {env : Env}
    {files : Str → FileState} {upper : Char → Str} {abspath : Str → Str} {sets : Dict Str FileSet}
    (hs : allFileSets w.source w.user = .ok sets) (hw : ∀ kv ∈ sets, WellDescribed kv.2)
    {a : ValidateArgs} (hd : ∀ ref f, a.fileSet = some ref → Dict.get? sets ref = some f →
      HasDefinitions (w.dir f.path))
    (ha : PlainAscii a.report) {mgr : Manager} {file : H5File}
    (hR : CommandReaches lib pattern w files sets a mgr file) (hn : WellNamedFile file) {e : PyErr}
    (he : (obstaclesFile env file).head? = some e) :
    (funcValidate (commandWorld lib pattern w env files upper abspath) a).res = .error e ∧
    ∃ ref, a.fileSet = some ref ∧
      (funcValidate (commandWorld lib pattern w env files upper abspath) a).log =
        [.loadDefinitions ref, .openFile a.infile] := by
  obtain ⟨hopt, r1, ⟨ref, f, r2, hf, h3⟩, hfile⟩ := hR
  have hreq : Requested (commandWorld lib pattern w env files upper abspath) a ref :=
    ⟨r1, r2, sets, hs, f, Dict.mem_of_get? hf⟩
  have hload : (commandWorld lib pattern w env files upper abspath).load ref = .ok mgr :=
    (command_manager hs hw hf (hd _ _ r2 hf)).2 h3
  have hknown := (report_option_refused (other := upper) ha).2 hopt
  rcases funcValidate_cases (commandWorld lib pattern w env files upper abspath) a with
    ⟨h, _, _⟩ | ⟨r, hr, hno, _, _⟩ | ⟨r, m, hr, hm, hk, hl, hres⟩
  · exact absurd hreq (h ref)
  · have : r = ref := by simpa using hr.2.1.symm.trans r2
    subst this
    exact absurd hknown (hno mgr hload)
  · have : r = ref := by simpa using hr.2.1.symm.trans r2
    subst this
    rw [hl, hres]
    have hk := obstaclesFile_kind (List.mem_of_mem_head? he)
    obtain ⟨k1, k2⟩ := validateAndReport_error (w := commandWorld lib pattern w env files upper abspath)
      (mgr := m) (reportChoices upper a.report).1 hfile (obstacle_ends_validation hn he).1
      (by rcases hk with rfl | rfl | rfl | rfl <;> simp)
      (by rcases hk with rfl | rfl | rfl | rfl <;> simp)
    refine ⟨k2, r, r2, ?_⟩
    rw [← k1]
    rfl

/-! ## cases -/

/-- A file with a group that has a number as target, before a group with a link that leads nowhere.
The class of a group below a group without a class cannot be decoded. -/
def blockedFile (target : List (Str × Val)) : H5File where
  attrs := []
  kids := .cons s%"a" .hard (.group s%"/a" [] (.cons s%"b" .hard
      (.group s%"/a/b" ((s%"NX_class", .bytes [200]) :: target) .nil) .nil))
    (.cons s%"e" .hard (.group s%"/e" [(s%"NX_class", .str s%"NXentry")]
      (.broken s%"x" (.soft s%"/y") .nil)) .nil)

theorem blockedFile_wellNamed : WellNamedFile (blockedFile [(s%"target", .int 1)]) ∧
    WellNamedFile (blockedFile []) := by
  constructor <;> simp [WellNamedFile, blockedFile, WellNamedKids, WellNamed, Kids.toList]

/-- The first obstacle counts; a class outside of NeXus content is none. -/
theorem blocked_case :
    obstaclesFile sampleEnv (blockedFile [(s%"target", .int 1)]) = [.typeError, .keyError] ∧
    (validateOpen sampleEnv sampleMgr [] (blockedFile [(s%"target", .int 1)])).res =
      .error .typeError ∧
    (validateOpen sampleEnv sampleMgr [] (blockedFile [])).res = .error .keyError := by
  have h : obstaclesFile sampleEnv (blockedFile [(s%"target", .int 1)]) = [.typeError, .keyError] := by
    decide +kernel
  have h' : obstaclesFile sampleEnv (blockedFile []) = [.keyError] := by decide +kernel
  refine ⟨h, (obstacle_ends_validation blockedFile_wellNamed.1 ?_).1,
    (obstacle_ends_validation blockedFile_wellNamed.2 ?_).1⟩
  · rw [h]; rfl
  · rw [h']; rfl

end Punx

import Verif.Props.Cli
import Verif.Props.Sample
import Verif.Spec.Exceptions

/-!
# Which exceptions end a validation
-/

namespace Punx
open Spec

/-- Only the usual kinds of exceptions. -/
structure Kinds {α : Type} (x : Except PyErr α) : Prop where
  of : ∀ e, x = .error e → Uncaught e

/-- The same for a computation with effects. -/
structure WKinds {ε α : Type} (w : W ε α) : Prop where
  of : ∀ e, w.res = .error e → Uncaught e

namespace Kinds
variable {α β : Type}

theorem ok (a : α) : Kinds (.ok a) := ⟨fun _ h => by cases h⟩
theorem pure (a : α) : Kinds (Pure.pure a : Except PyErr α) := ⟨fun _ h => by cases h⟩
theorem err {e : PyErr} (h : Uncaught e) : Kinds (.error e : Except PyErr α) :=
  ⟨by rintro _ ⟨⟩; exact h⟩
theorem bind {x : Except PyErr α} {f : α → Except PyErr β} (hx : Kinds x) (hf : ∀ a, Kinds (f a)) :
    Kinds (x >>= f) := by
  refine ⟨fun e h => ?_⟩
  cases x with
  | error e' => exact hx.of e (by simpa [Bind.bind, Except.bind] using h)
  | ok a => exact (hf a).of e h
end Kinds

namespace WKinds
variable {ε α β : Type}

theorem pure (a : α) : WKinds (Pure.pure a : W ε α) := ⟨fun _ h => by cases h⟩
theorem pure' (a : α) : WKinds (W.pure a : W ε α) := ⟨fun _ h => by cases h⟩
theorem tell (a : ε) : WKinds (W.tell a) := ⟨fun _ h => by cases h⟩
theorem record (it : Item) (k : Str) (s : Status) (c : Str) : WKinds (record it k s c) := tell _
theorem fail {e : PyErr} (h : Uncaught e) : WKinds (W.fail e : W ε α) := ⟨(Kinds.err h).of⟩
theorem lift {x : Except PyErr α} (h : Kinds x) : WKinds (W.lift x : W ε α) := ⟨h.of⟩
theorem bind' {x : W ε α} {f : α → W ε β} (hx : WKinds x) (hf : ∀ a, WKinds (f a)) :
    WKinds (W.bind x f) := by
  refine ⟨fun e h => ?_⟩
  unfold W.bind at h
  cases hr : x.res with
  | error e' =>
    simp only [hr] at h
    cases h
    exact hx.of _ hr
  | ok a =>
    simp only [hr] at h
    exact (hf a).of e h
theorem bind {x : W ε α} {f : α → W ε β} (hx : WKinds x) (hf : ∀ a, WKinds (f a)) :
    WKinds (x >>= f) := bind' hx hf
theorem forEach {xs : List α} {f : α → W ε Unit} (hf : ∀ a, WKinds (f a)) :
    WKinds (W.forEach xs f) := by
  induction xs with
  | nil => exact pure' ()
  | cons x xs ih => rw [W.forEach]; exact bind' (hf x) fun _ => ih
end WKinds

/-- One step of the search for exceptions. -/
macro "kinds1" : tactic => `(tactic| with_reducible first
  | assumption
  | exact Kinds.ok _
  | exact Kinds.pure _
  | exact Kinds.err (by decide)
  | exact WKinds.pure _
  | exact WKinds.pure' _
  | exact WKinds.record ..
  | exact WKinds.tell _
  | exact WKinds.fail (by decide)
  | apply WKinds.lift
  | apply WKinds.forEach
  | apply WKinds.bind
  | apply WKinds.bind'
  | apply Kinds.bind
  | intro _
  | dsimp only
  | split)

macro "kinds" : tactic => `(tactic| repeat' kinds1)

theorem decode_kinds (env : Env) (v : Val) : Kinds (decodeByteString env v) := by
  unfold decodeByteString; kinds

theorem matchKeyVal_kinds (ctx : Ctx) (v : Val) : Kinds (matchKeyVal ctx v) := by
  unfold matchKeyVal
  refine Kinds.bind (decode_kinds _ _) fun a => ?_
  kinds

theorem isNeXusLink_kinds (env : Env) (attrs : List (Str × Val)) (n : Str) :
    Kinds (isNeXusLink env attrs n) := by
  unfold isNeXusLink
  refine Kinds.bind (decode_kinds _ _) fun a => ?_
  kinds

theorem determineClasspath_kinds (env : Env) (p : Option Item) (b : Bool) (n : Str)
    (attrs : List (Str × Val)) : Kinds (determineClasspath env p b n attrs) := by
  have := decode_kinds env
  unfold determineClasspath
  kinds
  exact this _

theorem objectTypeCheck_kinds (env : Env) (o : H5Obj) : Kinds (objectTypeCheck env o) := by
  have := isNeXusLink_kinds env
  unfold objectTypeCheck
  kinds
  all_goals exact this _ _

theorem mkItem_kinds (env : Env) (p : Option Item) (o : H5Obj) (n : Option Str) (i : List Nat) :
    Kinds (mkItem env p o n i) := by
  have h1 := determineClasspath_kinds env
  have h2 := objectTypeCheck_kinds env
  unfold mkItem
  kinds
  all_goals first
    | exact h1 _ _ _ _
    | exact h2 _

theorem attrItems_kinds (env : Env) (v : Item) : (as : List (Str × Val)) → (j : Nat) →
    WKinds (attrItems env v j as)
  | [], _ => by rw [attrItems]; kinds
  | (k, a) :: rest, j => by
    have h1 := mkItem_kinds env (some v) (.val a) (some k) ((2 * j + 1) :: v.oid)
    have h2 := attrItems_kinds env v rest (j + 1)
    rw [attrItems]; kinds

theorem getSubject_kinds (env : Env) (p : Option Item) (o : H5Obj) (as : List (Str × Val))
    (i : List Nat) : WKinds (getSubject env p o as i) := by
  have h1 := mkItem_kinds env p o none i
  unfold getSubject
  kinds
  exact attrItems_kinds _ _ _ _

mutual
theorem catalogNode_kinds (env : Env) : (n : Node) → (p : Item) → (i : List Nat) →
    WKinds (catalogNode env p i n)
  | .group n a kids, p, i => by
    rw [catalogNode]
    exact WKinds.bind (getSubject_kinds ..) fun x => catalogKids_kinds env kids _ _ _
  | .dataset n a d, p, i => by
    rw [catalogNode]
    exact WKinds.bind (getSubject_kinds ..) fun x => WKinds.pure _
  | .datatype n a, p, i => by
    rw [catalogNode]
    exact WKinds.bind (getSubject_kinds ..) fun x => WKinds.pure _
theorem catalogKids_kinds (env : Env) : (ks : Kids) → (p : Item) → (i : List Nat) → (j : Nat) →
    WKinds (catalogKids env p i j ks)
  | .nil, p, i, j => by rw [catalogKids]; exact WKinds.pure _
  | .cons _ _ n rest, p, i, j => by
    rw [catalogKids]
    exact WKinds.bind (catalogNode_kinds env n _ _) fun _ => catalogKids_kinds env rest _ _ _
  | .broken _ _ _, p, i, j => by rw [catalogKids]; exact WKinds.fail (by decide)
end

theorem catalog_kinds (env : Env) (f : H5File) : WKinds (catalog env f) := by
  unfold catalog
  exact WKinds.bind (getSubject_kinds ..) fun x => catalogKids_kinds env _ _ _ _

/-! ## the checks -/

theorem isNeXusLinkTarget_kinds (env : Env) (it : Item) : Kinds (isNeXusLinkTarget env it) := by
  have := decode_kinds env
  unfold isNeXusLinkTarget valNe
  kinds
  all_goals exact this _

theorem handleNXClass_kinds (ctx : Ctx) (it : Item) : WKinds (handleNXClass ctx it) := by
  have := decode_kinds ctx.env
  unfold handleNXClass
  kinds
  all_goals exact this _

theorem itemNameVerify_kinds (ctx : Ctx) (seen : List Str) (it : Item) :
    WKinds (itemNameVerify ctx seen it) := by
  have h1 := handleNXClass_kinds ctx it
  have h2 := isNeXusLinkTarget_kinds ctx.env
  unfold itemNameVerify handleAnyAttribute handleGroupsAndFields
  kinds
  all_goals exact h2 _

theorem h5get_kinds (f : H5File) (g : Node) (p : Str) : Kinds (h5get f g p) := by
  unfold h5get; kinds

theorem objGet_kinds (ctx : Ctx) (o : H5Obj) (p : Str) : Kinds (objGet ctx o p) := by
  unfold objGet; kinds
  exact h5get_kinds _ _ _

theorem axisCheck_kinds (ctx : Ctx) (it : Item) (par : H5Obj) (v : Val) :
    WKinds (axisCheck ctx it par v) := by
  unfold axisCheck; kinds
  all_goals first | exact matchKeyVal_kinds _ _ | exact objGet_kinds _ _ _

theorem pyInt_kinds (env : Env) (v : Val) : Kinds (pyInt env v) := by
  unfold pyInt; kinds

theorem targetLoop_kinds (ctx : Ctx) (it : Item) : (ps : List Str) → (a : Str) →
    WKinds (targetLoop ctx it a ps)
  | [], _ => by rw [targetLoop]; exact WKinds.pure _
  | p :: ps, a => by
    have := targetLoop_kinds ctx it ps (a ++ s%"/" ++ p)
    unfold targetLoop
    kinds

theorem attributeVerify_kinds (ctx : Ctx) (it : Item) : WKinds (attributeVerify ctx it) := by
  have h1 := decode_kinds ctx.env
  unfold attributeVerify nxclassHandler targetHandler signalHandler axesHandler genericHandler
  kinds
  all_goals first
    | exact h1 _
    | exact pyInt_kinds _ _
    | exact targetLoop_kinds _ _ _ _
    | exact axisCheck_kinds _ _ _ _

theorem usedAsBaseClass_kinds (mgr : Manager) (c : Str) : Kinds (usedAsBaseClass mgr c) := by
  unfold usedAsBaseClass; kinds

theorem addrStr_kinds (it : Item) : Kinds (addrStr it) := by unfold addrStr; kinds

theorem objContains_kinds (ctx : Ctx) (o : H5Obj) (v : Val) : Kinds (objContains ctx o v) := by
  unfold objContains; kinds

theorem groupMinOccurs_kinds (env : Env) (g : GroupSpec) : Kinds (groupMinOccurs env g) := by
  unfold groupMinOccurs; kinds

theorem groupAttrCheck_kinds (ctx : Ctx) (it : Item) (cls : ClassDef) (kv : Str × Val) :
    WKinds (groupAttrCheck ctx it cls kv) := by
  unfold groupAttrCheck enumCheck childExists
  kinds
  all_goals first
    | exact decode_kinds _ _
    | exact addrStr_kinds _
    | exact objContains_kinds _ _ _

theorem validateGroup_kinds (ctx : Ctx) (it : Item) : WKinds (validateGroup ctx it) := by
  unfold validateGroup nxClassAttribute groupAttributes groupChildren baseItems childCheck
    baseFieldCheck baseGroupCheck
  kinds
  all_goals first
    | exact usedAsBaseClass_kinds _ _
    | exact groupAttrCheck_kinds _ _ _ _
    | exact addrStr_kinds _
    | exact objContains_kinds _ _ _
    | exact groupMinOccurs_kinds _ _

theorem firstOfArray_kinds (v : Val) : Kinds (firstOfArray v) := by
  unfold firstOfArray; kinds

theorem readValue_kinds (o : Option Node) : Kinds (readValue o) := by
  unfold readValue; kinds

theorem appDefName_kinds (ctx : Ctx) (it : Item) : Kinds (appDefName ctx it) := by
  unfold appDefName
  split
  · kinds
  · split
    · exact Kinds.err ((h5get_kinds _ _ _).of _ (by assumption))
    · kinds
    · kinds
      all_goals first
        | exact decode_kinds _ _
        | exact firstOfArray_kinds _
        | exact readValue_kinds _

theorem enumLoop_kinds (env : Env) (o : Option Node) : (es : List (Option Str)) →
    Kinds (enumLoop env o es)
  | [] => by rw [enumLoop]; exact Kinds.ok _
  | e :: es => by
    have := enumLoop_kinds env o es
    unfold enumLoop
    kinds
    all_goals first
      | exact decode_kinds _ _
      | exact firstOfArray_kinds _
      | exact readValue_kinds _

theorem fieldRequired_kinds (mgr : Manager) : Kinds (fieldRequired mgr) := by
  unfold fieldRequired; kinds

theorem joinEnums_kinds (l : List (Option Str)) : Kinds (joinEnums l) := by
  unfold joinEnums; kinds

theorem appField_kinds (ctx : Ctx) (it : Item) (g : Node) (a : Str) (i : Nat)
    (fld : Str × FieldSpec) : WKinds (appField ctx it g a i fld) := by
  unfold appField
  kinds
  all_goals first
    | exact h5get_kinds _ _ _
    | exact mkItem_kinds _ _ _ _ _
    | exact enumLoop_kinds _ _ _
    | exact fieldRequired_kinds _
    | exact joinEnums_kinds _

theorem appFields_kinds (ctx : Ctx) (it : Item) (g : Node) (a : Str) : (l : List (Str × FieldSpec)) →
    (i : Nat) → WKinds (appFields ctx it g a i l)
  | [], _ => by rw [appFields]; exact WKinds.pure _
  | f :: l, i => by
    rw [appFields]
    exact WKinds.bind (appField_kinds ..) fun _ => appFields_kinds ctx it g a l _

theorem appDefVerify_kinds (ctx : Ctx) (it : Item) : WKinds (appDefVerify ctx it) := by
  unfold appDefVerify
  kinds
  all_goals first
    | exact appDefName_kinds _ _
    | exact appFields_kinds _ _ _ _ _ _

theorem addressAt_kinds (ctx : Ctx) (k : Str) : Kinds (addressAt ctx k) := by
  unfold addressAt; kinds

theorem buildH5Address_kinds (env : Env) (it : Item) (v : Val) : Kinds (buildH5Address env it v) := by
  unfold buildH5Address
  kinds
  all_goals exact decode_kinds _ _

theorem attrPointsAt_kinds (ctx : Ctx) (it : Item) (k : Str) (t : Option Str) :
    Kinds (attrPointsAt ctx it k t) := by
  unfold attrPointsAt
  kinds
  all_goals first
    | exact buildH5Address_kinds _ _ _
    | exact objContains_kinds _ _ _

theorem entryAndData_kinds (it : Item) : Kinds (entryAndData it) := by
  unfold entryAndData; kinds

theorem v3Step_kinds (ctx : Ctx) (it : Item) : Kinds (v3Step ctx it) := by
  unfold v3Step
  kinds
  all_goals first
    | exact entryAndData_kinds _
    | exact addressAt_kinds _ _
    | exact buildH5Address_kinds _ _ _
    | exact attrPointsAt_kinds _ _ _ _

theorem v3Loop_kinds (ctx : Ctx) : (l : List Item) → (h : Option Str) → (n : List Item) →
    WKinds (v3Loop ctx h n l)
  | [], _, _ => by rw [v3Loop]; exact WKinds.pure _
  | it :: l, h, n => by
    have h1 := v3Loop_kinds ctx l
    have h2 := v3Step_kinds ctx it
    unfold v3Loop
    kinds
    all_goals exact h1 _ _

theorem defaultPlotV3_kinds (ctx : Ctx) : WKinds (defaultPlotV3 ctx) := by
  unfold defaultPlotV3
  kinds
  all_goals exact v3Loop_kinds _ _ _ _

theorem v2Item_kinds (ctx : Ctx) (r : Review) (it : Item) : WKinds (v2Item ctx r it) := by
  unfold v2Item; kinds

theorem v2Items_kinds (ctx : Ctx) : (l : List Item) → (r : Review) → WKinds (v2Items ctx r l)
  | [], _ => by rw [v2Items]; exact WKinds.pure _
  | it :: l, r => by
    rw [v2Items]
    exact WKinds.bind (v2Item_kinds ..) fun _ => v2Items_kinds ctx l _

theorem v2Scan_kinds (ctx : Ctx) : (l : Dict Str (List Item)) → (r : Review) →
    WKinds (v2Scan ctx r l)
  | [], _ => by rw [v2Scan]; exact WKinds.pure _
  | (k, is) :: l, r => by
    have h := v2Scan_kinds ctx l
    unfold v2Scan
    kinds
    all_goals first
      | exact v2Items_kinds _ _ _
      | exact h _

theorem v2Pick_kinds : (l : Review) → (a : Option Str) → WKinds (v2Pick a l)
  | [], _ => by rw [v2Pick]; exact WKinds.pure _
  | (k, is) :: l, a => by
    have h := v2Pick_kinds l
    unfold v2Pick
    kinds
    all_goals exact h _

theorem defaultPlotVerify_kinds (ctx : Ctx) (mins : Dict (Str × Str) Int) :
    WKinds (defaultPlotVerify ctx mins) := by
  have h1 := defaultPlotV3_kinds ctx
  unfold defaultPlotVerify findDefaultPlot defaultPlotV2 defaultPlotRequired
  kinds
  all_goals first
    | exact addressAt_kinds _ _
    | exact v2Scan_kinds _ _ _
    | exact v2Pick_kinds _ _

theorem step1_kinds (ctx : Ctx) : (l : List Item) → (d : List Eff) → WKinds (step1 ctx d l)
  | [], _ => by rw [step1]; exact WKinds.pure _
  | it :: l, d => by
    rw [step1]
    refine WKinds.bind' ?_ fun _ => step1_kinds ctx l _
    unfold nameAndAttribute
    exact WKinds.bind (itemNameVerify_kinds ..) fun _ => attributeVerify_kinds _ _

theorem runChecks_kinds (ctx : Ctx) : WKinds (runChecks ctx) := by
  unfold runChecks
  refine WKinds.bind' ?_ fun _ => defaultPlotVerify_kinds _ _
  refine WKinds.bind (step1_kinds ..) fun _ => ?_
  unfold step2 step3
  kinds
  all_goals first
    | exact validateGroup_kinds _ _
    | exact appDefVerify_kinds _ _

/-! ## C137 -/

/-- **C137.** A validation that does not run to its end stops with one of these exceptions, whatever
the file and the definitions are. -/
theorem exceptions_of_validation {env : Env} {mgr : Manager} {mins : Dict (Str × Str) Int} {f : H5File}
    {e : PyErr} (h : (validateOpen env mgr mins f).res = .error e) : Uncaught e := by
  have : WKinds (validateOpen env mgr mins f) := by
    unfold validateOpen
    split
    · exact WKinds.fail ((catalog_kinds env f).of _ (by assumption))
    · exact runChecks_kinds _
  exact this.of e h

/-- A field below `/e` with this attribute. -/
def badAttrFile (k : Str) (v : Val) : H5File := entryFile (fieldIn s%"x" [(k, v)] .nil)

/-- `/e` with this `definition`. -/
def definedFile (c : Str) : H5File :=
  entryFile (.cons s%"definition" .hard (.dataset s%"/e/definition" [] (.ofVal (.str c))) .nil)

/-- Each of the exceptions ends the validation of some file. -/
theorem each_exception :
    (validateOpen sampleEnv sampleMgr [] (entryFile (.broken s%"x" (.soft s%"/y") .nil))).res =
      .error .keyError ∧
    (validateOpen sampleEnv sampleMgr [] (badAttrFile s%"target" (.arrNum [s%"1", s%"2"]))).res =
      .error .valueError ∧
    (validateOpen sampleEnv sampleMgr [] (badAttrFile s%"target" (.int 1))).res =
      .error .typeError ∧
    (validateOpen sampleEnv sampleMgr [] (badAttrFile s%"axes" (.str s%"y"))).res =
      .error .attributeError ∧
    (validateOpen sampleEnv sampleMgr [] (definedFile s%"NXdata")).res = .error .indexError ∧
    (validateOpen sampleEnv { sampleMgr with classPats := some [] } []
      (badAttrFile s%"units" (.str s%"mm"))).res = .error .nameError ∧
    (validateOpen sampleEnv sampleMgr [] (badAttrFile s%"target" (.bytes [200]))).res =
      .error .unicodeDecodeError := by
  refine ⟨?_, ?_, ?_, ?_, ?_, ?_, ?_⟩ <;> rfl

/-- **C137.** The list is exact: these are the exceptions that end the validation of some file. -/
theorem exceptions_exact (e : PyErr) :
    Uncaught e ↔ ∃ env mgr f, (validateOpen env mgr [] f).res = .error e := by
  constructor
  · obtain ⟨h1, h2, h3, h4, h5, h6, h7⟩ := each_exception
    rintro (rfl | rfl | rfl | rfl | rfl | rfl | rfl)
    exacts [⟨_, _, _, h1⟩, ⟨_, _, _, h2⟩, ⟨_, _, _, h3⟩, ⟨_, _, _, h4⟩, ⟨_, _, _, h5⟩, ⟨_, _, _, h6⟩,
      ⟨_, _, _, h7⟩]
  · rintro ⟨_, _, _, h⟩
    exact exceptions_of_validation h

/-- How the part of `punx validate` that looks at the data file ends. -/
theorem validateAndReport_end (w : World) (mgr : Manager) (infile : Str) (choices : List Str) :
    ((validateAndReport w mgr infile choices).res = .error (.systemExit 1) ∧
      ∀ f, w.files infile ≠ .hdf5 f) ∨
    ∃ f, w.files infile = .hdf5 f ∧
      (validateAndReport w mgr infile choices).res = (validateOpen w.env mgr [] f).res := by
  rcases validateAndReport_cases w mgr infile choices with
    ⟨f, rows, sm, sc, hf, hr, -, -, h⟩ | ⟨-, -, ⟨hn, h⟩ | ⟨f, e, hf, hr, -⟩⟩
  · exact .inr ⟨f, hf, h.trans hr.symm⟩
  · exact .inl ⟨h, hn⟩
  · refine .inr ⟨f, hf, ?_⟩
    have hk := exceptions_of_validation hr
    rw [hr]
    unfold validateAndReport validate
    simp only [hf, VState.init, hr]
    rcases hk with rfl | rfl | rfl | rfl | rfl | rfl | rfl <;> rfl

/-- **C137.** When `punx validate` stops with its own message, given that the file sets are listed and
that reading definitions does not exit: the file is not a definition, and the file set is not
known, or the definitions are read and the report option has an unknown word or there is no such
HDF5 file.  The contents of an HDF5 file are never the reason. -/
theorem exit_message_iff {w : World} {a : ValidateArgs} {sets : Dict Str FileSet}
    (hs : w.sets = .ok sets) (hl : ∀ ref, w.load ref ≠ .error (.systemExit 1))
    (ha : PlainAscii a.report) :
    (funcValidate w a).res = .error (.systemExit 1) ↔
      ¬ s%".nxdl.xml" <:+ a.infile ∧
      ((∀ ref s, a.fileSet = some ref → (ref, s) ∉ sets) ∨
       ∃ ref mgr, a.fileSet = some ref ∧ (∃ s, (ref, s) ∈ sets) ∧ w.load ref = .ok mgr ∧
        (¬ AllKnown a.report ∨ ∀ f, w.files a.infile ≠ .hdf5 f)) := by
  have hknown := report_option_refused (other := w.upper) ha
  unfold funcValidate
  rw [hs]
  dsimp only
  by_cases hx : s%".nxdl.xml" <:+ a.infile
  · rw [if_pos (endsWith_iff.2 hx)]
    simp [hx, W.fail]
  · rw [if_neg (fun h => hx (endsWith_iff.1 h))]
    simp only [hx, not_false_eq_true, true_and]
    cases hset : a.fileSet with
    | none => simp [exitMessage, W.fail]
    | some ref =>
      dsimp only
      by_cases hin : ∃ s, (ref, s) ∈ sets
      · have hc : (Dict.keys sets).contains ref = true := by
          obtain ⟨s, hs⟩ := hin
          simp only [Dict.keys, List.contains_eq_mem, decide_eq_true_eq, List.mem_map]
          exact ⟨_, hs, rfl⟩
        have hno : ¬ ∀ r s, ref = r → (r, s) ∉ sets := fun h =>
          hin.elim fun s hs => h ref s rfl hs
        rw [if_neg (by rw [hc]; simp)]
        simp only [Option.some.injEq, hno, false_or, exists_and_left, exists_eq_left', hin, true_and]
        cases hload : w.load ref with
        | error e =>
          simp only [W.bind, W.tell, W.fail, reduceCtorEq, false_and, exists_false, iff_false]
          intro h
          cases h
          exact hl ref hload
        | ok mgr =>
          simp only [Except.ok.injEq, exists_eq_left', W.bind, W.tell]
          by_cases hk : AllKnown a.report
          · have hz := hknown.2 hk
            simp only [hz, List.length_nil, Nat.lt_irrefl, if_false, hk, not_true_eq_false, false_or]
            rcases validateAndReport_end w mgr a.infile (reportChoices w.upper a.report).1 with
              ⟨h, hn⟩ | ⟨f, hf, h⟩
            · simp only [h, hn, ne_eq, not_false_eq_true, implies_true]
            · rw [h]
              constructor
              · intro he
                exact absurd (exceptions_of_validation he) (by decide)
              · intro hn
                exact absurd hf (hn f)
          · have hz : 0 < (reportChoices w.upper a.report).2.length :=
              List.length_pos_iff.2 fun h => hk (hknown.1 h)
            simp [hz, hk, exitMessage, W.fail]
      · have hc : (Dict.keys sets).contains ref = false := by
          simp only [Dict.keys, List.contains_eq_mem, decide_eq_false_iff_not, List.mem_map, not_exists,
            not_and]
          rintro ⟨k, s⟩ hks rfl
          exact hin ⟨s, hks⟩
        rw [if_pos (by rw [hc]; rfl)]
        simp only [exitMessage, W.fail, true_iff]
        left
        rintro r s ⟨⟩ h
        exact hin ⟨s, h⟩

/-- **C137.** How `punx validate` ends, given that the file sets are listed and the definitions can be
read: with its report, with its own message, or with one of the exceptions of the checks. -/
theorem validate_command_ends {w : World} {a : ValidateArgs} {sets : Dict Str FileSet}
    (hs : w.sets = .ok sets) (hl : ∀ ref, a.fileSet = some ref → ∃ mgr, w.load ref = .ok mgr)
    {e : PyErr} (h : (funcValidate w a).res = .error e) : e = .systemExit 1 ∨ Uncaught e := by
  unfold funcValidate at h
  rw [hs] at h
  dsimp only at h
  split at h
  · cases h; right; decide
  · split at h
    · cases h; exact .inl rfl
    · rename_i ref hset
      split at h
      · cases h; exact .inl rfl
      · obtain ⟨mgr, hm⟩ := hl ref hset
        rw [hm] at h
        simp only [W.bind, W.tell] at h
        split at h
        · cases h; exact .inl rfl
        · rcases validateAndReport_end w mgr a.infile (reportChoices w.upper a.report).1 with
            ⟨h', -⟩ | ⟨f, -, h'⟩
          · rw [h'] at h; cases h; exact .inl rfl
          · rw [h'] at h; exact .inr (exceptions_of_validation h)

/-! ## cases -/

/-- The file set of the example. -/
def smallSet : FileSet := ⟨s%"/c/main", s%"user", s%"/c/main/info", some s%"main", none, none, none⟩

/-- A world with one file set and the files of `each_exception`. -/
def smallWorld : World where
  env := sampleEnv
  sets := .ok [(s%"main", smallSet)]
  load := fun _ => .ok sampleMgr
  files := fun n =>
    if n = s%"a.h5" then .hdf5 (badAttrFile s%"axes" (.str s%"y"))
    else if n = s%"a.txt" then .notHdf5 else .missing
  upper := fun c => [c]
  abspath := id

theorem words_ascii : PlainAscii s%"NOTE,OK" := by unfold PlainAscii; decide

/-- A text file: the message. -/
theorem text_file_case :
    (funcValidate smallWorld ⟨s%"a.txt", some s%"main", s%"NOTE,OK"⟩).res = .error (.systemExit 1) :=
  (exit_message_iff rfl (fun _ h => by cases h) words_ascii).2
    ⟨by decide, .inr ⟨s%"main", sampleMgr, rfl, ⟨smallSet, by simp⟩, rfl, .inr fun _ h => by cases h⟩⟩

/-- A file whose checks stop: not the message, but an exception. -/
theorem stopped_file_case :
    (funcValidate smallWorld ⟨s%"a.h5", some s%"main", s%"NOTE,OK"⟩).res = .error .attributeError ∧
    (funcValidate smallWorld ⟨s%"a.h5", some s%"v3", s%"NOTE,OK"⟩).res = .error (.systemExit 1) :=
  ⟨rfl, rfl⟩

end Punx

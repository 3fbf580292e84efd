import Verif.Model.DefaultPlot

/-!
# `punx/validate.py`: the validation run and the validator object
-/

namespace Punx

/-- Keys of `v_item.validations` given the effects so far. -/
def seenKeys (oid : List Nat) (effs : List Eff) : List Str :=
  effs.filterMap (fun
    | .found o k _ => if o = oid then some k else none
    | _ => none)

/-- `punx/validate.py:243-244, 300-308`: name and attribute check of one item. -/
def nameAndAttribute (ctx : Ctx) (seen : List Str) (it : Item) : W Eff Unit := do
  itemNameVerify ctx seen it
  attributeVerify ctx it

/-- `punx/validate.py:240-244`, step 1, over the items in the order of the class path
table.  `done` are the effects so far. -/
def step1 (ctx : Ctx) (done : List Eff) : List Item → W Eff Unit
  | [] => pure ()
  | it :: rest =>
    let w := nameAndAttribute ctx (seenKeys it.oid done) it
    W.bind w (fun _ => step1 ctx (done ++ w.log) rest)

/-- `punx/validate.py:246-251`, step 2. -/
def step2 (ctx : Ctx) : W Eff Unit :=
  W.forEach (Dict.values ctx.addresses) (fun it =>
    if isHdf5Group it.obj || isHdf5File it.obj then validateGroup ctx it else pure ())

/-- Class paths of step 3, `punx/validate.py:254`. -/
def definitionPaths : List Str :=
  [s%"/NXentry/definition", s%"/NXentry/NXsubentry/definition"]

/-- `punx/validate.py:253-257`, step 3. -/
def step3 (ctx : Ctx) : W Eff Unit :=
  W.forEach definitionPaths (fun k =>
    W.forEach ((Dict.get? ctx.classpaths k).getD []) (fun it =>
      match it.parent with
      | some p => appDefVerify ctx p
      | none => W.fail .attributeError))

/-- `group_object.minOccurs` after the effects. -/
def applyMins (mins : Dict (Str × Str) Int) (effs : List Eff) : Dict (Str × Str) Int :=
  effs.foldl (fun d e => match e with
    | .setMin c g n => Dict.set d (c, g) n
    | .found .. => d) mins

/-- `punx/validate.py:240-260`: the four steps. -/
def runChecks (ctx : Ctx) : W Eff Unit :=
  let w : W Eff Unit := do
    step1 ctx [] (Dict.values ctx.classpaths).flatten
    step2 ctx
    step3 ctx
  W.bind w (fun _ => defaultPlotVerify ctx (applyMins ctx.minOccurs w.log))

/-- The checking context for a file that has been catalogued. -/
def mkCtx (env : Env) (mgr : Manager) (mins : Dict (Str × Str) Int) (f : H5File) : Ctx :=
  let items := (catalog env f).log
  ⟨env, mgr, f, addressTable items, classpathTable items, mins⟩

/-- `punx/validate.py:237-260`: catalogue and checks of an open file. -/
def validateOpen (env : Env) (mgr : Manager) (mins : Dict (Str × Str) Int) (f : H5File) :
    W Eff Unit :=
  match (catalog env f).res with
  | .error e => W.fail e
  | .ok () => runChecks (mkCtx env mgr mins f)

/-- Findings among the effects: `validator.validations`. -/
def findings (effs : List Eff) : List Finding :=
  effs.filterMap (fun
    | .found _ _ f => some f
    | .setMin .. => none)

/-- `punx/validate.py:117-124`: `v_item.validations` of the item with this identity after the
effects: `v_item.validations[key] = f` for each finding of the item. -/
def itemRecord (oid : List Nat) (effs : List Eff) : Dict Str Finding :=
  effs.foldl (fun d e => match e with
    | .found o k f => if o = oid then Dict.set d k f else d
    | .setMin .. => d) []

/-- What the validator does with data files: `h5py.File(name, "r")` that succeeds
(`punx/validate.py:232`), and `self.h5.close()` (line 114). -/
inductive FileEvent
  | opened (name : Str)
  | closed
  deriving DecidableEq, Repr

/-- The validator object (`punx/validate.py:96-107`).  The definitions (`mgr`) are a
parameter; what the validator changes in them is `minOccurs`. -/
structure VState where
  /-- `self.h5` -/
  h5 : Option H5File
  /-- `self.fname`, not set by the constructor -/
  fname : Option Str
  /-- what was recorded since the last `__init_local__` -/
  effs : List Eff
  /-- items of the catalogue (`self.addresses`, `self.classpaths`) -/
  items : List Item
  /-- `minOccurs` of group objects of the definitions -/
  minOccurs : Dict (Str × Str) Int
  /-- data files opened and closed so far -/
  trace : List FileEvent

/-- `punx/validate.py:96-107`: a new validator with newly read definitions. -/
def VState.init : VState := ⟨none, none, [], [], [], []⟩

/-- `validator.validations` -/
def VState.validations (s : VState) : List Finding := findings s.effs

/-- `punx/validate.py:109-115`: `close`. -/
def VState.close (s : VState) : VState :=
  { s with
    h5 := none
    trace := match s.h5 with
      | none => s.trace
      | some _ => s.trace ++ [.closed] }

/-- `punx/validate.py:221-260`: `validate(fname)`.  The new state is also valid when
an exception was raised. -/
def validate (env : Env) (mgr : Manager) (fs : Str → FileState) (fname : Str) (s : VState) :
    VState × Except PyErr Unit :=
  match fs fname with
  | .missing => (s, .error .fileNotFound)
  | .notHdf5 => ({ s.close with fname := some fname }, .error .hdf5OpenError)
  | .hdf5 f =>
    let w := validateOpen env mgr s.minOccurs f
    (⟨some f, some fname, w.log, (catalog env f).log, applyMins s.minOccurs w.log,
      s.close.trace ++ [.opened fname]⟩, w.res)

end Punx

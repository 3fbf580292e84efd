import Verif.Spec.Completes

/-!
# Specification of the report as a whole

Which lines (address, test, verdict) the report on a file has, and which faults of a file are
reported as ERROR.  Written over a list of items, like the specification of the default plot; in the
theorems it is the list of the contents of the file (`Spec.contents`).
-/

namespace Punx.Spec

/-- The NeXus object `o` of the file, at `a`, has the attribute `k` with the value `v`. -/
structure CarriesAttr (items : List Item) (o : Item) (a k : Str) (v : Val) : Prop where
  mem : o ∈ items
  nexus : o.classpath ≠ s%"non-NeXus content"
  addr : o.addr = some a
  attr : ∃ attrs, o.obj.attrs? = some attrs ∧ (k, v) ∈ attrs

/-- The object has a `target` attribute that is not its own address. -/
def Linked (env : Env) (o : Item) : Prop :=
  ∃ attrs a, o.obj.attrs? = some attrs ∧ o.addr = some a ∧ TargetElsewhere env attrs a

/-- The text is accepted as the name of a class. -/
def ClassNameOk (env : Env) (mgr : Manager) (s : Str) : Prop :=
  ∃ pats, mgr.classPats = some pats ∧ ∃ p ∈ pats, PatAccepts env.word p s

/-- The text is an absolute path whose components are names and whose leading parts exist. -/
def TargetOk (env : Env) (mgr : Manager) (f : H5File) (t : Str) : Prop :=
  ∃ u, t = '/' :: u ∧ PathOk env mgr f [] (split '/' u) ∧ h5contains f f.root t = true

/-- The text names a definition that can be used as class of a group. -/
def UsableName (classes : Dict Str ClassDef) (s : Str) : Prop :=
  ∃ d, Dict.get? classes s = some d ∧ UsableClass d

/-- Lines on names. -/
inductive NameLine (env : Env) (mgr : Manager) (items : List Item) : Line → Prop
  | object {it : Item} {n : Node} {st : Status} : it ∈ items → it.obj = .node n →
      '@' ∉ it.classpath → NameRule it.classpath it.name (RelaxedBy env.word mgr it.name) st →
      NameLine env mgr items (it.addr, s%"validItemName", st)
  | member {it p : Item} {n : Node} {st : Status} : it ∈ items → it.obj = .node n →
      '@' ∈ it.classpath → it.parent = some p → ¬ Linked env p →
      AttrNameRule env.word mgr it.name st →
      NameLine env mgr items (it.addr, s%"validItemName", st)
  | attr {o : Item} {a k : Str} {v : Val} {st : Status} : CarriesAttr items o a k v →
      ¬ NamesClass k → ¬ Linked env o → AttrNameRule env.word mgr k st →
      NameLine env mgr items (some (a ++ '@' :: k), s%"validItemName", st)
  | cls {o : Item} {a k s : Str} {v : Val} : CarriesAttr items o a k v → NamesClass k →
      TextOf env v s →
      NameLine env mgr items
        (some (a ++ '@' :: k), s%"validItemName", okIf (ClassNameOk env mgr s) .error)

/-- Lines on the values of attributes. -/
inductive ValueLine (env : Env) (mgr : Manager) (f : H5File) (items : List Item) : Line → Prop
  | cls {o : Item} {a s : Str} {v : Val} : CarriesAttr items o a s%"NX_class" v → TextOf env v s →
      ValueLine env mgr f items
        (some (a ++ s%"@NX_class"), s%"attribute value", okIf (UsableName mgr.classes s) .error)
  | target {o : Item} {a t : Str} {v : Val} : CarriesAttr items o a s%"target" v → TextOf env v t →
      ValueLine env mgr f items
        (some (a ++ s%"@target"), s%"attribute value", okIf (TargetOk env mgr f t) .error)
  | signalName {o : Item} {a s : Str} {v : Val} {st : Status} : CarriesAttr items o a s%"signal" v →
      isHdf5Group o.obj = true → TextOf env v s →
      ValueNameRule s (RelaxedBy env.word mgr s) st →
      ValueLine env mgr f items (some (a ++ s%"@signal"), s%"valid name @signal=" ++ s, st)
  | signal {o : Item} {a s : Str} {v : Val} {g : Node} : CarriesAttr items o a s%"signal" v →
      o.obj = .node g → isHdf5Group o.obj = true → TextOf env v s →
      ValueLine env mgr f items
        (some (a ++ s%"@signal"), s%"attribute value", okIf (h5contains f g s = true) .error)
  | fieldSignal {o : Item} {a : Str} {v : Val} : CarriesAttr items o a s%"signal" v →
      isHdf5Dataset o.obj = true →
      ValueLine env mgr f items
        (some (a ++ s%"@signal"), s%"attribute value", okIf (MarksOne env v) .note)
  | otherSignal {o : Item} {a : Str} {v : Val} : CarriesAttr items o a s%"signal" v →
      isHdf5Dataset o.obj = false → isHdf5Group o.obj = false →
      ValueLine env mgr f items (some (a ++ s%"@signal"), s%"attribute value", .todo)
  | axisName {o : Item} {a n : Str} {v : Val} {names : List Str} {st : Status} :
      CarriesAttr items o a s%"axes" v → AxesOf env v names → n ∈ names →
      ValueNameRule n (RelaxedBy env.word mgr n) st →
      ValueLine env mgr f items
        (some (a ++ s%"@axes"), s%"valid name @axes['" ++ n ++ s%"']", st)
  | axis {o : Item} {a n : Str} {v : Val} {names : List Str} {g : Node} :
      CarriesAttr items o a s%"axes" v → AxesOf env v names → n ∈ names → o.obj.asGroup = some g →
      ValueLine env mgr f items (some (a ++ s%"@axes"), s%"axes['" ++ n ++ s%"'] exists",
        okIf (∃ m, h5get f g n = .ok (some m)) .error)
  | axes {o : Item} {a : Str} {v : Val} : CarriesAttr items o a s%"axes" v →
      ValueLine env mgr f items (some (a ++ s%"@axes"), s%"attribute value", .todo)
  | other {o : Item} {a k : Str} {v : Val} : CarriesAttr items o a k v →
      k ∉ [s%"NX_class", s%"target", s%"signal", s%"axes"] →
      ValueLine env mgr f items (some (a ++ '@' :: k), s%"attribute value", .todo)

/-- Lines on groups. -/
inductive GroupLine (env : Env) (mgr : Manager) (f : H5File) (items : List Item) : Line → Prop
  | nonNexus {it : Item} {g : Node} : it ∈ items → it.obj.asGroup = some g →
      it.classpath = s%"non-NeXus content" →
      GroupLine env mgr f items (some g.name, s%"NeXus_group", .ok)
  | nexus {it : Item} {g : Node} {c : Str} {l : Line} : it ∈ items → it.obj.asGroup = some g →
      it.classpath ≠ s%"non-NeXus content" → GroupClass env it.classpath g.attrs c →
      l ∈ groupLines env f mgr.classes g g.name it.classpath c →
      GroupLine env mgr f items l

/-- The group `g` of the file declares the application definition `name`. -/
def DeclaredBy (env : Env) (f : H5File) (items : List Item) (g : Node) (name : Str) : Prop :=
  ∃ it ∈ items, IsDefinition it ∧ ∃ p, it.parent = some p ∧ p.obj.asGroup = some g ∧
    Declares env f g name

/-- The definition declared by the group `g` has the field `fld` in its entry. -/
def RequiredIn (env : Env) (mgr : Manager) (f : H5File) (items : List Item) (g : Node)
    (fld : Str × FieldSpec) : Prop :=
  ∃ name ad gname entry more, DeclaredBy env f items g name ∧
    Dict.get? mgr.classes name = some ad ∧ ad.groups = (gname, entry) :: more ∧
    fld ∈ entry.fields

/-- Lines on application definitions. -/
inductive DefinitionLine (env : Env) (mgr : Manager) (f : H5File) (items : List Item) :
    Line → Prop
  | known {g : Node} {name : Str} : DeclaredBy env f items g name →
      DefinitionLine env mgr f items
        (some g.name, s%"known NXDL", okIf (∃ ad, Dict.get? mgr.classes name = some ad) .error)
  | category {g : Node} {name : Str} {ad : ClassDef} : DeclaredBy env f items g name →
      Dict.get? mgr.classes name = some ad →
      DefinitionLine env mgr f items (some g.name, s%"NeXus application definition",
        okIf (ad.category = .applications ∨ ad.category = .contributed) .error)
  | todo {g : Node} {name : Str} {ad : ClassDef} : DeclaredBy env f items g name →
      Dict.get? mgr.classes name = some ad →
      DefinitionLine env mgr f items (some g.name, s%"NeXus application definition", .todo)
  | there {g n : Node} {fld : Str × FieldSpec} : RequiredIn env mgr f items g fld →
      h5get f g fld.1 = .ok (some n) →
      DefinitionLine env mgr f items (some n.name, s%"NXDL field", .ok)
  | missing {g : Node} {fld : Str × FieldSpec} : RequiredIn env mgr f items g fld →
      h5get f g fld.1 = .ok none →
      DefinitionLine env mgr f items (some (g.name ++ s%"@None"), s%"NXDL field", .error)
  | value {g n : Node} {fld : Str × FieldSpec} : RequiredIn env mgr f items g fld →
      h5get f g fld.1 = .ok (some n) → fld.2.enums ≠ [] →
      DefinitionLine env mgr f items (some n.name, s%"NXDL field enumerations",
        okIf (HasOneOf env n fld.2.enums) .error)

/-- Lines on the default plot. -/
inductive PlotLine (env : Env) (mgr : Manager) (mins : Dict (Str × Str) Int) (f : H5File)
    (items : List Item) : Line → Prop
  | search {l : Line} : l ∈ searchLines env f items → PlotLine env mgr mins f items l
  | verdict {st : Status} {c : Str} : PlotVerdict env mgr.classes mins f items items st c →
      PlotLine env mgr mins f items (some s%"/", s%"NeXus default plot", st)

/-- The lines that the report on a file has. -/
def Expected (env : Env) (mgr : Manager) (mins : Dict (Str × Str) Int) (f : H5File)
    (items : List Item) (l : Line) : Prop :=
  NameLine env mgr items l ∨ ValueLine env mgr f items l ∨ GroupLine env mgr f items l ∨
  DefinitionLine env mgr f items l ∨ PlotLine env mgr mins f items l

/-! ## faults -/

/-- What is wrong with a file, with the address and the test under which it is reported. -/
inductive Fault (env : Env) (mgr : Manager) (mins : Dict (Str × Str) Int) (f : H5File)
    (items : List Item) : Option Str → Str → Prop
  /-- the name of a group or field, outside of collections -/
  | objectName {it : Item} {n : Node} : it ∈ items → it.obj = .node n → '@' ∉ it.classpath →
      ¬ s%"NXcollection" <:+: it.classpath → ¬ NameOk env mgr it.name →
      Fault env mgr mins f items it.addr s%"validItemName"
  /-- the name of a group or field whose class path has an `@` (in a name or a class) -/
  | memberName {it p : Item} {n : Node} : it ∈ items → it.obj = .node n → '@' ∈ it.classpath →
      it.parent = some p → ¬ Linked env p → ¬ NameOk env mgr it.name →
      Fault env mgr mins f items it.addr s%"validItemName"
  /-- the name of an attribute -/
  | attrName {o : Item} {a k : Str} {v : Val} : CarriesAttr items o a k v → ¬ NamesClass k →
      ¬ Linked env o → ¬ NameOk env mgr k →
      Fault env mgr mins f items (some (a ++ '@' :: k)) s%"validItemName"
  /-- the name of a class -/
  | className {o : Item} {a k s : Str} {v : Val} : CarriesAttr items o a k v → NamesClass k →
      TextOf env v s → ¬ ClassNameOk env mgr s →
      Fault env mgr mins f items (some (a ++ '@' :: k)) s%"validItemName"
  /-- the class is not among the definitions, or it cannot be used as a class -/
  | unusable {o : Item} {a s : Str} {v : Val} : CarriesAttr items o a s%"NX_class" v →
      TextOf env v s → ¬ UsableName mgr.classes s →
      Fault env mgr mins f items (some (a ++ s%"@NX_class")) s%"attribute value"
  /-- the target is no path to something in the file -/
  | target {o : Item} {a t : Str} {v : Val} : CarriesAttr items o a s%"target" v → TextOf env v t →
      ¬ TargetOk env mgr f t →
      Fault env mgr mins f items (some (a ++ s%"@target")) s%"attribute value"
  /-- the signal of a group is no name -/
  | signalName {o : Item} {a s : Str} {v : Val} : CarriesAttr items o a s%"signal" v →
      isHdf5Group o.obj = true → TextOf env v s → ¬ NameOk env mgr s →
      Fault env mgr mins f items (some (a ++ s%"@signal")) (s%"valid name @signal=" ++ s)
  /-- the signal of a group is not in the group -/
  | signal {o : Item} {a s : Str} {v : Val} {g : Node} : CarriesAttr items o a s%"signal" v →
      o.obj = .node g → isHdf5Group o.obj = true → TextOf env v s → h5contains f g s = false →
      Fault env mgr mins f items (some (a ++ s%"@signal")) s%"attribute value"
  /-- an axis is no name -/
  | axisName {o : Item} {a n : Str} {v : Val} {names : List Str} :
      CarriesAttr items o a s%"axes" v → AxesOf env v names → n ∈ names → ¬ NameOk env mgr n →
      Fault env mgr mins f items (some (a ++ s%"@axes")) (s%"valid name @axes['" ++ n ++ s%"']")
  /-- an axis is not in the group -/
  | axis {o : Item} {a n : Str} {v : Val} {names : List Str} {g : Node} :
      CarriesAttr items o a s%"axes" v → AxesOf env v names → n ∈ names → o.obj.asGroup = some g →
      (¬ ∃ m, h5get f g n = .ok (some m)) →
      Fault env mgr mins f items (some (a ++ s%"@axes")) (s%"axes['" ++ n ++ s%"'] exists")
  /-- the class of a group is not among the definitions -/
  | unknownClass {it : Item} {g : Node} {c t : Str} : it ∈ items → it.obj.asGroup = some g →
      it.classpath ≠ s%"non-NeXus content" → GroupClass env it.classpath g.attrs c →
      Dict.get? mgr.classes c = none → t = s%"known NXDL" ∨ t = s%"NeXus base class" →
      Fault env mgr mins f items (some g.name) t
  /-- the class of a group is an application definition -/
  | application {it : Item} {g : Node} {c : Str} {d : ClassDef} : it ∈ items →
      it.obj.asGroup = some g → it.classpath ≠ s%"non-NeXus content" →
      GroupClass env it.classpath g.attrs c → Dict.get? mgr.classes c = some d →
      d.category = .applications →
      Fault env mgr mins f items (some g.name) s%"NeXus base class"
  /-- an attribute does not have one of the values of its definition -/
  | enumeration {it : Item} {g : Node} {c k : Str} {v : Val} {d : ClassDef} {spec : AttrSpec} :
      it ∈ items → it.obj.asGroup = some g → it.classpath ≠ s%"non-NeXus content" →
      GroupClass env it.classpath g.attrs c → Dict.get? mgr.classes c = some d →
      (k, v) ∈ g.attrs → Dict.get? d.attrs k = some spec → spec.enums ≠ [] →
      ¬ Enumerated env spec.enums v →
      Fault env mgr mins f items (some (g.name ++ '@' :: k)) s%"attribute value enumeration"
  /-- an attribute does not name something in the group -/
  | pointer {it : Item} {g : Node} {c k : Str} {v : Val} {d : ClassDef} {spec : AttrSpec} :
      it ∈ items → it.obj.asGroup = some g → it.classpath ≠ s%"non-NeXus content" →
      GroupClass env it.classpath g.attrs c → Dict.get? mgr.classes c = some d →
      (k, v) ∈ g.attrs → Dict.get? d.attrs k = some spec → PointsInside it.classpath k →
      ¬ NamesMember env f g v →
      Fault env mgr mins f items (some (g.name ++ '@' :: k)) (s%"value of @" ++ k)
  /-- the declared definition is not among the definitions -/
  | unknownDefinition {g : Node} {name : Str} : DeclaredBy env f items g name →
      Dict.get? mgr.classes name = none →
      Fault env mgr mins f items (some g.name) s%"known NXDL"
  /-- the declared definition is a base class -/
  | noApplication {g : Node} {name : Str} {ad : ClassDef} : DeclaredBy env f items g name →
      Dict.get? mgr.classes name = some ad → ad.category = .baseClasses →
      Fault env mgr mins f items (some g.name) s%"NeXus application definition"
  /-- a field of the definition is missing -/
  | missingField {g : Node} {fld : Str × FieldSpec} : RequiredIn env mgr f items g fld →
      h5get f g fld.1 = .ok none →
      Fault env mgr mins f items (some (g.name ++ s%"@None")) s%"NXDL field"
  /-- a field of the definition does not have one of the values of the definition -/
  | wrongValue {g n : Node} {fld : Str × FieldSpec} : RequiredIn env mgr f items g fld →
      h5get f g fld.1 = .ok (some n) → fld.2.enums ≠ [] → ¬ HasOneOf env n fld.2.enums →
      Fault env mgr mins f items (some n.name) s%"NXDL field enumerations"
  /-- the signal of an NXdata group in an NXentry group does not exist; reported for the first -/
  | plotSignal {before after : List Item} {it : Item} : dataSignals items = before ++ it :: after →
      (∀ i ∈ before, ¬ SignalMissing env f items i) → SignalMissing env f items it →
      Fault env mgr mins f items it.addr s%"NeXus default plot v3, NXdata@signal"
  /-- several fields of a group are marked as the signal, and there is no plot by attributes -/
  | plotMarks {g : Option Str} : (¬ ∃ a, AttributePlot env f items a) →
      1 < (marksIn env items g).length →
      Fault env mgr mins f items g s%"NeXus default plot v2, multiple @signal=1"
  /-- there is no default plot, but one is required -/
  | noPlot : (¬ ∃ a, AttributePlot env f items a) → (¬ ∃ a, SignalPlot env items a) →
      PlotRequired env mgr.classes mins items →
      Fault env mgr mins f items (some s%"/") s%"NeXus default plot"

end Punx.Spec

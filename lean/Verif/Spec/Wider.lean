import Verif.Spec.Expected

/-!
# Definitions that allow more than others
-/

namespace Punx.Spec

/-- A contributed definition with a single group and nothing else; groups cannot be compared with
it. -/
def OnlyGroup (d : ClassDef) : Prop :=
  d.category = .contributed ∧ d.fields = [] ∧ d.links = [] ∧ d.groups.length = 1

/-- The values of a field are free, or all values that were allowed still are. -/
def WiderField (x x' : FieldSpec) : Prop :=
  x'.enums = [] ∨ (x.enums ≠ [] ∧ ∀ e ∈ x.enums, e ∈ x'.enums)

/-- The definition `d'` allows what `d` allows: it may have more fields, groups, links, symbols and
attributes, but new attributes have no enumerated values and do not point to members of the group,
and the fields of its first group (those that a file needs which declares the definition) are also
in the first group of `d`. -/
structure Wider (env : Env) (d d' : ClassDef) : Prop where
  usable : UsableClass d → UsableClass d'
  application : d'.category = .applications → d.category = .applications
  base : d'.category = .baseClasses → d.category = .baseClasses
  values : ∀ k s', Dict.get? d'.attrs k = some s' → s'.enums ≠ [] →
    ∃ s, Dict.get? d.attrs k = some s ∧ s.enums ≠ [] ∧ ∀ e ∈ s.enums, e ∈ s'.enums
  pointers : ∀ k, k = s%"signal" ∨ k = s%"default" ∨ k = s%"target" →
    Dict.get? d.attrs k = none → Dict.get? d'.attrs k = none
  only : OnlyGroup d' → OnlyGroup d
  occurs : (∀ g ∈ d.groups, ∃ n, MinOccursIs env g.2 n) → ∀ g ∈ d'.groups, ∃ n, MinOccursIs env g.2 n
  groups : d.groups ≠ [] → d'.groups ≠ []
  required : ∀ g e more g' e' more', d.groups = (g, e) :: more → d'.groups = (g', e') :: more' →
    ∀ fld' ∈ e'.fields, ∃ fld ∈ e.fields, fld.1 = fld'.1 ∧ WiderField fld.2 fld'.2

/-- The group `data` of NXentry is not required, if it was not. -/
def WiderPlot (env : Env) (d d' : ClassDef) : Prop :=
  ∀ spec, Dict.get? d.groups s%"data" = some spec → ∃ spec', Dict.get? d'.groups s%"data" = some spec' ∧
    ∀ n', MinOccursIs env spec' n' → 0 < n' → ∃ n, MinOccursIs env spec n ∧ 0 < n

/-- The set of definitions `m'` allows what `m` allows. -/
structure WiderSet (env : Env) (m m' : Manager) : Prop where
  names : ∀ s, NameOk env m s → NameOk env m' s
  classNames : ∀ s, ClassNameOk env m s → ClassNameOk env m' s
  pattern : HasClassPattern m → HasClassPattern m'
  occurs : m.fieldMinOccursIsOne ≠ none → m'.fieldMinOccursIsOne ≠ none
  classes : ∀ c d, Dict.get? m.classes c = some d →
    ∃ d', Dict.get? m'.classes c = some d' ∧ Wider env d d'
  entry : ∀ d d', Dict.get? m.classes s%"NXentry" = some d →
    Dict.get? m'.classes s%"NXentry" = some d' → WiderPlot env d d'

end Punx.Spec

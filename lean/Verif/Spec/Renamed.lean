import Verif.Spec.Expected

/-!
# Renamed groups and fields

Two files that differ in the names of groups and fields, and in the paths that mention them.
-/

namespace Punx.Spec

/-- A name that a member of a group can have.  (`@` separates objects and attributes in the addresses
of the report.) -/
structure Label (l : Str) : Prop where
  empty : l ≠ []
  dot : l ≠ s%"."
  slash : '/' ∉ l
  at_ : '@' ∉ l

/-- The components of two paths, from the objects `n` and `n'` on, lead along corresponding members.
What follows and is written in the same way must not use the names that were exchanged. -/
inductive Corr (Free : Str → Prop) : Node → Node → List Str → List Str → Prop
  | fixed {n n' : Node} {cs : List Str} : (∀ c ∈ cs, ¬ Free c) → Corr Free n n' cs cs
  | step {s s' c c' : Str} {a a' : List (Str × Val)} {ks ks' : Kids} {m m' : Node} {i : Nat}
      {cs cs' : List Str} : ks.toList[i]? = some (c, some m) → ks'.toList[i]? = some (c', some m') →
      Corr Free m m' cs cs' → Corr Free (.group s a ks) (.group s' a' ks') (c :: cs) (c' :: cs')

/-- The same place in both files, as an absolute path. -/
def Moved (Free : Str → Prop) (f f' : H5File) (t t' : Str) : Prop :=
  ∃ u u', t = '/' :: u ∧ t' = '/' :: u' ∧ Corr Free f.root f'.root (split '/' u) (split '/' u')

/-- The values are the same and no text, or they are texts that say the same. -/
def SamePointer (env : Env) (C : Str → Str → Prop) (v v' : Val) : Prop :=
  (v = v' ∧ ∀ s, ¬ TextOf env v s) ∨ ∃ s s', TextOf env v s ∧ TextOf env v' s' ∧ C s s'

/-- The values are the same and list no axes, or the axes that they list correspond to each other, one
by one. -/
def SameAxes (env : Env) (C : Str → Str → Prop) (v v' : Val) : Prop :=
  (v = v' ∧ ∀ names, ¬ AxesOf env v names) ∨
    ∃ names names', AxesOf env v names ∧ AxesOf env v' names' ∧ List.Forall₂ C names names'

/-- `s` and `s'` are written in the same way and do not use the names that were exchanged, or they are
the names of corresponding members of the groups `n` and `n'`. -/
def NamesPart (Free : Str → Prop) (n n' : Node) (s s' : Str) : Prop :=
  (s = s' ∧ ∀ c ∈ split '/' s, ¬ Free c) ∨
    ∃ (t t' : Str) (a a' : List (Str × Val)) (ks ks' : Kids) (i : Nat) (m m' : Node),
      n = .group t a ks ∧ n' = .group t' a' ks' ∧
      ks.toList[i]? = some (s, some m) ∧ ks'.toList[i]? = some (s', some m')

/-- The values of the attribute `k` of the objects `n` and `n'`.  They are the same.  But `target`
and `default` may be paths to the same place, and `signal` and `axes` may be names of corresponding
members.  (The attribute `signal` of a field is a number and not exchanged.) -/
structure ReAttr (env : Env) (Free : Str → Prop) (f f' : H5File) (n n' : Node) (k : Str)
    (v v' : Val) : Prop where
  target : k = s%"target" → SamePointer env
    (fun t t' => Moved Free f f' t t' ∨ t = t' ∧ ¬ s%"/" <+: t) v v'
  default : k = s%"default" → SamePointer env
    (fun s s' => ('@' ∉ s ∧ '@' ∉ s') ∧ Corr Free n n' (split '/' s) (split '/' s')) v v'
  signal : k = s%"signal" → SamePointer env
    (fun s s' => ('@' ∉ s ∧ '@' ∉ s') ∧ NamesPart Free n n' s s') v v'
  mark : k = s%"signal" → ((∀ t a ks, n ≠ .group t a ks) ∨ ∀ t a ks, n' ≠ .group t a ks) → v = v'
  axes : k = s%"axes" → SameAxes env (NamesPart Free n n') v v'
  other : k ∉ [s%"target", s%"default", s%"signal", s%"axes"] → v = v'

/-- Attributes with the same names and corresponding values. -/
def ReAttrs (env : Env) (Free : Str → Prop) (f f' : H5File) (n n' : Node)
    (a a' : List (Str × Val)) : Prop :=
  List.Forall₂ (fun x y => x.1 = y.1 ∧ ReAttr env Free f f' n n' x.1 x.2 y.2) a a'

mutual
/-- The objects differ in the names of members, and in the paths that mention them. -/
inductive ReNode (env : Env) (Free : Str → Prop) (f f' : H5File) : Node → Node → Prop
  | dataset {s s' : Str} {a a' : List (Str × Val)} {d : DataInfo} :
      ReAttrs env Free f f' (.dataset s a d) (.dataset s' a' d) a a' →
      ReNode env Free f f' (.dataset s a d) (.dataset s' a' d)
  | datatype {s s' : Str} {a a' : List (Str × Val)} :
      ReAttrs env Free f f' (.datatype s a) (.datatype s' a') a a' →
      ReNode env Free f f' (.datatype s a) (.datatype s' a')
  | group {s s' : Str} {a a' : List (Str × Val)} {ks ks' : Kids} :
      ReAttrs env Free f f' (.group s a ks) (.group s' a' ks') a a' →
      ReKids env Free f f' ks ks' → ReNode env Free f f' (.group s a ks) (.group s' a' ks')
/-- Members in the same order.  Names that differ are in `Free`. -/
inductive ReKids (env : Env) (Free : Str → Prop) (f f' : H5File) : Kids → Kids → Prop
  | nil : ReKids env Free f f' .nil .nil
  | cons {l l' : Str} {k k' : LinkKind} {n n' : Node} {r r' : Kids} : Label l → Label l' →
      (l = l' ∨ Free l ∧ Free l') → ReNode env Free f f' n n' →
      ReKids env Free f f' r r' → ReKids env Free f f' (.cons l k n r) (.cons l' k' n' r')
  | broken {l : Str} {k k' : LinkKind} {r r' : Kids} : ReKids env Free f f' r r' →
      ReKids env Free f f' (.broken l k r) (.broken l k' r')
end

/-- The files differ in the names of groups and fields, and in the paths that mention them. -/
structure Renamed (env : Env) (Free : Str → Prop) (f f' : H5File) : Prop where
  attrs : ReAttrs env Free f f' f.root f'.root f.attrs f'.attrs
  kids : ReKids env Free f f' f.kids f'.kids

/-- The same place, as text without `@`. -/
def Spot (Free : Str → Prop) (f f' : H5File) (t t' : Str) : Prop :=
  ('@' ∉ t ∧ '@' ∉ t') ∧ Moved Free f f' t t'

/-- Addresses of corresponding items: the same place, and the same attribute. -/
def SameAddress (Free : Str → Prop) (f f' : H5File) (a a' : Str) : Prop :=
  ∃ p p' r, Spot Free f f' p p' ∧ a = p ++ r ∧ a' = p' ++ r ∧ (r = [] ∨ ∃ x, r = '@' :: x)

/-- The names in `Free` mean nothing: they are accepted as names, and the definitions require no
field with such a name.  (The names `definition` and `NXdata` mean something in class paths.)  And the
definitions enumerate no values of `target`, `default`, `signal` and `axes`. -/
structure Meaningless (env : Env) (mgr : Manager) (Free : Str → Prop) : Prop where
  label : ∀ l, Free l → Label l
  name : ∀ l, Free l → NameOk env mgr l
  definition : ¬ Free s%"definition"
  data : ¬ Free s%"NXdata"
  fields : ∀ c d gname entry more, Dict.get? mgr.classes c = some d →
    d.groups = (gname, entry) :: more → ∀ fld ∈ entry.fields, ∀ p ∈ split '/' fld.1, ¬ Free p
  enums : ∀ c d, Dict.get? mgr.classes c = some d → ∀ k spec, Dict.get? d.attrs k = some spec →
    k ∈ [s%"target", s%"default", s%"signal", s%"axes"] → spec.enums = []

end Punx.Spec

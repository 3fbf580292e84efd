import Verif.Spec.Groups
import Mathlib.Data.List.Forall2

/-!
# Specification vocabulary for the application definition check

`h5get` is the description of h5py's `group.get`.
-/

namespace Punx.Spec

/-- The value of a dataset, or the first value of an array, is the text `s`. -/
def HoldsText (env : Env) (v : Val) (s : Str) : Prop :=
  TextOf env v s ∨ (∃ rest, v = .arrO (s :: rest)) ∨ (∃ rest, v = .list (s :: rest)) ∨
  ∃ b rest, v = .arrS (b :: rest) ∧ env.dec b = some s

/-- The value of a dataset, or the first value of an array, is not text and is printed `s`. -/
def HoldsOther (env : Env) (v : Val) (s : Str) : Prop :=
  (∃ n, v = .int n ∧ s = intStr n) ∨ (v = .num s) ∨ (∃ rest, v = .arrNum (s :: rest)) ∨
  ((v = .none ∨ v = .empty) ∧ s = env.str v)

/-- The group `g` declares the application definition `name` in its field `definition`. -/
def Declares (env : Env) (f : H5File) (g : Node) (name : Str) : Prop :=
  ∃ n a d, h5get f g s%"definition" = .ok (some (.dataset n a d)) ∧
    (HoldsText env d.value name ∨ HoldsOther env d.value name)

/-- The object is a dataset that holds one of the texts of an enumeration. -/
def HasOneOf (env : Env) (n : Node) (values : List (Option Str)) : Prop :=
  ∃ m a d, n = .dataset m a d ∧ ∃ t, some t ∈ values ∧ HoldsText env d.value t

/-- Lines for one field of an application definition, checked in the group `g` at `a`: OK at the
address of the field if it is there, else ERROR; with an enumeration also whether the field holds
one of the values.  An absent field with an enumeration has no lines: the run stops there. -/
inductive FieldLines (env : Env) (f : H5File) (g : Node) (a : Str) (fld : Str × FieldSpec) :
    List Line → Prop
  | plain {n : Node} : h5get f g fld.1 = .ok (some n) → fld.2.enums = [] →
      FieldLines env f g a fld [(some n.name, s%"NXDL field", .ok)]
  | enum {n : Node} : h5get f g fld.1 = .ok (some n) → fld.2.enums ≠ [] →
      (∃ m b d, n = .dataset m b d) →
      FieldLines env f g a fld [(some n.name, s%"NXDL field", .ok),
        (some n.name, s%"NXDL field enumerations", okIf (HasOneOf env n fld.2.enums) .error)]
  | absent : h5get f g fld.1 = .ok none → fld.2.enums = [] →
      FieldLines env f g a fld [(some (a ++ s%"@None"), s%"NXDL field", .error)]

/-- All lines of the application definition check of the group `g` at `a`. -/
noncomputable def AppLines (env : Env) (f : H5File) (classes : Dict Str ClassDef) (g : Node) (a : Str)
    (ls : List Line) : Prop :=
  ∃ name, Declares env f g name ∧
    ((Dict.get? classes name = none ∧ ls = [(some a, s%"known NXDL", .error)]) ∨
     ∃ ad gname entry more parts, Dict.get? classes name = some ad ∧
      ad.groups = (gname, entry) :: more ∧
      List.Forall₂ (FieldLines env f g a) entry.fields parts ∧
      ls = [(some a, s%"known NXDL", .ok),
        (some a, s%"NeXus application definition",
          okIf (ad.category = .applications ∨ ad.category = .contributed) .error),
        (some a, s%"NeXus application definition", .todo)] ++ parts.flatten)

end Punx.Spec

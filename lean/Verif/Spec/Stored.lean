import Verif.Spec.Completes

/-!
# Files that store the same texts in different ways

A text can be stored with variable length (h5py reads `str`) or with fixed length (h5py reads
`bytes`); an array of texts likewise (kinds 'O' and 'S').
-/

namespace Punx.Spec

/-- The value of an attribute is an array of these texts.  (Arrays of `bytes` are read as ASCII.) -/
def ArrayOf (v : Val) (ss : List Str) : Prop :=
  v = .arrO ss ∨ ∃ bs, v = .arrS bs ∧ bs.map asciiDecode = ss.map some

/-- The values of attributes are the same, or the same text, or arrays of the same texts. -/
inductive SameText (env : Env) : Val → Val → Prop
  | same (v : Val) : SameText env v v
  | text {v v' : Val} {s : Str} : TextOf env v s → TextOf env v' s → SameText env v v'
  | array {v v' : Val} {ss : List Str} : ArrayOf v ss → ArrayOf v' ss → SameText env v v'

/-- The value of a dataset is an array of these texts. -/
def DataArrayOf (env : Env) (v : Val) (ss : List Str) : Prop :=
  v = .arrO ss ∨ ∃ bs, v = .arrS bs ∧ bs.map env.dec = ss.map some

/-- The values of datasets are the same, or the same text, or arrays of the same texts. -/
inductive SameData (env : Env) : Val → Val → Prop
  | same (v : Val) : SameData env v v
  | text {v v' : Val} {s : Str} : TextOf env v s → TextOf env v' s → SameData env v v'
  | array {v v' : Val} {ss : List Str} : DataArrayOf env v ss → DataArrayOf env v' ss →
      SameData env v v'

/-- The attribute is called `signal` (or ends like the address of one). -/
def IsSignal (k : Str) : Prop := k = s%"signal" ∨ s%"@signal" <:+ k

/-- Attributes with the same names and the same texts; those in `keep` are stored alike. -/
def AlikeAttrs (env : Env) (keep : Str → Prop) (a a' : List (Str × Val)) : Prop :=
  List.Forall₂ (fun x y => x.1 = y.1 ∧ SameText env x.2 y.2 ∧ (keep x.1 → x.2 = y.2)) a a'

mutual
/-- The objects hold the same texts, and the same other values.  The attribute `signal` of datasets is
stored in the same way in both. -/
inductive AlikeNode (env : Env) : Node → Node → Prop
  | dataset {n : Str} {a a' : List (Str × Val)} {d d' : DataInfo} : AlikeAttrs env IsSignal a a' →
      SameData env d.value d'.value → AlikeNode env (.dataset n a d) (.dataset n a' d')
  | datatype {n : Str} {a a' : List (Str × Val)} : AlikeAttrs env (fun _ => False) a a' →
      AlikeNode env (.datatype n a) (.datatype n a')
  | group {n : Str} {a a' : List (Str × Val)} {ks ks' : Kids} :
      AlikeAttrs env (fun _ => False) a a' → AlikeKids env ks ks' →
      AlikeNode env (.group n a ks) (.group n a' ks')
/-- The same for the members of a group. -/
inductive AlikeKids (env : Env) : Kids → Kids → Prop
  | nil : AlikeKids env .nil .nil
  | cons {l : Str} {k k' : LinkKind} {n n' : Node} {r r' : Kids} : AlikeNode env n n' →
      AlikeKids env r r' → AlikeKids env (.cons l k n r) (.cons l k' n' r')
  | broken {l : Str} {k k' : LinkKind} {r r' : Kids} : AlikeKids env r r' →
      AlikeKids env (.broken l k r) (.broken l k' r')
end

/-- The files hold the same texts, and the same other values. -/
structure StoredAlike (env : Env) (f f' : H5File) : Prop where
  attrs : AlikeAttrs env (fun _ => False) f.attrs f'.attrs
  kids : AlikeKids env f.kids f'.kids

end Punx.Spec

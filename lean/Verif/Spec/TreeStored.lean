import Verif.Spec.Stored

/-!
# Files that store the texts in their attributes in different ways, for the tree report
-/

namespace Punx.Spec

/-- The encoding of the terminal reads ASCII like ASCII. -/
def ReadsAscii (env : Env) : Prop := ∀ b s, asciiDecode b = some s → env.dec b = some s

/-- The class is not an empty text. -/
def ClassNotEmpty (env : Env) (attrs : List (Str × Val)) : Prop :=
  ∀ v, attrs.lookup s%"NX_class" = some v → ¬ TextOf env v []

mutual
/-- The attributes of the objects hold the same texts and the same other values; classes of groups
are not empty texts, data and links are the same. -/
inductive TextsAlike (env : Env) : Node → Node → Prop
  | dataset {n : Str} {a a' : List (Str × Val)} {d : DataInfo} :
      AlikeAttrs env (fun _ => False) a a' → TextsAlike env (.dataset n a d) (.dataset n a' d)
  | datatype {n : Str} {a a' : List (Str × Val)} : AlikeAttrs env (fun _ => False) a a' →
      TextsAlike env (.datatype n a) (.datatype n a')
  | group {n : Str} {a a' : List (Str × Val)} {ks ks' : Kids} :
      AlikeAttrs env (fun _ => False) a a' → ClassNotEmpty env a → TextsAlikeKids env ks ks' →
      TextsAlike env (.group n a ks) (.group n a' ks')
/-- The same for the members of a group. -/
inductive TextsAlikeKids (env : Env) : Kids → Kids → Prop
  | nil : TextsAlikeKids env .nil .nil
  | cons {l : Str} {k : LinkKind} {n n' : Node} {r r' : Kids} : TextsAlike env n n' →
      TextsAlikeKids env r r' → TextsAlikeKids env (.cons l k n r) (.cons l k n' r')
  | broken {l : Str} {k : LinkKind} {r r' : Kids} : TextsAlikeKids env r r' →
      TextsAlikeKids env (.broken l k r) (.broken l k r')
end

/-- The same for files. -/
structure TextsAlikeFile (env : Env) (f f' : H5File) : Prop where
  attrs : AlikeAttrs env (fun _ => False) f.attrs f'.attrs
  cls : ClassNotEmpty env f.attrs
  kids : TextsAlikeKids env f.kids f'.kids

end Punx.Spec

import Verif.Spec.H5Tree
import Verif.Spec.Catalog

/-!
# Which files have a tree report

Said object by object; nothing here mentions how the report is made.
-/

namespace Punx.Spec

/-- The attribute `NX_class` can be shown after the name of a group: it is absent, a text (also
an empty one), bytes that are not empty and can be decoded, or an array with a first element that
can be decoded. -/
def ShownClass (env : Env) : Option Val → Prop
  | none | some (.str _) => True
  | some (.bytes b) => b ≠ [] ∧ (env.dec b).isSome
  | some (.arrO xs) => xs ≠ []
  | some (.arrS xs) => ∃ x rest, xs = x :: rest ∧ (env.dec x).isSome
  | some _ => False

/-- The data of a dataset can be shown: it has a shape, and strings of fixed length can be decoded
and do not form a table with rows. -/
def ShownData (env : Env) (d : DataInfo) : Prop :=
  ∃ shape, d.shape = some shape ∧ (d.kind = .S →
    match d.value with
    | .arrS xs => (∀ rows columns rest, shape = rows :: columns :: rest → rows = 0) ∧ ∀ x ∈ xs, (env.dec x).isSome
    | v => classReadable env (some v))

/-- The attributes can be shown, if they are asked for. -/
def ShownAttrs (env : Env) (showAttrs : Bool) (attrs : List (Str × Val)) : Prop :=
  showAttrs = true → ∀ kv ∈ attrs, classReadable env (some kv.2)

/-- The link leads to an object that is shown. -/
def ShownBehind (k : LinkKind) : Prop := k = .hard ∨ ∃ file path, k = .external file path true

/-- It can be told that the file is a NeXus file, or that it is not: a member of the root is an
entry and none before it has a class that cannot be read, or no member is or has. -/
def ToldNexus (env : Env) (f : H5File) : Bool → Prop
  | true => ∃ before name n after, f.kids.toList = before ++ (name, some n) :: after ∧
      GroupOf env s%"NXentry" n ∧ ∀ name m, (name, some m) ∈ before → ¬ BadClass env m
  | false => ∀ name n, (name, some n) ∈ f.kids.toList →
      ¬ GroupOf env s%"NXentry" n ∧ ¬ BadClass env n

mutual
/-- The object can be shown in a file that is a NeXus file or not.  What is a NeXus link needs
only a target.  Named datatypes can be shown only as such links. -/
def Showable (env : Env) (nexus showAttrs : Bool) : Node → Prop
  | .group name attrs kids => targetReadable env (attrs.lookup s%"target") ∧
      (¬ NexusLink env attrs name → ShownClass env (attrs.lookup s%"NX_class") ∧
        ShownAttrs env showAttrs attrs ∧ ShowableKids env nexus showAttrs kids)
  | .dataset name attrs d => targetReadable env (attrs.lookup s%"target") ∧
      (¬ NexusLink env attrs name →
        ¬ (nexus = true ∧ attrs.lookup s%"target" = some (.arrNum [])) ∧
        (¬ (nexus = true ∧ AnyTarget env attrs name) →
          ShownData env d ∧ ShownAttrs env showAttrs attrs))
  | .datatype name attrs => targetReadable env (attrs.lookup s%"target") ∧ NexusLink env attrs name
/-- All members of a group whose links are followed can be shown. -/
def ShowableKids (env : Env) (nexus showAttrs : Bool) : Kids → Prop
  | .nil => True
  | .cons _ kind n rest => (ShownBehind kind → Showable env nexus showAttrs n) ∧
      ShowableKids env nexus showAttrs rest
  | .broken _ _ rest => ShowableKids env nexus showAttrs rest
end

/-- An object as programs usually write them: the class of a group is absent or a text that is not
empty, datasets have data that can be shown and no empty array as target; no named datatype. -/
def Usual (env : Env) : Node → Prop
  | .group _ a _ => ∀ v, a.lookup s%"NX_class" = some v → ∃ s, s ≠ [] ∧ TextOf env v s
  | .dataset _ a d => ShownData env d ∧ a.lookup s%"target" ≠ some (.arrNum [])
  | .datatype .. => False

/-- All attributes of the object can be shown. -/
def AttrsReadable (env : Env) (n : Node) : Prop := ∀ kv ∈ n.attrs, classReadable env (some kv.2)

end Punx.Spec

import Verif.Spec.Completes

/-!
# Specification for C136: what stops the reading of a file

The exceptions that the objects of a file would raise, in the order in which the objects are
visited: each group before its members, the members in the order of the file.
-/

namespace Punx.Spec

/-- What is wrong with a text that is stored as `v`: bytes that cannot be decoded. -/
def textObstacle (env : Env) : Val → List PyErr
  | .bytes b => if (env.dec b).isSome then [] else [.unicodeDecodeError]
  | .arrS xs => if ∀ x ∈ xs, ∀ b ∈ x, b.toNat < 128 then [] else [.unicodeDecodeError]
  | _ => []

/-- What is wrong with a `target`: it cannot be decoded; it has no length (a number, nothing, an
empty array of texts); it is an array of several numbers, which is neither the name of the object nor
another name. -/
def targetObstacle (env : Env) : Option Val → List PyErr
  | none => []
  | some (.int _) | some (.num _) | some .none | some .empty => [.typeError]
  | some (.arrO []) | some (.arrS []) => [.typeError]
  | some (.arrNum (_ :: _ :: _)) => [.valueError]
  | some v => textObstacle env v

/-- What is wrong with the class of a group: only groups in NeXus content are asked for it. -/
def classObstacle (env : Env) (p : Place) (attrs : List (Str × Val)) : List PyErr :=
  match p, attrs.lookup s%"NX_class" with
  | .nexus, some v => textObstacle env v
  | _, _ => []

mutual
/-- The obstacles in an object: those of a group itself, then those of its members. -/
def obstacles (env : Env) (p : Place) : Node → List PyErr
  | .group _ a kids => classObstacle env p a ++ (targetObstacle env (a.lookup s%"target") ++
      obstaclesKids env (p.below env a) kids)
  | .dataset _ a _ => targetObstacle env (a.lookup s%"target")
  | .datatype .. => []
/-- The obstacles in the members of a group: a link that leads nowhere is one. -/
def obstaclesKids (env : Env) (p : Place) : Kids → List PyErr
  | .nil => []
  | .cons _ _ n rest => obstacles env p n ++ obstaclesKids env p rest
  | .broken _ _ rest => .keyError :: obstaclesKids env p rest
end

/-- The obstacles in a file. -/
def obstaclesFile (env : Env) (f : H5File) : List PyErr :=
  targetObstacle env (f.attrs.lookup s%"target") ++ obstaclesKids env .nexus f.kids

end Punx.Spec

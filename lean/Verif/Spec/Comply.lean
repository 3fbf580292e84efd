import Verif.Spec.Expected

/-!
# Groups that follow an application definition
-/

namespace Punx.Spec

/-- An NXentry group in the root, or an NXsubentry group in one of these. -/
inductive EntryGroup (env : Env) (f : H5File) : Node → Prop
  | entry {l n : Str} {a : List (Str × Val)} {ks : Kids} :
      (l, some (Node.group n a ks)) ∈ f.kids.toList → nxClassOf env a = some s%"NXentry" →
      EntryGroup env f (.group n a ks)
  | subentry {l n l' n' : Str} {a a' : List (Str × Val)} {ks ks' : Kids} :
      (l, some (Node.group n a ks)) ∈ f.kids.toList → nxClassOf env a = some s%"NXentry" →
      (l', some (Node.group n' a' ks')) ∈ ks.toList → nxClassOf env a' = some s%"NXsubentry" →
      EntryGroup env f (.group n' a' ks')

/-- The group has a member `definition` that is not a group. -/
def HasDefinition : Node → Prop
  | .group _ _ ks => ∃ m, (s%"definition", some m) ∈ ks.toList ∧ ∀ n a k, m ≠ .group n a k
  | _ => False

/-- The group follows the definition `name`: it is an application definition (or a contributed one), all
fields that it has at the top of its entry are in the group, and if their values are enumerated, the
fields have one of these values. -/
def FollowsDefinition (env : Env) (mgr : Manager) (f : H5File) (g : Node) (name : Str) : Prop :=
  ∃ ad gname entry more, Dict.get? mgr.classes name = some ad ∧ ad.category ≠ .baseClasses ∧
    ad.groups = (gname, entry) :: more ∧
    ∀ fld ∈ entry.fields, ∃ n, h5get f g fld.1 = .ok (some n) ∧
      (fld.2.enums ≠ [] → HasOneOf env n fld.2.enums)

end Punx.Spec

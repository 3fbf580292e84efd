import Verif.Spec.Expected
import Verif.Spec.Contents
import Verif.Spec.Paths

/-!
# What a file that passes guarantees about the objects in it
-/

namespace Punx.Spec

/-- The object is in NeXus content: it is in the root, or in a group with a NeXus class that is in NeXus
content.  The text is the chain of the classes of the groups that it is in. -/
inductive InNexus (env : Env) (f : H5File) : Str → Node → Prop
  | root {l : Str} {n : Node} : (l, some n) ∈ f.kids.toList → InNexus env f [] n
  | inside {cp l m c : Str} {a : List (Str × Val)} {ks : Kids} {n : Node} :
      InNexus env f cp (.group m a ks) → nxClassOf env a = some c → (l, some n) ∈ ks.toList →
      InNexus env f (cp ++ '/' :: c) n

/-- A group has a NeXus class; other objects need none. -/
def HasNexusClass (env : Env) : Node → Prop
  | .group _ a _ => ∃ c, nxClassOf env a = some c
  | _ => True

/-- What holds for an object `n` in NeXus content of a file that passes; `cp` is the chain of the classes of
the groups that it is in. -/
structure Guaranteed (env : Env) (mgr : Manager) (f : H5File) (cp : Str) (n : Node) : Prop where
  /-- the class of a group is in the definitions, and not as an application definition -/
  cls : ∀ m a ks c, n = .group m a ks → nxClassOf env a = some c → UsableName mgr.classes c
  /-- outside of collections the name is a valid one (names with `@` are treated differently) -/
  name : '@' ∉ classpathIn env cp n → ¬ s%"NXcollection" <:+: classpathIn env cp n →
    NameOk env mgr (baseName n.name)
  /-- `target` is the absolute path of a link in the file, all its components are valid names -/
  target : HasNexusClass env n → ∀ v, (s%"target", v) ∈ n.attrs →
    ∃ t segs, TextOf env v ('/' :: t) ∧ PathIs t segs ∧ (∀ s ∈ segs, NameOk env mgr s) ∧
      LinkAt f n ('/' :: t)
  /-- `signal` of a group is a valid name, and the path of a link -/
  signal : ∀ m a ks v, n = .group m a ks → HasNexusClass env n → (s%"signal", v) ∈ a →
    ∃ s, TextOf env v s ∧ NameOk env mgr s ∧ s ≠ [] ∧ LinkAt f n s
  /-- all `axes` are valid names, and lead to objects -/
  axes : HasNexusClass env n → ∀ v, (s%"axes", v) ∈ n.attrs → ∃ names, AxesOf env v names ∧
    ∀ x ∈ names, (∃ m a ks, n = .group m a ks) ∧ NameOk env mgr x ∧ ∃ k, LeadsTo f n x k

end Punx.Spec

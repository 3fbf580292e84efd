import Verif.Spec.Process
import Verif.Spec.DefaultPlot

/-!
# Files with an entry
-/

namespace Punx.Spec

/-- A member of the root is a group of class NXentry. -/
def TopEntry (env : Env) (f : H5File) : Prop :=
  ∃ l n a ks, (l, some (Node.group n a ks)) ∈ f.kids.toList ∧ nxClassOf env a = some s%"NXentry"

/-- The classes of the groups have no slash in them (outside of NeXus content they do not matter). -/
def PlainClasses (env : Env) (items : List Item) : Prop :=
  ∀ it ∈ items, ∀ g, it.obj.asGroup = some g → it.classpath ≠ s%"non-NeXus content" →
    it.classpath ≠ [] → ∀ c, nxClassOf env g.attrs = some c → '/' ∉ c

/-- The names of the files in the directory of a file set are names, not paths. -/
def FileNames (d : SetDir) : Prop :=
  ∀ c fs f, d.listing c = some fs → f ∈ fs → '/' ∉ f.name

end Punx.Spec

import Verif.Spec.Extras
import Verif.Spec.Expected

/-!
# Removal of additional content

What must not happen when objects are removed from a file: that a reference loses its object.
-/

namespace Punx.Spec

/-- What the path `p` leads to from the group `g` is still there without the objects that satisfy
`X`. -/
structure StillThere (X : Node → Bool) (f : H5File) (g : Node) (p : Str) : Prop where
  link : h5contains f g p = true → h5contains (trim X f) (trimNode X g) p = true
  object : ∀ n, h5get f g p = .ok (some n) →
    ∃ m, h5get (trim X f) (trimNode X g) p = .ok (some m)

/-- If something has the address `a` in the file, then also without the objects that satisfy `X`. -/
def StillListed (env : Env) (X : Node → Bool) (f : H5File) (a : Option Str) : Prop :=
  (∃ it ∈ contents env f, it.addr = a) → ∃ it ∈ contents env (trim X f), it.addr = a

/-- No reference of the file loses its object: not the targets, signals, default groups and axes,
not the definition that a group declares and the fields that it requires, and not the objects that
are looked up to find the default plot. -/
structure ReferencesKept (env : Env) (mgr : Manager) (X : Node → Bool) (f : H5File) : Prop where
  target : ∀ o a v t, CarriesAttr (contents env f) o a s%"target" v → TextOf env v t →
    StillThere X f f.root t
  pointer : ∀ o ∈ contents env f, o.classpath ≠ s%"non-NeXus content" → ∀ g,
    o.obj.asGroup = some g → ∀ k v s, (k, v) ∈ g.attrs → k = s%"signal" ∨ k = s%"default" →
    TextOf env v s → StillThere X f g s
  axes : ∀ o ∈ contents env f, o.classpath ≠ s%"non-NeXus content" → ∀ g,
    o.obj.asGroup = some g → ∀ v names n, (s%"axes", v) ∈ g.attrs → AxesOf env v names →
    n ∈ names → StillThere X f g n
  definition : ∀ g name, DeclaredBy env f (contents env f) g name → StillThere X f g s%"definition"
  fields : ∀ g fld, RequiredIn env mgr f (contents env f) g fld → StillThere X f g fld.1
  plot : ∀ it ∈ dataSignals (contents env f), ∀ D E R t g, InGroups (contents env f) it D E R →
    Names env D s%"signal" t → D.obj.asGroup = some g →
    StillThere X f g t ∧ StillListed env X f D.addr ∧ StillListed env X f E.addr ∧
      StillListed env X f (some t)

end Punx.Spec

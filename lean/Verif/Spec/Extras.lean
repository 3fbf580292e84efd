import Verif.Spec.Notes

/-!
# Additional content

A file, and the same file without some of its members: objects that neither punx nor NeXus gives a
meaning.
-/

namespace Punx.Spec

mutual
/-- The object without the members that satisfy `X`, also further below. -/
def trimNode (X : Node → Bool) : Node → Node
  | .dataset n a d => .dataset n a d
  | .datatype n a => .datatype n a
  | .group n a ks => .group n a (trimKids X ks)
/-- The same for members. -/
def trimKids (X : Node → Bool) : Kids → Kids
  | .nil => .nil
  | .cons l k n r => if X n then trimKids X r else .cons l k (trimNode X n) (trimKids X r)
  | .broken l k r => .broken l k (trimKids X r)
end

/-- The file without the objects that satisfy `X`. -/
def trim (X : Node → Bool) (f : H5File) : H5File := ⟨f.attrs, trimKids X f.kids⟩

/-- The object can be in every file.  A field (or a named datatype) must have a valid name, not be
called `definition`, and only have notes as attributes, with valid names.  A group must not have a
NeXus class; then only the names below it matter, and that its links and their targets can be
read. -/
def Extra (env : Env) (mgr : Manager) : Node → Prop
  | .dataset n a _ | .datatype n a =>
    NameOk env mgr (baseName n) ∧ baseName n ≠ s%"definition" ∧
      ∀ ka ∈ a, IsNote ka.1 ∧ NameOk env mgr ka.1
  | .group n a ks =>
    nxClassOf env a = none ∧ classReadable env (a.lookup s%"NX_class") ∧
      AllNodes (fun m => NameOk env mgr (baseName m.name) ∧ NodeTargetOk env m) (.group n a ks) ∧
      IntactKids ks

/-- All objects of the file that satisfy `X` can be in every file. -/
def OnlyExtras (env : Env) (mgr : Manager) (X : Node → Bool) (f : H5File) : Prop :=
  AllKids (fun n => X n = true → Extra env mgr n) f.kids

end Punx.Spec

import Verif.Spec.Attributes

/-!
# Which paths lead to something
-/

namespace Punx.Spec

/-- The text is the components, with slashes between them. -/
def PathIs (p : Str) (segs : List Str) : Prop :=
  (∀ s ∈ segs, '/' ∉ s) ∧ '/' :: p = slashed segs

/-- The components that are names of links: HDF5 leaves out empty ones and dots. -/
def linkNames (segs : List Str) : List Str := segs.filter fun s => s ≠ [] ∧ s ≠ s%"."

/-- Absolute paths start at the root of the file, others at the group. -/
inductive StartsAt (f : H5File) (g : Node) : Str → Node → Prop
  | absolute {p : Str} : StartsAt f g ('/' :: p) (.group s%"/" f.attrs f.kids)
  | relative {p : Str} : (∀ q, p ≠ '/' :: q) → StartsAt f g p g

/-- The last component that is not empty is a dot. -/
def Dotted (segs : List Str) : Prop :=
  ∃ pre post, segs = pre ++ s%"." :: post ∧ ∀ s ∈ post, s = []

/-- The path leads from the group to the object. -/
def LeadsTo (f : H5File) (g : Node) (p : Str) (m : Node) : Prop :=
  ∃ segs start, PathIs p segs ∧ StartsAt f g p start ∧ Reaches start (linkNames segs) m

/-- There is a link with this path (its object may be missing); a path that ends with a dot has to lead to
a group. -/
def LinkAt (f : H5File) (g : Node) (p : Str) : Prop :=
  ∃ segs start, PathIs p segs ∧ StartsAt f g p start ∧
    ((Dotted segs ∧ ∃ n a ks, Reaches start (linkNames segs) (.group n a ks)) ∨
     (¬ Dotted segs ∧ (linkNames segs = [] ∨ ∃ pre l n a ks, linkNames segs = pre ++ [l] ∧
        Reaches start pre (.group n a ks) ∧ l ∈ ks.toList.map (·.1))))

end Punx.Spec

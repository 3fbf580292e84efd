import Verif.Spec.Expected
import Verif.Spec.Stored

/-!
# Files that are made of other files
-/

namespace Punx.Spec

/-- The file `g` has nothing but attributes of the root and members of the root of `f` (the members
as a whole). -/
structure Excerpt (g f : H5File) : Prop where
  attrs : ∀ ka ∈ g.attrs, ka ∈ f.attrs
  kids : ∀ m ∈ g.kids.toList, m ∈ f.kids.toList

/-- The files `parts` are excerpts of `f`, and together they have everything that `f` has. -/
structure MadeOf (f : H5File) (parts : List H5File) : Prop where
  nonempty : parts ≠ []
  excerpts : ∀ g ∈ parts, Excerpt g f
  attrs : ∀ ka ∈ f.attrs, ∃ g ∈ parts, ka ∈ g.attrs
  kids : ∀ m ∈ f.kids.toList, ∃ g ∈ parts, m ∈ g.kids.toList

/-- No field in the root itself is marked as the signal (`signal=1`). -/
def NoRootMarks (env : Env) (f : H5File) : Prop :=
  ∀ l n a d k v, (l, some (.dataset n a d)) ∈ f.kids.toList → (k, v) ∈ a → IsSignal k →
    ¬ ReadsOne env v

/-- The attribute `default` of the root is text, if it is there. -/
def DefaultIsText (env : Env) (f : H5File) : Prop :=
  ∀ v, (s%"default", v) ∈ f.attrs → ∃ s, TextOf env v s

end Punx.Spec

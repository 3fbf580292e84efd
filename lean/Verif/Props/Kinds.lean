import Verif.Model.Utils

/-!
# C99: the kinds of objects

The specification of the report uses the tests of the program for the kind of an object; this says
what they mean.
-/

namespace Punx

/-- What is a file, a group and a dataset; the file is not a group. -/
theorem object_kinds (o : H5Obj) :
    (isHdf5File o = true ↔ ∃ f, o = .file f) ∧
    (isHdf5Group o = true ↔ ∃ n a ks, o = .node (.group n a ks)) ∧
    (isHdf5Dataset o = true ↔ ∃ n a d, o = .node (.dataset n a d)) := by
  cases o with
  | node n => cases n <;> simp [isHdf5File, isHdf5Group, isHdf5Dataset]
  | _ => simp [isHdf5File, isHdf5Group, isHdf5Dataset]

end Punx

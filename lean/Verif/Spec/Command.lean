import Verif.Spec.Process
import Verif.Spec.Cli

/-!
# Specification vocabulary for `punx validate` as a whole
-/

namespace Punx.Spec

/-- The documents of a set are XML: no element has an attribute twice. -/
def LawfulDocs (d : SetDir) : Prop :=
  ∀ c fs f x, d.listing c = some fs → f ∈ fs → f.content = some x → Lawful x

/-- `punx validate a` is run, and reaches the data file. -/
structure CommandReaches (lib : Lib) (pattern : Str → Pat) (w : Disks) (files : Str → FileState)
    (sets : Dict Str FileSet) (a : ValidateArgs) (mgr : Manager) (file : H5File) : Prop where
  options : AllKnown a.report
  data : ¬ s%".nxdl.xml" <:+ a.infile
  own : ∃ ref f, a.fileSet = some ref ∧ Dict.get? sets ref = some f ∧
    OwnDefinitions lib pattern (w.dir f.path) mgr
  hdf5 : files a.infile = .hdf5 file

end Punx.Spec

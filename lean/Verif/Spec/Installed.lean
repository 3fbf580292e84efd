import Verif.Spec.Process
import Verif.Spec.Command

/-!
# From an archive to the definitions (C105)
-/

namespace Punx.Spec
open Punx

/-- What lxml makes of the text of a file. -/
structure Lxml where
  /-- `nxdl.xsd`, `nxdlTypes.xsd` (which are well formed) -/
  xsd : Str → XsNode
  /-- a definition, `none`: not well formed -/
  xml : Str → Option Xml

/-- The directory of a category. -/
def categoryDir : Category → Str
  | .baseClasses => s%"base_classes"
  | .applications => s%"applications"
  | .contributed => s%"contributed_definitions"

/-- The text of a file. -/
def textAt (get : FPath → Option FObj) (q : FPath) : Option Str :=
  match get q with
  | some (.file (.raw t)) => some t
  | _ => none

/-- `sd` is the directory of a file set in which `get` tells what is where. -/
structure DirOf (lx : Lxml) (get : FPath → Option FObj) (sd : SetDir) : Prop where
  here : sd.here = true ↔ get [] ≠ none
  xsd : sd.xsd = (textAt get [s%"nxdl.xsd"]).map lx.xsd
  types : sd.types = (textAt get [s%"nxdlTypes.xsd"]).map lx.xsd
  missing : ∀ c, sd.listing c = none ↔ get [categoryDir c] ≠ some .dir
  distinct : ∀ c fs, sd.listing c = some fs → (fs.map (·.name)).Nodup
  names : ∀ c fs, sd.listing c = some fs → ∀ n, (∃ f ∈ fs, f.name = n) ↔ get [categoryDir c, n] ≠ none
  content : ∀ c fs, sd.listing c = some fs → ∀ f ∈ fs,
    f.content = (textAt get [categoryDir c, f.name]).bind lx.xml

/-- What an archive has at a path below its top directory: the last wanted member with this path, a
directory if there is a wanted member below, else nothing. -/
def ArchiveHas (z : Archive) (top : Str) (q : FPath) (o : Option FObj) : Prop :=
  (∃ m, FinalAt z top (top :: q) m ∧ o = some (memberObj m)) ∨
  (¬ (∃ m, FinalAt z top (top :: q) m) ∧
    ((∃ p m, FinalAt z top p m ∧ Above (top :: q) p) ∧ o = some .dir ∨
      ¬ (∃ p m, FinalAt z top p m ∧ Above (top :: q) p) ∧ o = none))

/-- `sd` is the file set in an archive. -/
def ArchiveDir (lx : Lxml) (z : Archive) (top : Str) (sd : SetDir) : Prop :=
  ∃ get, (∀ q, ArchiveHas z top q (get q)) ∧ DirOf lx get sd

end Punx.Spec

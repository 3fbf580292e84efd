import Verif.Model.Cache

/-!
# Style sheets for NXDL files, in words of their own
-/

namespace Punx

/-- The three categories of NXDL files and the directories where their style sheets are. -/
def CategoryDirectory (c dir : Str) : Prop :=
  (c = s%"application" ∧ dir = s%"applications") ∨ (c = s%"base" ∧ dir = s%"base_classes") ∨
    (c = s%"contributed" ∧ dir = s%"contributed_definitions")

/-- The style sheet for a category in the directory of a file set. -/
def styleSheet (path dir : Str) : Str := path ++ s%"/" ++ dir ++ s%"/nxdlformat.xsl"

end Punx

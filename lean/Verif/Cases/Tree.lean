import Verif.Props.H5TreeArray

/-!
# Cases for C38–C41, C63
-/

namespace Punx
open Spec

/-- options of the report -/
abbrev caseCfg : TreeCfg := ⟨treeEnv, true, true, 5⟩

/-- the report on `treeFile` -/
def caseLines : List TLine := (renderFile caseCfg s%"f.h5" treeFile).toOption.getD []

theorem caseLines_shown : renderFile caseCfg s%"f.h5" treeFile = .ok caseLines := by rfl

example : caseLines.length = 12 := by rfl
example := tree_shows_all _ _ _ _ caseLines_shown
example := tree_headers _ _ _ _ caseLines_shown
example := hide_attributes caseCfg _ _ _ caseLines_shown
example := report_hide_attributes treeEnv 5 s%"f.h5" (.hdf5 treeFile) (caseLines.map TLine.text)
  (by rfl)
example : NexusLink treeEnv [(s%"target", .str s%"/entry/x")] s%"/entry/link" :=
  (isNeXusLink_ok (b := true) (by rfl)).1 rfl
example : AnyTarget treeEnv [(s%"target", .str s%"/entry/x")] s%"/entry/link" :=
  ((renderAsLink_ok (c := caseCfg) (b := true) (by rfl)).1 rfl).2

/-- the array `/entry/x` -/
def caseArray : DataInfo :=
  ⟨.none, .other, s%"int64", some [7], [], [], fun i => natStr (i.headD 0), s%"0"⟩

example := preview_1 5 7 caseArray.cell [] [] (by decide)
example := preview_2_3 5 7 caseArray.cell [] [] [3, 4] (by decide) (.inr rfl)
example := preview_4 5 7 caseArray.cell [] [] [3, 4, 5] (by decide) (by decide)
example := shownEntries_length 5 7 (by decide)
example := shownEntries_valid 5 7 (by decide)
example := array_line caseCfg caseArray s%"x" [] 7 rfl rfl (by decide) (by decide)
example := array_lines caseCfg { caseArray with shape := some [2, 6] } s%"x" [] 2 6 [] rfl rfl (by decide)
example := array_hidden { caseCfg with shown := 2 } caseArray s%"x" [] [7] rfl rfl (by decide) (by decide)
example := scalar_not_shown caseCfg { caseArray with shape := some [] } s%"x" [] rfl rfl (by decide)

end Punx

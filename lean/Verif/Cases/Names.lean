import Verif.Props.Attribute3
import Verif.Props.NonNexus

/-!
# Cases for C12–C19, C60, C61
-/

namespace Punx
open Spec

/-- the item with this number in the catalogue of a file -/
abbrev itemAt (f : H5File) (n : Nat) (h : n < (catalog sampleEnv f).log.length) : Item :=
  (catalog sampleEnv f).log[n]

theorem itemAt_mem {f : H5File} {n : Nat} {h : n < (catalog sampleEnv f).log.length} :
    itemAt f n h ∈ (catalog sampleEnv f).log := List.getElem_mem _

/-! ## objects -/

theorem atFile_ok : (validateOpen sampleEnv sampleMgr [] (namedFile s%"a@b")).res = .ok () := by rfl

/-- the field `X1` -/
example := object_name_verdict nameFile_ok (it := itemAt nameFile 5 (by decide +kernel)) itemAt_mem rfl
  (by decide)
example := object_with_at_verdict atFile_ok
  (it := itemAt (namedFile s%"a@b") 3 (by decide +kernel)) itemAt_mem rfl (by decide)
example : ¬ OrNewline StrictName s%"X1" :=
  ((accepted_name_iff sampleMgr_bundled nameFile_ok (it := itemAt nameFile 5 (by decide +kernel))
    itemAt_mem rfl (by decide) (by decide)
    (fd := (nameFindings (validateOpen sampleEnv sampleMgr [] nameFile).log
      (itemAt nameFile 5 (by decide +kernel)).oid)[0]'(by decide +kernel))
    (List.getElem_mem _)).2.1.1 (by decide +kernel)).1
example : OrNewline (RelaxedName sampleEnv.word) s%"X1" :=
  accepted_name_partial sampleMgr_bundled sampleEnv_wordOk nameFile_ok
    (it := itemAt nameFile 5 (by decide +kernel)) itemAt_mem rfl (by decide)
    (fd := (nameFindings (validateOpen sampleEnv sampleMgr [] nameFile).log
      (itemAt nameFile 5 (by decide +kernel)).oid)[0]'(by decide +kernel))
    (List.getElem_mem _) (by decide +kernel)
example := name_checked_once nameFile_ok (it := itemAt nameFile 6 (by decide +kernel)) itemAt_mem
example := nameFindings_run nameFile_ok (it := itemAt nameFile 6 (by decide +kernel)) itemAt_mem
example := root_unjudged nameFile_ok (it := itemAt nameFile 0 (by decide +kernel)) itemAt_mem rfl

/-! ## attributes -/

/-- `/e@NX_class` -/
example := class_value_verdict nameFile_ok (it := itemAt nameFile 2 (by decide +kernel)) itemAt_mem
  (v := .str s%"NXentry") rfl (a := s%"/e@NX_class") rfl (by decide)
example := class_value_partial sampleMgr_bundled nameFile_ok
  (it := itemAt nameFile 2 (by decide +kernel)) itemAt_mem
  (v := .str s%"NXentry") rfl (a := s%"/e@NX_class") rfl (by decide)
example := class_of_group_ok sampleMgr_bundled sampleEnv_wordOk nameFile_ok
  (it := itemAt nameFile 2 (by decide +kernel)) itemAt_mem
  (v := .str s%"NXentry") rfl (a := s%"/e@NX_class") rfl (by decide) (t := s%"entry") (.inl rfl)
  (by decide)
/-- `/e/x@units` -/
example := attribute_name_verdict nameFile_ok (it := itemAt nameFile 4 (by decide +kernel))
  itemAt_mem (v := .str s%"mm") rfl (a := s%"/e/x@units") rfl (by decide)

example := nxclass_known nameFile_ok (it := itemAt nameFile 2 (by decide +kernel)) itemAt_mem
  (v := .str s%"NXentry") rfl (a := s%"/e@NX_class") rfl rfl
example := other_attribute_todo nameFile_ok (it := itemAt nameFile 4 (by decide +kernel))
  itemAt_mem (v := .str s%"mm") rfl (a := s%"/e/x@units") rfl (by decide)
example := no_attribute_finding nameFile_ok (it := itemAt nameFile 5 (by decide +kernel))
  itemAt_mem (by decide +kernel)
/-- the attribute of a group without class has no address -/
example := nonNexus_attribute_unjudged plainGroupFile_ok
  (it := itemAt plainGroupFile 4 (by decide +kernel)) itemAt_mem (v := .int 3) rfl rfl

/-- `/@signal` -/
example := signal_elsewhere (mgr := sampleMgr) (mins := []) (f := rootSignalFile) (by rfl)
  (it := itemAt rootSignalFile 1 (by decide +kernel)) itemAt_mem (v := .str s%"e") rfl
  (a := s%"/@signal") rfl rfl rfl rfl rfl
/-- `/e/d@axes` -/
example := axes_only_on_groups attrFile_ok (it := itemAt attrFile 5 (by decide +kernel)) itemAt_mem
  (v := .arrO [s%"x", s%"q", s%"."]) rfl (a := s%"/e/d@axes") rfl rfl rfl (by decide)
/-- `/e/d/x@target` -/
example := target_verdict attrFile_ok (it := itemAt attrFile 9 (by decide +kernel)) itemAt_mem
  (v := .str s%"/e/d/x") rfl (a := s%"/e/d/x@target") rfl rfl
example := fun n a ks => h5get_simple attrFile n a ks (s := s%"x") (by unfold SimpleName; decide)

end Punx

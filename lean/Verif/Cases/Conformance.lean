import Verif.Model.Validate
import Verif.Model.Report
import Verif.Props.NxdlParse5
import Verif.Props.RegexText2
import Verif.Props.Catalog

/-!
# The model on the files made by the project's own tests

These are tests of the model, not proofs about all inputs: the definitions are those of the
file set v2018.5 that the tests use, read by the modelled reader; the files are those that the
tests write; the expected numbers are those of the tests.
-/

namespace Punx

/-- `NXroot` of the definitions (`base_classes/NXroot.nxdl.xml`), without the documentation. -/
def confNXrootXml : Xml :=
  .elem true s%"definition" [(s%"category", s%"base"), (s%"name", s%"NXroot"),
      (s%"type", s%"group"), (s%"extends", s%"NXobject")] [
    .elem true s%"attribute" [(s%"name", s%"NX_class")] [
      .elem true s%"enumeration" [] [
        .elem true s%"item" [(s%"value", s%"NXroot")] []]],
    .elem true s%"attribute" [(s%"name", s%"file_time")] [],
    .elem true s%"attribute" [(s%"name", s%"file_name")] [],
    .elem true s%"attribute" [(s%"name", s%"file_update_time")] [],
    .elem true s%"attribute" [(s%"name", s%"NeXus_version")] [],
    .elem true s%"attribute" [(s%"name", s%"HDF_version")] [],
    .elem true s%"attribute" [(s%"name", s%"HDF5_Version")] [],
    .elem true s%"attribute" [(s%"name", s%"XML_version")] [],
    .elem true s%"attribute" [(s%"name", s%"h5py_version")] [],
    .elem true s%"attribute" [(s%"name", s%"creator")] [],
    .elem true s%"group" [(s%"type", s%"NXentry"), (s%"minOccurs", s%"1")] [],
    .elem true s%"attribute" [(s%"name", s%"default")] []]

/-- `NXentry` of the definitions (`base_classes/NXentry.nxdl.xml`), without the documentation. -/
def confNXentryXml : Xml :=
  .elem true s%"definition" [(s%"name", s%"NXentry"), (s%"type", s%"group"),
      (s%"extends", s%"NXobject"), (s%"category", s%"base")] [
    .elem true s%"attribute" [(s%"name", s%"default")] [],
    .elem true s%"group" [(s%"type", s%"NXdata")] [],
    .elem true s%"attribute" [(s%"name", s%"IDF_Version")] [],
    .elem true s%"field" [(s%"name", s%"title")] [],
    .elem true s%"field" [(s%"name", s%"experiment_identifier")] [],
    .elem true s%"field" [(s%"name", s%"experiment_description")] [],
    .elem true s%"group" [(s%"type", s%"NXnote"), (s%"name", s%"experiment_documentation")] [],
    .elem true s%"field" [(s%"name", s%"collection_identifier")] [],
    .elem true s%"field" [(s%"name", s%"collection_description")] [],
    .elem true s%"field" [(s%"name", s%"entry_identifier")] [],
    .elem true s%"field" [(s%"name", s%"features")] [],
    .elem true s%"field" [(s%"name", s%"definition")] [
      .elem true s%"attribute" [(s%"name", s%"version")] [],
      .elem true s%"attribute" [(s%"name", s%"URL")] []],
    .elem true s%"field" [(s%"name", s%"definition_local"),
        (s%"deprecated", s%"see same field in :ref:`NXsubentry` for preferred use")] [
      .elem true s%"attribute" [(s%"name", s%"version")] [],
      .elem true s%"attribute" [(s%"name", s%"URL")] []],
    .elem true s%"field" [(s%"name", s%"start_time"), (s%"type", s%"NX_DATE_TIME")] [],
    .elem true s%"field" [(s%"name", s%"end_time"), (s%"type", s%"NX_DATE_TIME")] [],
    .elem true s%"field" [(s%"name", s%"duration"), (s%"type", s%"NX_INT"),
        (s%"units", s%"NX_TIME")] [],
    .elem true s%"field" [(s%"name", s%"collection_time"), (s%"type", s%"NX_FLOAT"),
        (s%"units", s%"NX_TIME")] [],
    .elem true s%"field" [(s%"name", s%"run_cycle")] [],
    .elem true s%"field" [(s%"name", s%"program_name")] [
      .elem true s%"attribute" [(s%"name", s%"version")] [],
      .elem true s%"attribute" [(s%"name", s%"configuration")] []],
    .elem true s%"field" [(s%"name", s%"revision")] [
      .elem true s%"attribute" [(s%"name", s%"comment")] []],
    .elem true s%"field" [(s%"name", s%"pre_sample_flightpath"), (s%"type", s%"NX_FLOAT"),
        (s%"units", s%"NX_LENGTH")] [],
    .elem true s%"group" [(s%"name", s%"notes"), (s%"type", s%"NXnote")] [],
    .elem true s%"group" [(s%"name", s%"thumbnail"), (s%"type", s%"NXnote")] [
      .elem true s%"attribute" [(s%"name", s%"type")] [
        .elem true s%"enumeration" [] [
          .elem true s%"item" [(s%"value", s%"image/*")] []]]],
    .elem true s%"group" [(s%"type", s%"NXuser")] [],
    .elem true s%"group" [(s%"type", s%"NXsample")] [],
    .elem true s%"group" [(s%"type", s%"NXinstrument")] [],
    .elem true s%"group" [(s%"type", s%"NXcollection")] [],
    .elem true s%"group" [(s%"type", s%"NXmonitor")] [],
    .elem true s%"group" [(s%"type", s%"NXparameters")] [],
    .elem true s%"group" [(s%"type", s%"NXprocess")] [],
    .elem true s%"group" [(s%"type", s%"NXsubentry")] []]

/-- `NXdata` of the definitions (`base_classes/NXdata.nxdl.xml`), without the documentation. -/
def confNXdataXml : Xml :=
  .elem true s%"definition" [(s%"name", s%"NXdata"), (s%"type", s%"group"),
      (s%"extends", s%"NXobject"), (s%"category", s%"base"), (s%"ignoreExtraFields", s%"true"),
          (s%"ignoreExtraAttributes", s%"true")] [
    .elem true s%"symbols" [] [
      .elem true s%"symbol" [(s%"name", s%"dataRank")] [],
      .elem true s%"symbol" [(s%"name", s%"n")] [],
      .elem true s%"symbol" [(s%"name", s%"nx")] [],
      .elem true s%"symbol" [(s%"name", s%"ny")] [],
      .elem true s%"symbol" [(s%"name", s%"nz")] []],
    .elem true s%"attribute" [(s%"name", s%"signal")] [],
    .elem true s%"attribute" [(s%"name", s%"axes")] [],
    .elem true s%"attribute" [(s%"name", s%"AXISNAME_indices")] [],
    .elem true s%"field" [(s%"name", s%"VARIABLE"), (s%"type", s%"NX_NUMBER"),
        (s%"nameType", s%"any")] [
      .elem true s%"dimensions" [(s%"rank", s%"1")] [
        .elem true s%"dim" [(s%"index", s%"1"), (s%"value", s%"n")] []],
      .elem true s%"attribute" [(s%"name", s%"long_name")] [],
      .elem true s%"attribute" [(s%"name", s%"distribution"), (s%"type", s%"NX_BOOLEAN")] [],
      .elem true s%"attribute" [(s%"name", s%"first_good"), (s%"type", s%"NX_INT")] [],
      .elem true s%"attribute" [(s%"name", s%"last_good"), (s%"type", s%"NX_INT")] [],
      .elem true s%"attribute" [(s%"name", s%"axis"), (s%"type", s%"NX_POSINT"),
          (s%"deprecated", s%"Use the group ``axes`` attribute   (NIAC2014)")] []],
    .elem true s%"field" [(s%"name", s%"VARIABLE_errors"), (s%"type", s%"NX_NUMBER"),
        (s%"nameType", s%"any")] [
      .elem true s%"dimensions" [(s%"rank", s%"1")] [
        .elem true s%"dim" [(s%"index", s%"1"), (s%"value", s%"n")] []]],
    .elem true s%"field" [(s%"name", s%"DATA"), (s%"type", s%"NX_NUMBER"),
        (s%"nameType", s%"any")] [
      .elem true s%"dimensions" [(s%"rank", s%"dataRank")] [
        .elem true s%"dim" [(s%"index", s%"0"), (s%"value", s%"n")] []],
      .elem true s%"attribute" [(s%"name", s%"signal"), (s%"type", s%"NX_POSINT"),
          (s%"deprecated", s%"Use the group ``signal`` attribute   (NIAC2014)")] [],
      .elem true s%"attribute" [(s%"name", s%"axes"),
          (s%"deprecated", s%"Use the group ``axes`` attribute   (NIAC2014)")] [],
      .elem true s%"attribute" [(s%"name", s%"uncertainties")] [],
      .elem true s%"attribute" [(s%"name", s%"long_name")] []],
    .elem true s%"field" [(s%"name", s%"errors"), (s%"type", s%"NX_NUMBER")] [
      .elem true s%"dimensions" [(s%"rank", s%"dataRank")] [
        .elem true s%"dim" [(s%"index", s%"0"), (s%"value", s%"n")] []]],
    .elem true s%"field" [(s%"name", s%"scaling_factor"), (s%"type", s%"NX_FLOAT")] [],
    .elem true s%"field" [(s%"name", s%"offset"), (s%"type", s%"NX_FLOAT")] [],
    .elem true s%"field" [(s%"name", s%"x"), (s%"type", s%"NX_FLOAT"), (s%"units", s%"NX_ANY")] [
      .elem true s%"dimensions" [(s%"rank", s%"1")] [
        .elem true s%"dim" [(s%"index", s%"1"), (s%"value", s%"nx")] []]],
    .elem true s%"field" [(s%"name", s%"y"), (s%"type", s%"NX_FLOAT"), (s%"units", s%"NX_ANY")] [
      .elem true s%"dimensions" [(s%"rank", s%"1")] [
        .elem true s%"dim" [(s%"index", s%"1"), (s%"value", s%"ny")] []]],
    .elem true s%"field" [(s%"name", s%"z"), (s%"type", s%"NX_FLOAT"), (s%"units", s%"NX_ANY")] [
      .elem true s%"dimensions" [(s%"rank", s%"1")] [
        .elem true s%"dim" [(s%"index", s%"1"), (s%"value", s%"nz")] []]]]

/-- `NXcollection` of the definitions (`base_classes/NXcollection.nxdl.xml`), without the
    documentation. -/
def confNXcollectionXml : Xml :=
  .elem true s%"definition" [(s%"category", s%"base"), (s%"name", s%"NXcollection"),
      (s%"type", s%"group"), (s%"extends", s%"NXobject"), (s%"ignoreExtraGroups", s%"true"),
          (s%"ignoreExtraFields", s%"true"), (s%"ignoreExtraAttributes", s%"true")] []

/-- The directory of the definitions, reduced to the classes that the files use. -/
def confDir : DefDir :=
  ⟨true, some shippedDefaults, fun
    | .baseClasses => some [⟨s%"NXroot.nxdl.xml", some confNXrootXml⟩,
        ⟨s%"NXentry.nxdl.xml", some confNXentryXml⟩, ⟨s%"NXdata.nxdl.xml", some confNXdataXml⟩,
        ⟨s%"NXcollection.nxdl.xml", some confNXcollectionXml⟩]
    | _ => some []⟩

/-- The manager made of them, with the name patterns of the schema. -/
def confLoad : Except PyErr Manager :=
  loadManager (fun _ => true) confDir (some [strictPat, relaxedPat]) (some [nxClassPat])

/-- The manager. -/
def confMgr : Manager := confLoad.toOption.getD ⟨[], none, none, none⟩

/-- An array of three numbers. -/
def confData (n : Str) (a : List (Str × Val)) : Node :=
  .dataset n a (.ofVal (.arrNum [s%"1.0", s%"2.0", s%"3.14"]))

/-- `tests/test_nexus_warnings.py:160-203`: names of all kinds, and a signal that is not there. -/
def confNames : H5File where
  attrs := [(s%"default", .str s%"entry")]
  kids := (.cons s%"entry" .hard (.group s%"/entry" [(s%"NX_class", .str s%"NXentry"),
      (s%"default", .str s%"data"), (s%"@@@", .str s%"invalid"),
          (s%"@attribute", .str s%"invalid"), (s%"attribute@", .str s%"invalid")]
      (.cons s%"0_starts_with_number" .hard (confData s%"/entry/0_starts_with_number" [])
      (.cons s%"Relaxed" .hard (confData s%"/entry/Relaxed" [])
      (.cons s%"_starts_with_underscore" .hard (confData s%"/entry/_starts_with_underscore" [])
      (.cons s%"also not allowed" .hard (confData s%"/entry/also not allowed" [])
      (.cons s%"data" .hard (.group s%"/entry/data" [(s%"NX_class", .str s%"NXdata"),
          (s%"signal", .str s%"valid_item_name_strict")]
        (.cons s%"data" .hard (confData s%"/entry/data/data" [])
        .nil))
      (.cons s%"dataset_name_has@symbol" .hard (confData s%"/entry/dataset_name_has@symbol" [])
      (.cons s%"not.allowed" .hard (confData s%"/entry/not.allowed" [])
      (.cons s%"strict" .hard (confData s%"/entry/strict" [])
      .nil)))))))))
    .nil)

/-- `tests/test_nexus_warnings.py:33-67`: an NXcollection group with names that NeXus does not allow. -/
def confColl : H5File where
  attrs := [(s%"default", .str s%"entry")]
  kids := (.cons s%"entry" .hard (.group s%"/entry" [(s%"NX_class", .str s%"NXentry")]
      (.cons s%"collection" .hard (.group s%"/entry/collection" [(s%"NX_class", .str
          s%"NXcollection"), (s%"@ignored@", .str s%"ignored by NeXus")]
        (.cons s%"also    allowed" .hard (confData s%"/entry/collection/also    allowed" [])
        (.cons s%"anything.allowed" .hard (confData s%"/entry/collection/anything.allowed" [])
        .nil)))
      .nil))
    .nil)

/-- `tests/test_validate.py:488-505`: the plot is given by attributes. -/
def confV3 : H5File where
  attrs := [(s%"default", .str s%"entry")]
  kids := (.cons s%"entry" .hard (.group s%"/entry" [(s%"NX_class", .str s%"NXentry"),
      (s%"default", .str s%"data")]
      (.cons s%"data" .hard (.group s%"/entry/data" [(s%"NX_class", .str s%"NXdata"),
          (s%"signal", .str s%"y")]
        (.cons s%"x" .hard (confData s%"/entry/data/x" [(s%"units", .str s%"arbitrary")])
        (.cons s%"y" .hard (confData s%"/entry/data/y" [])
        .nil)))
      .nil))
    .nil)

/-- `tests/test_validate.py:508-540`: several plots given by attributes. -/
def confV3multi : H5File where
  attrs := [(s%"default", .str s%"entry")]
  kids := (.cons s%"entry" .hard (.group s%"/entry" [(s%"NX_class", .str s%"NXentry"),
      (s%"default", .str s%"data")]
      (.cons s%"data" .hard (.group s%"/entry/data" [(s%"NX_class", .str s%"NXdata"),
          (s%"signal", .str s%"y")]
        (.cons s%"x" .hard (confData s%"/entry/data/x" [(s%"units", .str s%"arbitrary")])
        (.cons s%"y" .hard (confData s%"/entry/data/y" [])
        .nil)))
      (.cons s%"data2" .hard (.group s%"/entry/data2" [(s%"NX_class", .str s%"NXdata"),
          (s%"signal", .str s%"moss")]
        (.cons s%"moss" .hard (confData s%"/entry/data2/moss" [])
        (.cons s%"turtle" .hard (confData s%"/entry/data2/turtle" [])
        .nil)))
      .nil)))
    (.cons s%"entry2" .hard (.group s%"/entry2" [(s%"NX_class", .str s%"NXentry"),
        (s%"default", .str s%"data3")]
      (.cons s%"data3" .hard (.group s%"/entry2/data3" [(s%"NX_class", .str s%"NXdata"),
          (s%"signal", .str s%"v")]
        (.cons s%"v" .hard (confData s%"/entry2/data3/v" [])
        .nil))
      .nil))
    .nil))

/-- `tests/test_validate.py:552-569`: the default of the entry is not there. -/
def confV3fail : H5File where
  attrs := [(s%"default", .str s%"entry")]
  kids := (.cons s%"entry" .hard (.group s%"/entry" [(s%"NX_class", .str s%"NXentry"),
      (s%"default", .str s%"will not be found")]
      (.cons s%"data" .hard (.group s%"/entry/data" [(s%"NX_class", .str s%"NXdata")]
        (.cons s%"x" .hard (confData s%"/entry/data/x" [(s%"units", .str s%"arbitrary")])
        (.cons s%"y" .hard (confData s%"/entry/data/y" [])
        .nil)))
      .nil))
    .nil)

/-- `tests/test_validate.py:572-592`: a field is marked as the signal. -/
def confV2 : H5File where
  attrs := []
  kids := (.cons s%"entry" .hard (.group s%"/entry" [(s%"NX_class", .str s%"NXentry")]
      (.cons s%"data" .hard (.group s%"/entry/data" [(s%"NX_class", .str s%"NXdata")]
        (.cons s%"x" .hard (confData s%"/entry/data/x" [(s%"units", .str s%"arbitrary"),
            (s%"signal", .int 1)])
        (.cons s%"y" .hard (confData s%"/entry/data/y" [(s%"signal", .int 2)])
        .nil)))
      .nil))
    .nil)

/-- `tests/test_validate.py:631-665`: two fields are marked as the signal. -/
def confV2multi : H5File where
  attrs := []
  kids := (.cons s%"entry" .hard (.group s%"/entry" [(s%"NX_class", .str s%"NXentry")]
      (.cons s%"data" .hard (.group s%"/entry/data" [(s%"NX_class", .str s%"NXdata")]
        (.cons s%"x" .hard (confData s%"/entry/data/x" [(s%"units", .str s%"arbitrary"),
            (s%"signal", .int 1)])
        (.cons s%"y" .hard (confData s%"/entry/data/y" [(s%"signal", .int 1)])
        .nil)))
      .nil))
    .nil)

/-- `tests/test_validate.py:604-619`: no field is marked as the signal. -/
def confV2fail : H5File where
  attrs := []
  kids := (.cons s%"entry" .hard (.group s%"/entry" [(s%"NX_class", .str s%"NXentry")]
      (.cons s%"data" .hard (.group s%"/entry/data" [(s%"NX_class", .str s%"NXdata")]
        (.cons s%"x" .hard (confData s%"/entry/data/x" [(s%"units", .str s%"arbitrary")])
        (.cons s%"y" .hard (confData s%"/entry/data/y" [])
        .nil)))
      .nil))
    .nil)

/-- `tests/test_i219_nxdata_mismatch.py`: an axis that is not there. -/
def conf219 : H5File where
  attrs := [(s%"default", .str s%"entry")]
  kids := (.cons s%"entry" .hard (.group s%"/entry" [(s%"NX_class", .str s%"NXentry"),
      (s%"default", .str s%"data")]
      (.cons s%"data" .hard (.group s%"/entry/data" [(s%"NX_class", .str s%"NXdata"),
          (s%"signal", .str s%"XPS_sample"), (s%"axes", .arrO [s%"und"])]
        (.cons s%"XPS_sample" .hard (confData s%"/entry/data/XPS_sample" [])
        (.cons s%"und_readback" .hard (confData s%"/entry/data/und_readback" [])
        .nil)))
      .nil))
    .nil)

/-- The findings for a file. -/
def confRun (f : H5File) : List Finding := findings (validateOpen sampleEnv confMgr [] f).log

/-- How many findings have this title and status. -/
def confCount (f : H5File) (test : Str) (s : Status) : Nat :=
  ((confRun f).filter fun x => x.test = test && x.status = s).length

/-- The status and the comment of the findings at an address with a title. -/
def confAt (f : H5File) (addr test : Str) : List (Status × Str) :=
  ((confRun f).filter fun x => x.addr = some addr && x.test = test).map
    fun x => (x.status, x.comment)

/-- The definitions are read. -/
theorem conf_load : confLoad.toOption.map (fun m => Dict.keys m.classes) =
    some [s%"NXcollection", s%"NXdata", s%"NXentry", s%"NXroot"] := by
  decide +kernel

/-- `tests/test_nexus_warnings.py:124-203`: 99 findings. -/
theorem conf_names : (confRun confNames).length = 99 := by
  decide +kernel

/-- `tests/test_nexus_warnings.py:130-149`: the findings on the names. -/
theorem conf_name_findings :
    confAt confNames s%"/entry/0_starts_with_number" s%"validItemName" =
      [(.error, s%"valid HDF5 item name, not valid with NeXus")] ∧
    confAt confNames s%"/entry@@@@" s%"validItemName" =
      [(.error, s%"no matching pattern found")] ∧
    confAt confNames s%"/entry@@attribute" s%"validItemName" =
      [(.error, s%"no matching pattern found")] ∧
    confAt confNames s%"/entry@attribute@" s%"validItemName" =
      [(.error, s%"no matching pattern found")] ∧
    confAt confNames s%"/entry@NX_class" s%"validItemName" = [(.ok, s%"pattern: NX.+")] ∧
    confAt confNames s%"/entry@default" s%"validItemName" =
      [(.ok, s%"strict pattern: [a-z_][a-z0-9_]*")] ∧
    confAt confNames s%"/entry/data@signal" s%"validItemName" =
      [(.ok, s%"strict pattern: [a-z_][a-z0-9_]*")] ∧
    confAt confNames s%"/entry/_starts_with_underscore" s%"validItemName" =
      [(.ok, s%"strict pattern: [a-z_][a-z0-9_]*")] ∧
    confAt confNames s%"/entry/also not allowed" s%"validItemName" =
      [(.error, s%"valid HDF5 item name, not valid with NeXus")] ∧
    confAt confNames s%"/entry/data@signal" s%"NeXus default plot v3, NXdata@signal" =
      [(.error, s%"field described by @signal does not exist")] ∧
    confAt confNames s%"/entry/dataset_name_has@symbol" s%"validItemName" =
      [(.error, s%"no matching pattern found")] ∧
    confAt confNames s%"/entry/not.allowed" s%"validItemName" =
      [(.error, s%"valid HDF5 item name, not valid with NeXus")] ∧
    confAt confNames s%"/entry/Relaxed" s%"validItemName" =
      [(.note, s%"relaxed pattern: [A-Za-z_][\\w_]*")] ∧
    confAt confNames s%"/entry/strict" s%"validItemName" =
      [(.ok, s%"strict pattern: [a-z_][a-z0-9_]*")] := by
  refine ⟨?_, ?_, ?_, ?_, ?_, ?_, ?_, ?_, ?_, ?_, ?_, ?_, ?_, ?_⟩ <;>
    decide +kernel

/-- `tests/test_nexus_warnings.py:21-67`: 61 findings, with warnings for the content. -/
theorem conf_collection : (confRun confColl).length = 61 ∧
    confAt confColl s%"/entry/collection@NX_class" s%"validItemName" =
      [(.ok, s%"pattern: NX.+")] ∧
    confAt confColl s%"/entry/collection" s%"validItemName" =
      [(.warn, s%"NXcollection contains non-NeXus content")] ∧
    confAt confColl s%"/entry/collection/also    allowed" s%"validItemName" =
      [(.warn, s%"NXcollection contains non-NeXus content")] ∧
    confAt confColl s%"/entry/collection/anything.allowed" s%"validItemName" =
      [(.warn, s%"NXcollection contains non-NeXus content")] := by
  decide +kernel

/-- `tests/test_validate.py:488-505`. -/
theorem conf_v3 : confCount confV3 s%"NeXus default plot" .ok = 1 ∧
    confCount confV3 s%"NeXus default plot v3 NIAC2014" .ok = 1 ∧
    confCount confV3 s%"NeXus default plot v3, NXdata@signal" .ok = 1 := by
  decide +kernel

/-- `tests/test_validate.py:508-540`. -/
theorem conf_v3_multi : confCount confV3multi s%"NeXus default plot" .ok = 1 ∧
    confCount confV3multi s%"NeXus default plot v3 NIAC2014" .ok = 1 ∧
    confCount confV3multi s%"NeXus default plot v3, NXdata@signal" .ok = 3 := by
  decide +kernel

/-- `tests/test_validate.py:543-569`: no plot, and one note about it. -/
theorem conf_v3_fail : confCount confV3fail s%"NeXus default plot" .ok = 0 ∧
    confCount confV3fail s%"NeXus default plot" .note = 1 ∧
    (findingScore (confRun confV3fail)).total < 0 := by
  decide +kernel

/-- `tests/test_validate.py:572-592`. -/
theorem conf_v2 : confCount confV2 s%"NeXus default plot" .ok = 1 ∧
    confCount confV2 s%"NeXus default plot v2" .ok = 1 ∧
    confCount confV2 s%"NeXus default plot v2, @signal!=1" .warn = 1 := by
  decide +kernel

/-- `tests/test_validate.py:595-619`. -/
theorem conf_v2_fail : confCount confV2fail s%"NeXus default plot" .ok = 0 ∧
    confCount confV2fail s%"NeXus default plot" .note = 1 := by
  decide +kernel

/-- `tests/test_validate.py:622-665`. -/
theorem conf_v2_multi : confCount confV2multi s%"NeXus default plot" .ok = 0 ∧
    confCount confV2multi s%"NeXus default plot v2, @signal=1" .ok = 2 ∧
    confCount confV2multi s%"NeXus default plot v2, multiple @signal=1" .error = 1 ∧
    (findingScore (confRun confV2multi)).total < 0 := by
  decide +kernel

/-- `tests/test_i219_nxdata_mismatch.py`: the average score is below -10000. -/
theorem conf_219 : (findingScore (confRun conf219)).total <
    -10000 * (findingScore (confRun conf219)).count := by
  decide +kernel

end Punx

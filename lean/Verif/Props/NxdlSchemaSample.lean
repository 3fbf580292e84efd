import Verif.Props.NxdlSchema

/-!
# The schema shipped as `punx/cache/v3.3/nxdl.xsd`

Without annotations, includes, enumerations and wildcards, which the reader does not look at.
-/

namespace Punx
open Spec

/-- The schema; the attribute `minOccurs` of fields starts on the given line (in the file: 705). -/
def nxdlXsd (l : Nat) : XsNode :=
 .elem true s%"schema" 3 [] [
  .elem true s%"element" 47 [(s%"name", s%"definition"), (s%"type", s%"nx:definitionType")] [],
  .elem true s%"simpleType" 62 [(s%"name", s%"validItemName")] [
   .elem true s%"restriction" 79 [(s%"base", s%"xs:token")] [
    .elem true s%"pattern" 80 [(s%"value", s%"[A-Za-z_][\\w_]*")] [],
    .elem true s%"maxLength" 81 [(s%"value", s%"63")] []]],
  .elem true s%"simpleType" 85 [(s%"name", s%"validNXClassName")] [
   .elem true s%"restriction" 94 [(s%"base", s%"nx:validItemName")] [
    .elem true s%"pattern" 95 [(s%"value", s%"NX.+")] []]],
  .elem true s%"simpleType" 99 [(s%"name", s%"validTargetName")] [
   .elem true s%"restriction" 117 [(s%"base", s%"xs:token")] [
    .elem true s%"pattern" 134 [(s%"value", s%"(/[a-zA-Z_][\\w_]*(:[a-zA-Z_][\\w_]*)?)+")] []]],
  .elem true s%"attributeGroup" 140 [(s%"name", s%"deprecatedAttributeGroup")] [
   .elem true s%"attribute" 141 [(s%"name", s%"deprecated"), (s%"use", s%"optional")] [
    .elem true s%"simpleType" 162 [] [
     .elem true s%"restriction" 163 [(s%"base", s%"xs:string")] [
      .elem true s%"pattern" 164 [(s%"value", s%".*(\\w+).*")] []]]]],
  .elem true s%"complexType" 170 [(s%"name", s%"definitionType")] [
   .elem true s%"sequence" 198 [] [
    .elem true s%"element" 199 [(s%"name", s%"symbols"), (s%"type", s%"nx:symbolsType"),
      (s%"minOccurs", s%"0"), (s%"maxOccurs", s%"1")] [],
    .elem true s%"group" 208 [(s%"ref", s%"nx:groupGroup"), (s%"minOccurs", s%"0"),
      (s%"maxOccurs", s%"unbounded")] []],
   .elem true s%"attribute" 218 [(s%"name", s%"name"), (s%"use", s%"required"),
     (s%"type", s%"nx:validItemName")] [],
   .elem true s%"attribute" 230 [(s%"name", s%"version"), (s%"use", s%"required")] [],
   .elem true s%"attribute" 242 [(s%"name", s%"type"), (s%"use", s%"required"),
     (s%"type", s%"nx:definitionTypeAttr")] [],
   .elem true s%"attribute" 247 [(s%"name", s%"extends"), (s%"use", s%"optional")] [],
   .elem true s%"attribute" 256 [(s%"name", s%"restricts"), (s%"use", s%"optional")] [],
   .elem true s%"attribute" 268 [(s%"name", s%"svnid"), (s%"use", s%"optional")] [],
   .elem true s%"attribute" 278 [(s%"name", s%"category"), (s%"use", s%"required")] [
    .elem true s%"simpleType" 295 [] [
     .elem true s%"restriction" 296 [(s%"base", s%"xs:string")] []]],
   .elem true s%"attribute" 303 [(s%"name", s%"ignoreExtraGroups"), (s%"use", s%"optional"),
     (s%"type", s%"nx:NX_BOOLEAN"), (s%"default", s%"false")] [],
   .elem true s%"attribute" 319 [(s%"name", s%"ignoreExtraFields"), (s%"use", s%"optional"),
     (s%"type", s%"nx:NX_BOOLEAN"), (s%"default", s%"false")] [],
   .elem true s%"attribute" 335 [(s%"name", s%"ignoreExtraAttributes"), (s%"use", s%"optional"),
     (s%"type", s%"nx:NX_BOOLEAN"), (s%"default", s%"false")] [],
   .elem true s%"attributeGroup" 351 [(s%"ref", s%"nx:deprecatedAttributeGroup")] []],
  .elem true s%"simpleType" 354 [(s%"name", s%"definitionTypeAttr")] [
   .elem true s%"restriction" 362 [(s%"base", s%"xs:string")] []],
  .elem true s%"complexType" 370 [(s%"name", s%"groupType")] [
   .elem true s%"group" 389 [(s%"ref", s%"nx:groupGroup"), (s%"minOccurs", s%"0"),
     (s%"maxOccurs", s%"unbounded")] [],
   .elem true s%"attribute" 396 [(s%"name", s%"type"), (s%"use", s%"required"),
     (s%"type", s%"nx:validNXClassName")] [],
   .elem true s%"attribute" 405 [(s%"name", s%"name"), (s%"use", s%"optional"),
     (s%"type", s%"nx:validItemName")] [],
   .elem true s%"attribute" 430 [(s%"name", s%"minOccurs"), (s%"use", s%"optional"),
     (s%"default", s%"0"), (s%"type", s%"nx:nonNegativeUnbounded")] [],
   .elem true s%"attribute" 440 [(s%"name", s%"maxOccurs"), (s%"use", s%"optional"),
     (s%"type", s%"nx:nonNegativeUnbounded")] [],
   .elem true s%"attributeGroup" 450 [(s%"ref", s%"nx:deprecatedAttributeGroup")] []],
  .elem true s%"group" 453 [(s%"name", s%"groupGroup")] [
   .elem true s%"sequence" 460 [] [
    .elem true s%"element" 461 [(s%"name", s%"doc"), (s%"type", s%"nx:docType"),
      (s%"minOccurs", s%"0"), (s%"maxOccurs", s%"1")] [],
    .elem true s%"element" 469 [(s%"name", s%"attribute"), (s%"type", s%"nx:attributeType"),
      (s%"minOccurs", s%"0"), (s%"maxOccurs", s%"unbounded")] [],
    .elem true s%"element" 477 [(s%"name", s%"group"), (s%"type", s%"nx:groupType"),
      (s%"minOccurs", s%"0"), (s%"maxOccurs", s%"unbounded")] [],
    .elem true s%"element" 484 [(s%"name", s%"field"), (s%"type", s%"nx:fieldType"),
      (s%"minOccurs", s%"0"), (s%"maxOccurs", s%"unbounded")] [],
    .elem true s%"element" 491 [(s%"name", s%"link"), (s%"type", s%"nx:linkType"),
      (s%"minOccurs", s%"0"), (s%"maxOccurs", s%"unbounded")] []]],
  .elem true s%"complexType" 521 [(s%"name", s%"basicComponent")] [
   .elem true s%"sequence" 531 [] [
    .elem true s%"element" 532 [(s%"name", s%"doc"), (s%"type", s%"nx:docType"),
      (s%"minOccurs", s%"0"), (s%"maxOccurs", s%"1")] []],
   .elem true s%"attribute" 541 [(s%"name", s%"name"), (s%"use", s%"required"),
     (s%"type", s%"nx:validItemName")] [],
   .elem true s%"attributeGroup" 554 [(s%"ref", s%"nx:deprecatedAttributeGroup")] []],
  .elem true s%"complexType" 559 [(s%"name", s%"fieldType")] [
   .elem true s%"complexContent" 577 [] [
    .elem true s%"extension" 578 [(s%"base", s%"nx:basicComponent")] [
     .elem true s%"sequence" 579 [] [
      .elem true s%"element" 580 [(s%"name", s%"dimensions"), (s%"type", s%"nx:dimensionsType"),
        (s%"minOccurs", s%"0"), (s%"maxOccurs", s%"1")] [],
      .elem true s%"element" 586 [(s%"name", s%"attribute"), (s%"type", s%"nx:attributeType"),
        (s%"minOccurs", s%"0"), (s%"maxOccurs", s%"unbounded")] [],
      .elem true s%"element" 592 [(s%"name", s%"enumeration"),
        (s%"type", s%"nx:enumerationType"), (s%"minOccurs", s%"0")] []],
     .elem true s%"attribute" 599 [(s%"name", s%"units"), (s%"type", s%"nx:anyUnitsAttr")] [],
     .elem true s%"attribute" 609 [(s%"name", s%"long_name"), (s%"type", s%"nx:NX_CHAR")] [],
     .elem true s%"attribute" 617 [(s%"name", s%"signal"), (s%"type", s%"nx:NX_POSINT")] [],
     .elem true s%"attribute" 634 [(s%"name", s%"axes"), (s%"type", s%"nx:NX_CHAR")] [],
     .elem true s%"attribute" 654 [(s%"name", s%"axis"), (s%"type", s%"nx:NX_POSINT")] [],
     .elem true s%"attribute" 686 [(s%"name", s%"primary"), (s%"type", s%"nx:NX_POSINT")] [],
     .elem true s%"attribute" 697 [(s%"name", s%"type"), (s%"type", s%"nx:NAPI"),
       (s%"default", s%"NX_CHAR")] [],
     .elem true s%"attribute" l [(s%"name", s%"minOccurs"), (s%"use", s%"optional"),
       (s%"default", s%"0"), (s%"type", s%"nx:nonNegativeUnbounded")] [],
     .elem true s%"attribute" 714 [(s%"name", s%"maxOccurs"), (s%"use", s%"optional"),
       (s%"default", s%"1"), (s%"type", s%"nx:nonNegativeUnbounded")] [],
     .elem true s%"attribute" 724 [(s%"name", s%"stride"), (s%"use", s%"optional"),
       (s%"default", s%"1"), (s%"type", s%"nx:NX_INT")] [],
     .elem true s%"attribute" 759 [(s%"name", s%"data_offset"), (s%"use", s%"optional"),
       (s%"default", s%"1"), (s%"type", s%"nx:nonNegativeUnbounded")] [],
     .elem true s%"attribute" 791 [(s%"name", s%"interpretation"), (s%"use", s%"optional")] [
      .elem true s%"simpleType" 815 [] [
       .elem true s%"restriction" 816 [(s%"base", s%"nx:NX_CHAR")] []]],
     .elem true s%"attribute" 824 [(s%"name", s%"nameType"), (s%"use", s%"optional"),
       (s%"default", s%"specified")] [
      .elem true s%"simpleType" 832 [] [
       .elem true s%"restriction" 833 [(s%"base", s%"nx:NX_CHAR")] []]]]]],
  .elem true s%"complexType" 843 [(s%"name", s%"attributeType")] [
   .elem true s%"sequence" 858 [] [
    .elem true s%"element" 859 [(s%"name", s%"doc"), (s%"type", s%"nx:docType"),
      (s%"minOccurs", s%"0")] [],
    .elem true s%"element" 867 [(s%"name", s%"enumeration"), (s%"type", s%"nx:enumerationType"),
      (s%"minOccurs", s%"0")] [],
    .elem true s%"element" 875 [(s%"name", s%"dimensions"), (s%"type", s%"nx:dimensionsType"),
      (s%"minOccurs", s%"0"), (s%"maxOccurs", s%"1")] []],
   .elem true s%"attribute" 883 [(s%"name", s%"name"), (s%"use", s%"required"),
     (s%"type", s%"nx:validItemName")] [],
   .elem true s%"attribute" 890 [(s%"name", s%"type"), (s%"type", s%"nx:primitiveType"),
     (s%"default", s%"NX_CHAR")] [],
   .elem true s%"attribute" 900 [(s%"name", s%"optional"), (s%"type", s%"nx:NX_BOOLEAN"),
     (s%"default", s%"true")] [],
   .elem true s%"attributeGroup" 908 [(s%"ref", s%"nx:deprecatedAttributeGroup")] []],
  .elem true s%"simpleType" 911 [(s%"name", s%"nonNegativeUnbounded")] [
   .elem true s%"union" 920 [] [
    .elem true s%"simpleType" 921 [] [
     .elem true s%"restriction" 922 [(s%"base", s%"xs:nonNegativeInteger")] []],
    .elem true s%"simpleType" 924 [] [
     .elem true s%"restriction" 925 [(s%"base", s%"xs:string")] []]]],
  .elem true s%"complexType" 934 [(s%"name", s%"linkType")] [
   .elem true s%"complexContent" 943 [] [
    .elem true s%"extension" 944 [(s%"base", s%"nx:basicComponent")] [
     .elem true s%"attribute" 945 [(s%"name", s%"target"), (s%"use", s%"required"),
       (s%"type", s%"nx:validTargetName")] [],
     .elem true s%"attribute" 980 [(s%"name", s%"napimount"), (s%"use", s%"optional"),
       (s%"type", s%"xs:string")] []]]],
  .elem true s%"complexType" 994 [(s%"name", s%"docType")] [
   .elem true s%"sequence" 1027 [] []],
  .elem true s%"complexType" 1032 [(s%"name", s%"symbolsType")] [
   .elem true s%"sequence" 1046 [] [
    .elem true s%"element" 1047 [(s%"name", s%"doc"), (s%"type", s%"nx:docType"),
      (s%"minOccurs", s%"0"), (s%"maxOccurs", s%"1")] [],
    .elem true s%"element" 1055 [(s%"name", s%"symbol"), (s%"minOccurs", s%"0"),
      (s%"maxOccurs", s%"unbounded")] [
     .elem true s%"complexType" 1064 [] [
      .elem true s%"sequence" 1065 [] [
       .elem true s%"element" 1066 [(s%"name", s%"doc"), (s%"type", s%"nx:docType"),
         (s%"minOccurs", s%"0"), (s%"maxOccurs", s%"1")] []],
      .elem true s%"attribute" 1075 [(s%"name", s%"name"), (s%"type", s%"nx:validItemName")] []]]]],
  .elem true s%"complexType" 1087 [(s%"name", s%"enumerationType")] [
   .elem true s%"sequence" 1114 [] [
    .elem true s%"element" 1115 [(s%"name", s%"item"), (s%"minOccurs", s%"1"),
      (s%"maxOccurs", s%"unbounded")] [
     .elem true s%"complexType" 1124 [] [
      .elem true s%"sequence" 1125 [] [
       .elem true s%"element" 1126 [(s%"name", s%"doc"), (s%"type", s%"nx:docType"),
         (s%"minOccurs", s%"0"), (s%"maxOccurs", s%"1")] []],
      .elem true s%"attribute" 1136 [(s%"name", s%"value"), (s%"use", s%"required")] []]]]],
  .elem true s%"complexType" 1149 [(s%"name", s%"dimensionsType")] [
   .elem true s%"sequence" 1160 [] [
    .elem true s%"element" 1161 [(s%"name", s%"doc"), (s%"type", s%"nx:docType"),
      (s%"minOccurs", s%"0")] [],
    .elem true s%"element" 1169 [(s%"name", s%"dim"), (s%"minOccurs", s%"0"),
      (s%"maxOccurs", s%"unbounded")] [
     .elem true s%"complexType" 1192 [] [
      .elem true s%"attribute" 1193 [(s%"name", s%"index"), (s%"use", s%"required")] [],
      .elem true s%"attribute" 1209 [(s%"name", s%"value"), (s%"type", s%"nx:NX_CHAR")] [],
      .elem true s%"attribute" 1217 [(s%"name", s%"ref"), (s%"type", s%"nx:NX_CHAR")] [],
      .elem true s%"attribute" 1230 [(s%"name", s%"refindex"), (s%"type", s%"nx:NX_CHAR")] [],
      .elem true s%"attribute" 1242 [(s%"name", s%"incr"), (s%"type", s%"nx:NX_CHAR")] [],
      .elem true s%"attribute" 1252 [(s%"name", s%"required"), (s%"type", s%"nx:NX_BOOLEAN"),
        (s%"default", s%"true")] []]]],
   .elem true s%"attribute" 1269 [(s%"name", s%"rank"), (s%"type", s%"nx:NX_CHAR")] []]]

/-- `int(text)` for the lengths in the schema. -/
def xsdInt (s : Str) : Option Int := if s = s%"63" then some 63 else none

theorem nxdlXsd_distinct : DistinctLines (nxdlXsd 705) := by
  unfold DistinctLines
  decide +kernel

/-- The defaults read from the shipped schema. -/
theorem nxdlXsd_defaults :
    (summarize 10 xsdInt (nxdlXsd 705)).toOption.map Summary.defaults =
      some ⟨some (.text s%"true"), some (.text s%"0"), some (.text s%"0"), true, true⟩ := by
  decide +kernel

/-- C78 is false: if `minOccurs` and `maxOccurs` of fields are written on one line, the default of
the first is lost and no application definition with a field can be read any more. -/
theorem layout_matters :
    SameContent (nxdlXsd 705) (nxdlXsd 714) ∧
    (summarize 10 xsdInt (nxdlXsd 714)).toOption.map Summary.defaults =
      some ⟨some (.text s%"true"), none, some (.text s%"0"), true, true⟩ ∧
    ∀ d : Defaults, d.fieldMinOccurs = none → noteField .applications d = .error .keyError := by
  refine ⟨?_, by decide +kernel, fun d hd => ?_⟩
  · rfl
  · rw [noteField]
    simp only [hd]

/-- One attribute is moved to another line of its own. -/
example : summarize 10 xsdInt (nxdlXsd 705) = summarize 10 xsdInt (nxdlXsd 706) :=
  layout_irrelevant_partial 10 xsdInt rfl nxdlXsd_distinct (by unfold DistinctLines; decide +kernel)

end Punx

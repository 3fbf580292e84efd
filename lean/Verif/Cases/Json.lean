import Verif.Props.Json5

/-!
# C128: cases
-/

namespace Punx
open Spec

/-- A value with all kinds of parts: `{"a\n€😀": [1, -20, null], "b": {"c": "", "d": true}, "e": {}}`. -/
def sampleJson : JVal :=
  .obj [(['a', '\n', '€', '😀'], .arr [.int 1, .int (-20), .null]),
    (s%"b", .obj [(s%"c", .str []), (s%"d", .bool true)]), (s%"e", .obj [])]

theorem sampleJson_keyed : Keyed sampleJson := by
  refine .obj (by decide) (.cons _ (.arr ?_) (.cons _ (.obj (by decide) ?_) (.cons _ (.obj ?_ .nil) .nil)))
  · exact .cons (.int _) (.cons (.int _) (.cons .null .nil))
  · exact .cons _ (.str _) (.cons _ (.bool _) .nil)
  · decide

/-- What is written, as in Python. -/
example : sampleJson.dumps =
    s%"{\n  \"a\\n\\u20ac\\ud83d\\ude00\": [\n    1,\n    -20,\n    null\n  ],\n  \"b\": {\n    \"c\": \"\",\n    \"d\": true\n  },\n  \"e\": {}\n}" := by
  decide +kernel

example : JVal.loads sampleJson.dumps = .ok sampleJson := json_read_back sampleJson_keyed

/-- Other ways to write the same value are read, too. -/
example : (match JVal.loads s%" { \"a\" :1 , \"b\":[ ] }\n" with
    | .ok (.obj [(k, .int 1), (l, .arr [])]) => decide (k = s%"a" ∧ l = s%"b")
    | _ => false) = true := by decide +kernel

/-- The last of several values for one key counts. -/
example : (match JVal.loads s%"{\"a\": 1, \"a\": 2}" with
    | .ok (.obj [(k, .int 2)]) => decide (k = s%"a")
    | _ => false) = true := by decide +kernel

example : JVal.loads s%"{\n  \"ref\": \"v" = .error .valueError :=
  json_part_refused (v := .obj [(s%"ref", .str s%"v")]) (.obj (by decide) (.cons _ (.str _) .nil)) trivial
    ⟨s%"\"\n}", by decide +kernel⟩ (by decide +kernel)

/-- A part of a number is a number: only values with brackets or quotes are protected. -/
theorem number_part_read : ['1'] <+: (JVal.int 12).dumps ∧ JVal.loads ['1'] = .ok (.int 1) :=
  ⟨⟨['2'], by decide +kernel⟩, json_read_back (.int 1)⟩

example : ∃ d : Disk, d [s%"main", infoName] =
    some (.file (.json (infoFields s%"main" s%"a4fd52d1" s%"2017-07-12 10:41:12" s%"now"))) :=
  ⟨fun _ => some (.file (.json (infoFields s%"main" s%"a4fd52d1" s%"2017-07-12 10:41:12" s%"now"))), rfl⟩

/-- A file that was opened for writing and not written yet. -/
example : readInfoText [] = .error .valueError :=
  info_part_refused (o := infoFields s%"main" s%"a4fd52d1" s%"2017-07-12 10:41:12" s%"now")
    (by decide +kernel) (List.nil_prefix) (by decide +kernel)

end Punx

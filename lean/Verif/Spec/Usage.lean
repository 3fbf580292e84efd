import Verif.Model.Argparse

/-!
# The usage of the commands, as `docs/source/cmd_*.rst` and the help of `punx` describe it

This does not use the descriptions of the parsers: the names of the options are written out.
-/

namespace Punx

/-- An argument of its own that does not look like an option. -/
def PlainWord (s : Str) : Prop := s.head? ≠ some '-'

/-- `punx validate [-h] [-f FILE_SET_NAME] [--report REPORT] infile` -/
inductive ValidateOption
  | f (name : Str)
  | fileSetName (name : Str)
  | fileSetNameIs (name : Str)
  | report (selection : Str)
  | reportIs (selection : Str)

def ValidateOption.written : ValidateOption → List Str
  | .f n => [s%"-f", n]
  | .fileSetName n => [s%"--file_set_name", n]
  | .fileSetNameIs n => [s%"--file_set_name=" ++ n]
  | .report r => [s%"--report", r]
  | .reportIs r => [s%"--report=" ++ r]

def ValidateOption.Plain : ValidateOption → Prop
  | .f n => PlainWord n
  | .fileSetName n => PlainWord n
  | .fileSetNameIs _ => True
  | .report r => PlainWord r
  | .reportIs _ => True

/-- The options set the arguments one after the other. -/
def ValidateOption.set (a : ValidateArgs) : ValidateOption → ValidateArgs
  | .f n => { a with fileSet := some n }
  | .fileSetName n => { a with fileSet := some n }
  | .fileSetNameIs n => { a with fileSet := some n }
  | .report r => { a with report := r }
  | .reportIs r => { a with report := r }

/-- `punx tree [-h] [-a] [-m MAX_ARRAY_ITEMS] infile` -/
inductive TreeOption
  | a
  | m (number : Str)
  | maxArrayItems (number : Str)
  | maxArrayItemsIs (number : Str)

def TreeOption.written : TreeOption → List Str
  | .a => [s%"-a"]
  | .m n => [s%"-m", n]
  | .maxArrayItems n => [s%"--max_array_items", n]
  | .maxArrayItemsIs n => [s%"--max_array_items=" ++ n]

def TreeOption.Plain (t : Texts) : TreeOption → Prop
  | .a => True
  | .m n => PlainWord n ∧ ∃ i, t.int n = some i
  | .maxArrayItems n => PlainWord n ∧ ∃ i, t.int n = some i
  | .maxArrayItemsIs n => ∃ i, t.int n = some i

/-- Whether attributes are shown, and how many items of an array. -/
def TreeOption.set (t : Texts) (x : Bool × Int) : TreeOption → Bool × Int
  | .a => (false, x.2)
  | .m n => (x.1, (t.int n).getD x.2)
  | .maxArrayItems n => (x.1, (t.int n).getD x.2)
  | .maxArrayItemsIs n => (x.1, (t.int n).getD x.2)

/-- `punx install [-h] [-u] [file_set_name ...]` -/
inductive InstallOption
  | u
  | update

def InstallOption.written : InstallOption → List Str
  | .u => [s%"-u"]
  | .update => [s%"--update"]

/-- The ways to ask for help. -/
def helpWords : List Str := [s%"-h", s%"--help"]

/-- The ways to ask for the version. -/
def versionWords : List Str := [s%"-v", s%"--version"]

end Punx

# Formal model of punx

Machine-checked (Lean 4) model of the parts of `prjemian/punx` on which a user
relies when a file is validated, listed, or when definitions are selected and
installed.  `properties.jsonl` lists the properties, `MANIFEST.json` maps each
of them to theorem names, `seeded/LOG.jsonl` records how theorems were tested
against deliberately wrong models.

## Trusted base

* Lean 4.33.0 kernel.  Axioms: at most `propext`, `Classical.choice`,
  `Quot.sound` (Lean's standard three).  No axiom is added, no `sorry`, no
  `native_decide`, no `bv_decide`.
* The transcription of the Python code into Lean definitions.  Each definition
  cites the file and lines it mirrors and states its simplifications.
* The behaviour of the libraries underneath (h5py, numpy, lxml, Qt, requests,
  zipfile, the Python interpreter).  Where the behaviour of a library matters
  it is either a parameter of the model (structure `Env`, quantified over in
  all theorems) or an explicitly commented definition (for example path look-up
  in HDF5 groups).

## Shape of the model

* `Str := List Char`; Python dictionaries are insertion ordered association
  lists; Python exceptions are values of `PyErr` (only the class of the
  exception is kept).
* HDF5 files are finite trees `Node`/`Kids`: a link either resolves to an object
  or is broken.  What h5py reports as `obj.name` is a field of the object, not
  computed, since it differs from the path for external links.  Shared objects
  (several hard links) appear once per link.  Hard-link cycles are treated in a
  separate graph model (C11).
* Validation code runs in a writer monad with exceptions: the effects (findings,
  changes of the definition objects) made before an exception are kept, as in
  Python.
* `Verif/Py` – Python primitives; `Verif/Model` – transcription of the code;
  `Verif/Spec` – specifications written independently of the model;
  `Verif/Lemmas` – auxiliary lemmas; `Verif/Props` – the property theorems with
  concrete instances of their hypotheses; `Verif/Cases` – the theorems with
  hypotheses applied to concrete files, definitions, caches and schemas.

## Properties: what is modelled and how it is proved

| Property | Model | Method |
|---|---|---|
| C01–C03, C59 | `Report`: `finding_score`, `finding_summary` over lists of findings | induction on the list; permutation invariance |
| C04, C33, C59 | `Report`: `print_report` (filter, stable sort on the textual key) | sortedness + permutation + stability of insertion sort; order of the printed rows |
| C05 | `Finding`: `Finding.__init__`, pre-image of `make_md5` | case analysis; injectivity of concatenation |
| C06–C10 | `Validator`: `ValidationItem`, `_group_address_catalog_` | mutual induction over `Node`/`Kids` |
| C11 | `LinkGraph`: the same walk over a store of objects with shared links, recursion limit as fuel | induction on the limit; a walk finishes for some limit iff no cycle and no broken object is reachable; `Spec/Unfold` relates stores without cycles to the trees of the other claims |
| C92 | `TreeGraph`: `_renderGroup` of `h5tree.py` over a store of groups with `target` attributes | chains of shown groups are bounded: a group with a target occurs once (addresses grow), groups without target do not repeat if there is no cycle of them |
| C12–C16 | `ItemName`, `Regex`: `item_name.verify`, regular expressions with derivative matcher | matcher proved equal to the denotational language; verdicts of a whole run are split by item |
| C17–C20, C60–C62 | `Attribute`: `attribute.verify` and its handlers | case analysis, induction over axes and path components |
| C21–C25, C35, C62 | `Groups`: `usedAsBaseClass`, `nx_class_attribute`, group and base class checks | the findings of a run are split into the groups of the catalogue; each part equals a list given by the specification |
| C26 | `AppDef`: `application_definition.verify` | induction over the field list |
| C27–C30 | `DefaultPlot`: `default_plot.verify`, v3, v3 NIAC, v2 | the complete result of each method is characterised for every file |
| C77 | exceptions of a whole validation | each step gets an iff between `.ok` and a condition on the file; mutual induction over the tree for the catalogue |
| C31, C32, C34, C91 | `Validate`: `validate`, `close`, `Finding` records as a state machine | invariants over histories of calls |
| C36, C37, C56 | `Utils` | structural induction on values |
| C38–C41, C63 | `H5Tree` | mutual induction over the tree; arithmetic of previews |
| C42–C48, C64–C70, C72, C74 | `Cache`: `cache_manager.py`; installation as a sequence of file system operations that may stop after each | sorting lemmas; induction over operation prefixes and histories |
| C49–C51, C75, C76, C90 | `NxdlParse`: `nxdl_manager.py` and its use of the schema defaults | induction over XML elements; aliasing of defaults modelled by an explicit state |
| C78–C81 | `NxdlSchema`: `nxdl_schema.py`, from the XML of `nxdl.xsd` to the defaults | a second version of the reader that looks at nodes instead of lines, equal to the first if lines differ; iff for exceptions; well-founded parts for substitution, whose results are an inductive relation (`Spec/PutIn`); invariant of the table of names over the types read so far |
| C82–C85 | `SchemaManager`: `schema_manager.py` as operations on the state shared by the process | invariants over histories of managers; a declarative reading of XML Schema content, equal to what is read, by induction on the depth; checkers for the shipped schema proved sound |
| C86–C89 | `Process`: which objects a process makes (cache manager, file sets, schema managers, managers of definitions) and which are used for what; `commandLoad` for the command line | relations kept by every function, hence by histories; refinement of the command to the reading of one directory; composition with C71 |
| C52 | `Schema`: `schema_manager.parse_nxdl_patterns`; `SchemaManager`: `simpleTypesOf` | induction over declarations; the loop changes objects in place and later turns see it; `manager_patterns` and `command_patterns` say the same of the nodes of `nxdl.xsd` |
| C53–C55, C71, C73 | `Cli`: `main.py` command selection and option handling | case analysis, induction over the command list |
| C115–C118 | `Argparse`: the parsers of `main.py` and the part of the standard `argparse` that reads their arguments | a grammar (`Spec/Argparse`); each function is equal to its part of the grammar, the loop over the arguments is a fold over the pieces; the arguments that show help are an inductive relation with three cases (`Spec/ArgparseTop`); composition with C101; C118 is a round trip: what is written by the documentation is read |
| C119 | `Cache`, `Argparse` | invariant over histories of installations (as C70), composed with C117 |
| C120 | `Main`: whole runs of the program, one after the other | the user's cache after a session is that after a list of installations; invariants of C70 and C119; composition with C101, C105, C108 and C115 |
| C121 | composition (`Validator` and all checks) | the file with its data taken away (`bareNode`): every function gives the same for it, so two files that are equal without data have the same run |
| C122 | `H5Tree` | `Spec/TreeRead.lean` has a reader for the lines; C38 says which lines there are, and reading them gives back the outline; paths from depths by induction over the tree |
| C123 | whole validation | `Spec/Notes.lean`: files without some attributes; the items of both files correspond one to one except for the notes (induction over the tree), then every kind of line in `Expected` is carried over in both directions; likewise for `Validatable` |
| C124 | `NxdlTree`, `CacheManager` | the style sheet is given over the directory of the most recent set (`Spec/NxdlTree.lean`); the most recent set by the specification of C117 |
| C125 | composition (`Validator` and all checks) | the relation of C121 also allows other kinds of links; the file with its data taken away has hard links only |
| C126 | whole validation | `Spec/Stored.lean`: pairs of files that hold the same texts; their items correspond one to one (induction over the two trees), then every kind of line in `Expected` and every part of `Validatable` is carried over; the relation is symmetric, so one direction is enough |
| C127 | whole validation | `Spec/Wider.lean`: pairs of sets of definitions; every `Fault` with the second set gives one with the first (case analysis over C100), and every part of `Validatable` is carried over for a file without faults |
| C128 | `Model/Json` (`write_json_file`, `read_json_file`) | the reader on the text of a value followed by anything gives the value and the rest (mutual induction over values, items and pairs); more text after what was read changes nothing, hence no proper prefix can be read |
| C129 | whole validation | `Spec/Extras.lean`: a file and the file without some members; the catalogue of the first is that of the second with further items woven in; every `Fault` of the larger file gives one of the smaller file (case analysis over C100), and every part of `Validatable` is carried over for a file without faults |
| C130 | whole validation | `Spec/Whole.lean`: files whose roots have some of the attributes and members of the root of a file; each item of the file has a counterpart in a part and each item of a part one in the file; lookups in a part succeed in the file; marks of one group are in the same member of the root, so they are in the same part; case analysis over C100 |
| C131 | `Model/Describe` (`print_tree`, `render_class_str`) | outlines as an inductive relation over objects (`Spec/Describe.lean`), which has exactly one solution; `build_tree` keeps the last child with a label; the counts are those of the rows. Violated: elements are never printed, `build_tree` has renamed the member `print_tree` looks for. The shipped schema gives the numbers of the project's own test (`Cases/Describe.lean`) |
| C132 | `Model/Describe` (`NXDL_Manager.__str__`) | the counts by category as a fold; sorted lists with the same members are equal; the text is cut at commas and colons |
| C133 | `Model/Cli`, `Model/Process` (`func_validate` as a whole) | `command_summary_iff` and `command_succeeds_iff` (C101, C102), then C126, C127, C129 and C130 for the definitions that the command loads |
| C134 | whole validation, `func_validate` | corresponding paths (`Corr`) lead to corresponding objects or to none, in both directions; hence addresses correspond one to one; the items correspond one by one (their class paths differ at most in the name of a field, `RePath`); then each kind of fault, and each condition of `Validatable`, is carried over; the order of the class path table may differ, so the marks `signal = 1` are counted |
| C135 | whole validation, `func_validate` | the converse of C129: `Spec/Removed.lean` says that references keep their objects; each fault and each condition of `Validatable` of the smaller file comes from the larger one; with C129 an equivalence, also for the command; the same for wrong files: completion and the set of errors stay (`extras_completion`, `extras_errors`) |
| C136 | `build_address_catalog`, whole validation, `func_validate` | `Spec/Obstacles.lean` lists the exceptions that objects would raise in the order of the visit; by structural induction the reading ends with the first of them |
| C137 | every check, `func_validate` | an invariant on the kinds of exceptions, closed under sequencing and loops, walked through all definitions of the checks; one witness file per kind |
| C138 | `NxdlSchema`: simple types | invariant of the table over the types read so far |
| C139 | `Version`: the six styles | templates filled part by part |
| C140 | `Cache`: `download_file_set` | a member fits on the disk after others exactly if it did before and does not clash with them (`fits_after`), so the extraction succeeds exactly if no two wanted members clash, in any order |
| C141 | `H5Tree`: datasets | direct |
| C142 | `NxdlParse`: `readDefinition`, `loadClasses` | mutual induction over the elements: the effects of the parts compose (`After.trans`) |
| C143 | `NxdlSchema`: `summarize` | the table of a kind holds the last child of each name (`table_last`), its first key is the name of the first child (`head_fold`) |
| C144 | composition (whole validation, `func_validate`) | a class path that begins with `/NXentry` and has a slash after it belongs to something below a member of the root of this class, by induction over the tree (`top_entry`); then C100, C101 |
| C145 | composition (whole validation, `func_validate`) | the field of an entry is catalogued as `/NXentry/definition` or `/NXentry/NXsubentry/definition` (`entry_definition`); then C77, C100, C101 |
| C146 | `Utils`: `isNeXusFile`; `H5Tree`: `treeReport`; the catalogue | composition of C37, C10 and C144 |
| C147 | composition (whole validation, `func_validate`) | an object in NeXus content is catalogued with the chain of the classes above it, by induction over its position (`inNexus_item`); names of definitions have no slash because they are beginnings of names of files (`OwnDefinitions.plain`); then C100, C101 |
| C148 | `H5`: path look-up (`h5contains`, `h5get`), `signalHandler` | the components of a path are unique; induction over them |
| C149 | `H5Tree`: `treeReport` | each step fails exactly if its condition fails; mutual induction over the tree |
| C150 | `H5Tree`: `treeReport`; `Utils`: `isNeXusFile` | members are sorted by name, so related members give related outputs; mutual induction over the relation |
| C151 | `H5Tree`: `treeReport`; `Utils`: `decodeByteString`, `isNeXusFile` | the same texts are decoded to the same value; mutual induction over the relation |
| C152 | `H5Tree`: `renderNd`, `renderData` | induction over the shape; everything else in a report does not use the number |
| C153 | `H5Tree`: `renderMember`, `renderUnfollowed`; `Utils`: `isNeXusLink` | mutual induction over the relation of files that differ only behind links |
| C154 | `H5Tree`: `assemble`, `renderMembers` | the outputs of the members are joined without change; each is a segment of the report |
| C155 | `H5Tree`: `treeReport` | case analysis; the name is used only in the first line |
| C156 | `H5Tree`: `renderMember`, `assemble` | sorting a part of a list gives a part of the sorted list; mutual induction over the relation |
| C57 | singletons | induction over histories of constructions |
| C58 | category of an NXDL document | direct |
| C93–C98 | `Version`: `_version.py`; the programs that are started are a parameter | unique decomposition of texts; minimum of a sorted list; case analysis over the answers of `git` |
| C99, C100 | the whole validator (`validateOpen`) | the catalogue is the walk over the tree of Spec/Contents.lean; union of the characterisations of the four steps; each verdict relation is functional; the ERROR lines of each kind are the faults |
| C101 | `funcValidate` over the whole chain (cache, schema, definitions, file, report) | composition of C89 (the manager is the one the files of the set give), C99/C100 (the report), C54 (the option); group names of definitions that were read are distinct, so the hypothesis of C99 holds |
| C103, C104 | `Concurrent`: `download_file_set` as a process of single looks and operations; any number of processes with any order of steps | the process alone refines `Cache`; each process depends on and changes only its directories, so steps of different processes can be separated (induction over executions) |
| C113 | composition (`Validator` and all checks), through the complete description of the report (C99, C101) | positions in the tree (`Site`, `Under`): an address inside the part belongs to one position, which has a counterpart in the other file with the same object, class path and container; each kind of line is carried over |
| C112 | `Concurrent` (`listLook`): `all_file_sets` as a program of single looks that runs while any number of installations do | the directory of a new set appears with the last operation of its installation (invariant over executions); induction over the listed names |
| C114 | `Reading` (`readSetDir`, `useSet`): listing, selection and reading of a set as a program of single looks that runs while any number of installations do | a program whose looks all see the same directory has the result it has alone; the directory of a new set does not change after it has appeared (C112), and has the content of the archive (C105) |
| C105 | composition of `Cache`, `Process`, `Command` | content of the archive = content of the directory; sorting distinct names makes the order of a listing irrelevant; then C101 |
| C106 | `NxdlSchema` | `PartOf` from the rules of XML Schema (`Spec/SchemaParts`); induction over the list of types |
| C107 | composition (`Validator` and all checks) | relation between the items of both files (`LikeItem`), lists equal up to order and this relation (`PermBy`), by induction over the change of order; then each line of C99 and each condition of C77 carries over |
| C110 | composition (`Validator` and all checks; `NxdlParse`, `Process` for the files) | every class that is looked up is mentioned in the file (`catalog_class_mentioned`), so the run with the other definitions is the same, function by function; reading one definition file gives the same class whatever was read before (`Steady`) |
| C111 | `RegexText`: a recursive descent reader of pattern texts | equal to a grammar (`Spec/RegexText`), soundness by induction on the fuel, completeness by mutual induction on derivations; joined with C12, C52 and C89 for the command |
| C108, C109 | `Cli`: `func_configuration`, `func_demo` | decision logic; the default and the table are compared by what `Latest` and the sorting say |
| C102 | end, summary and score of `funcValidate` | composition of C77, C03, C02 with C99/C100 |

## Where the code does not keep a promise

For these properties the negation is proved with a witness, together with the exact
condition or the part that does hold.

| Property | What happens |
|---|---|
| C02 | one ERROR among more than 100,000 findings leaves the score non-negative |
| C07 | an object whose name contains `@` shares its address with an attribute |
| C09 | members of a non-NeXus group with attributes get the last attribute as parent |
| C13 | a name may end with a newline and may be longer than 63 characters |
| C14 | a class name is accepted if it matches one of the patterns, not both |
| C20 | `signal="²"` on a field: `isdigit()` holds and `int()` raises `ValueError` |
| C31 | `minOccurs` of the shared definitions is changed by a validation and stays so |
| C32 | after a file that exists but cannot be opened the findings of the previous file stay |
| C34 | two findings of one test at one item: the record keeps the last |
| C36 | decoding an encoded array works for ASCII texts only |
| C45, C46, C66–C68 | an update removes the installed set file by file before the new one is in place; removal errors are ignored; a partly written info file breaks the listing |
| C47 | the retry loop never makes a second request |
| C51, C75 | fields of application definitions make fields of base classes required, and options of fields in a definition are ignored |
| C52 | the order of declarations matters for chains of three types; the own length is lost |
| C59 | within an address rows are sorted by the name of the status, not from best to worst |
| C63 | the value of a scalar dataset is not shown |
| C64 | the label of the cache is derived from the text of the path |
| C73, C74 | `punx tree` of a missing file; the default set shown after an installation |
| C78 | declarations of `nxdl.xsd` are stored by line: two on one line are confused |
| C79, C80 | complex types must be declared before use; a recursive type exhausts the stack |
| C81 | attribute groups inside extensions or attribute groups are ignored; names of types and groups collide |
| C82 | attributes and elements of all schemas read in a process are mixed; group elements are described once per process |
| C83 | a boolean default `1` is read as false; of a type written inside of an element (`dim`), only the first attribute is known |
| C84 | no units are known if `anyUnitsAttr` is a union, as in the file sets v3.3 and v2018.5 |
| C85 | a group that the sequence of a type refers to is not looked up |
| C86 | definitions are checked with the schema of the default set, not with that of their own |
| C87 | an unknown name gives the most recent set; without a name one gets the set named last |
| C88 | the schema of a set is read again after the sets were listed |
| C97 | `get_versions` raises `AttributeError` if `git show` fails after `git describe` succeeded; `versions_iff` gives the result or exception of every case |
| C104 | two installations of one set extract into the same directory: both succeed, the set lacks a file |
| C112 | a listing during an installation reads an info file that is not yet written or no longer there and fails; during an update it may miss the set |
| C114 | definitions that are read while the set is updated can be a mixture of two versions; a set that is asked for while it is updated may be replaced silently by another one |
| C106 | elements in `xs:choice`, `xs:all` and in sequences in sequences are lost |
| C107 | with a missing NXdata signal the report, and whether the validation completes, depends on the order of the members |
| C108 | `punx configuration` names the default as its description does, not as its directory; with equal dates it is not the last row |
| C116 | `punx install a -u b` is refused, `punx install -u a b` is not |
| C117 | the default of `--file_set_name` is the name in the description, which may be unknown; a description without a date stops every command, even `--help` |
| C122 | names with colons or spaces make the tree report ambiguous; a line break in a text value can look like an object |
| C123 | an attribute of a group that cannot be decoded stops the validation of the file even if nothing uses the attribute |
| C126 | the attribute `signal` of a field is compared with "1" without decoding (`default_plot.py:138-141`): stored with fixed length it reads `b'1'`, so the field is reported as `@signal!=1` and is no default plot, though `attribute.py` accepts the value |
| C119 | two updates of a set that cannot be removed leave the new set in `definitions-…` with a description that calls it like the old one; `punx validate FILE` then takes the old one |
| C144 | a file without NXentry group in its root passes if a field is marked `signal=1`, or if an NXentry group is inside of another group |
| C145 | an entry without the field `definition` passes, groups of application definitions are not looked for, and subentries that are not in an entry of the root are not compared with the definition they name |
| C146 | `NX_class` stored as an array with one text: `punx tree` reads its first element, the validation treats the group as non-NeXus content; an empty array ends `punx tree` with `IndexError` |
| C150 | `punx tree` shows attributes in the order of the file; it ends with `IndexError` at a NeXus link whose class is an empty array if the link comes before the entry |
| C151 | an `NX_class` that is an empty text of fixed length ends `punx tree` with `TypeError`; with variable length it is shown as no class |
| C153 | what is behind a soft link in the root decides whether `punx tree` calls the file a NeXus data file, although nothing behind it is shown |
| C154 | a dataset beside an entry is shown with `NX_` and capital letters in its type; in a file without an entry it is not |

## Simplifications

Each is stated at the definition concerned; the ones that matter most:

* HDF5: the tree model has no cycles (see C11); `/.` after a dataset is not
  distinguished in path look-up; an `OSError` while an array is read is not
  modelled; numpy byte arrays strip trailing NULs (C36).
* Enumerations: comparing a numeric array may raise `ValueError` where the model
  has `TypeError`.
* Caches: one file system without links, so a rename is atomic; archive members do
  not start with `/`, `./`, `../`; JSON values are texts (exact by `info_file_exact`, C128); `PyErr.fileNotFound`
  stands for the builtin and for `punx.FileNotFound`.
* Concurrent installations and listings: `os.listdir` gives any names; a file is read as a whole; what is written to an opened file that has been moved is
  lost; a directory can be removed though another process has put something into it.
* Reading definitions during installations (`Model/Reading.lean`): `os.listdir` is any function that lists what is there at that moment; `nxdl.xsd` is read once; the reading goes on after something is missing, and the load then fails as for an unreadable file; one cache.
* Command line (`Model/Argparse.lean`): written after `argparse` of CPython 3.11 (other versions differ in
  corner cases such as `--`); the texts of help and errors are not modelled; what `int()` reads and
  which texts look like negative numbers are the parameters `Texts`; output does not fail.
  `str.upper` of
  non-ASCII text, loading of definitions and the XSLT output are parameters.
* NXDL: schema validation is the parameter `valid`;
  `XMLSyntaxError` is `PyErr.exception`.
* Patterns: `re.compile` is the parameter `pattern`; C111 assumes that it reads the texts of
  the grammar in `Spec/RegexText` as they are written (other syntax is left open).
* `NxdlSchema`: objects are values (Python shares them; exact unless the type of the
  root element is used inside itself); entries of the section `schema` under line
  numbers are left out, nothing reads them; an `extension` of another namespace counts
  as none.  The defaults of `NxdlParse` are a parameter there, `Summary.defaults`
  computes them.

* `SchemaManager`: nodes are found by XPath in document order as in `NxdlSchema`;
  `schema_types` is left out, nothing reads it; the base test
  `ref not in ("nx:basicComponent")` is a substring test, as in the code.
* `Process`: `nxdl.xsd` and `nxdlTypes.xsd` are well formed if they are there; what lxml
  accepts is the parameter `Lib`; for a set without definitions the name patterns of
  the validation are left open.

* `Version`: no other module imports `_version.py`; messages and the table `HANDLERS` are
  left out.

* `Json`: whole numbers only, keys are texts, no lone surrogates, no limit on depth; CPython closes the
  file at once.

## Testing the theorems

`seeded/LOG.jsonl` has one line per deliberate bug: the model is edited in a scratch
copy, everything is rebuilt, proofs that fail are replaced by `sorry`, and the theorems
of the manifest that then depend on `sorryAx` are listed.  Theorems that survived
although their claim became false were tightened; the line says which.

## Agreement with the project's own tests

The code was not run.  The model was, on the inputs of the project's tests, and compared with
what those tests expect.  The file sets and the HDF5 files shipped in `/repo/punx` were
translated to terms of the model by scripts that are not part of this repository.
`Verif.Cases.Conformance` keeps the part that needs only four classes of v2018.5: the files made
in `test_validate.py`, `test_nexus_warnings.py` and `test_i219_nxdata_mismatch.py`, with the
numbers those tests give.  These theorems are tests of the model, not proofs for all inputs, and
no claim in the manifest rests on them.  Seen outside the repository:

- the counts of attributes, fields, groups, links and symbols of all 98 classes of v3.3 are those
  of `test_nxdl_manager_summary_table.py`; the 20 rows of `test_NXDL__definition_structure` agree;
- 87 expectations on files made in the tests agree, over the three shipped file sets;
- the numbers of findings, notes and optional findings and the average scores that
  `test_validate.py` and `test_data_files.py` give for shipped files agree, except for one file;
- the tree of `DLS_i03_i04_NXmx_Therm_6_2.nxs` has the 183 lines of `test_issue130.py`.

The exception is `1998spheres.h5`: `test_validate.py:677` expects 2 errors and
`test_data_files.py` a low average; the model finds no error.  The reason is not known.  The
`definition` fields of that file hold an array with one text.  By our reading
`application_definition.py:23-24, 67-68` take the first element of it, so that the name is
recognised; two errors would follow if it were not.  Whether the tests or the reading are at fault
cannot be settled without running the code.

Two tests are at odds with the code by reading alone: `test_validate.py:50-52` and
`test_nxdl_manager_summary_table.py:128-131` expect a `KeyError` for an unknown file set, while
`cache_manager.py` takes the latest set instead (C87).  So at this commit the tests and the code do
not agree throughout.

## Not modelled

* The text of log messages, most `__str__`/`__repr__` output and table layout.
* MD5, XML and HDF5 parsing, XSLT, Qt settings, the network protocol.
* `punx/ignore_now/*`, `punx/tests/*` (dead code and tests).
* `punx/nxdl_schema.py`: the texts of documentation nodes.
* The GUI and the documentation.

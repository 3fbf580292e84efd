{"id": "C01", "title": "Score arithmetic is exact and order independent", "statement": "finding_score() returns (total, count, average) where total is the sum of the values of the recorded findings, count is the number of findings whose status has a non-zero value, and average is total/count (0 when count is 0). The result does not depend on the order in which findings were recorded and does not change when TODO, UNUSED or COMMENT findings are added.", "quantifier": "every finite list of findings (any length, any mixture of the eight statuses), every permutation of it and every set of added zero-valued findings", "why_tests_cant": "tests sum a few hand made lists; the claim is about every list and every permutation", "anchors": ["punx/validate.py: Data_File_Validator.finding_score", "punx/finding.py: VALID_STATUS_DICT"]}
{"id": "C02", "title": "An ERROR makes the file score negative (up to an exact threshold)", "statement": "If at least one ERROR finding is recorded then the average score is negative, so a bad file can be recognised from the score alone. The exact condition in the code is 100*OK + 99*OPTIONAL + 75*NOTE + 25*WARN < 10,000,000*ERROR (numbers of findings), so the property holds for every file with fewer than 100,000 findings and fails beyond that.", "quantifier": "every list of findings containing an ERROR, of any length", "why_tests_cant": "the failing case needs at least 100,000 findings; no test goes there, and no finite set of tests shows the bound for all shorter lists", "anchors": ["punx/validate.py: Data_File_Validator.finding_score", "punx/finding.py: ERROR"]}
{"id": "C03", "title": "Summary counts partition the findings", "statement": "finding_summary() returns, for each of the eight statuses, exactly the number of findings with that status; the counts add up to the number of findings. finding_summary(subset) raises KeyError exactly when some finding has a status outside the subset, and otherwise returns the exact counts of the subset.", "quantifier": "every list of findings and every list of requested statuses", "why_tests_cant": "quantifies over all findings lists and all subsets", "anchors": ["punx/validate.py: Data_File_Validator.finding_summary"]}
{"id": "C04", "title": "The printed report is exactly the selected findings, once each, sorted", "statement": "print_report(statuses) prints one row per finding whose status is selected (all findings if the selection is empty or omitted), each exactly once, ordered by the text that print_report sorts by (the address, the negated value and the description of the status, with a blank before each '@'), equal keys in recorded order; the rows of a report for a selection are the rows of the full report with the other statuses removed; the report fails only if some finding has no address.", "quantifier": "every list of findings and every selection of statuses", "why_tests_cant": "sorting and filtering must agree on every list; tests look at a few printed reports", "anchors": ["punx/validate.py: Data_File_Validator.print_report"]}
{"id": "C05", "title": "Findings can only be built with a known status, and their identity separates address/test pairs", "statement": "Constructing a Finding with a status that is not one of the eight published statuses raises ValueError and with one of them succeeds; the text that is hashed to identify a finding differs for different (address, test) pairs whenever neither contains a newline.", "quantifier": "every address, test name, comment and status object", "why_tests_cant": "ranges over all strings", "anchors": ["punx/finding.py: Finding.__init__, Finding.make_md5, VALID_STATUS_LIST"]}
{"id": "C06", "title": "The catalogue is complete: every object and attribute of the file is visited exactly once, parents first", "statement": "After the file has been read, the list of examined items is: the root, then for each group its attributes, then its children in file order, each with its own attributes and recursively its content; nothing is skipped and nothing is visited twice. In particular the number of items is the number of objects plus the number of attributes, and an item always comes after the group that contains it.", "quantifier": "every finite HDF5 hierarchy, any depth and width, any attribute values", "why_tests_cant": "requires induction over the hierarchy", "anchors": ["punx/validate.py: Data_File_Validator._group_address_catalog_, build_address_catalog", "punx/validate.py: ValidationItem"]}
{"id": "C07", "title": "Addresses identify items", "statement": "In a file whose object names contain no '@' and whose objects report their own path as name, different items of the NeXus content have different addresses, so validator.addresses holds every one of them. With '@' in an object name two items can collide and one is silently lost.", "quantifier": "every finite HDF5 hierarchy with '@'-free link names", "why_tests_cant": "collisions depend on combinations of names at all depths", "anchors": ["punx/validate.py: ValidationItem.__init__, addresses"]}
{"id": "C08", "title": "Class paths reflect the chain of NX_class values", "statement": "The class path given to every group and dataset is '' for the root, and otherwise the class path of the containing group followed by '/' and the NX_class (group) or name (dataset); an object is classed as non-NeXus content exactly when it or some group above it has no string NX_class that starts with 'NX'; attributes of NeXus items get the class path of their owner, '@' and their name.", "quantifier": "every finite HDF5 hierarchy", "why_tests_cant": "induction over depth; the absorbing non-NeXus state must propagate through any number of levels", "anchors": ["punx/validate.py: ValidationItem.determine_NeXus_classpath"]}
{"id": "C09", "title": "Every item knows the group that contains it", "statement": "The parent of every catalogued item is the item of the object (group or dataset) which contains it.", "quantifier": "every finite HDF5 hierarchy", "why_tests_cant": "the parent is looked up through a shared class path table; whether it is the right one depends on everything catalogued before", "anchors": ["punx/validate.py: Data_File_Validator._group_address_catalog_ (parent = self.classpaths[...][-1])"]}
{"id": "C10", "title": "Which files can be catalogued at all", "statement": "Building the catalogue fails exactly when some link below a reachable group does not resolve (KeyError), or some object carries a target attribute whose value has no length or cannot be decoded, or some group in NeXus content carries an NX_class attribute that cannot be decoded; in every other case it succeeds.", "quantifier": "every finite HDF5 hierarchy with any set of broken soft/external links and any attribute values", "why_tests_cant": "the failing item can be anywhere; an exact characterisation needs a proof over all trees", "anchors": ["punx/validate.py: Data_File_Validator._group_address_catalog_", "punx/utils.py: isNeXusLink"]}
{"id": "C11", "title": "A file with a hard-link cycle cannot be validated", "statement": "If a group is reachable from itself then cataloguing never finishes, whatever the recursion limit; if the file has no such cycle it finishes.", "quantifier": "every finite link graph and every recursion limit", "why_tests_cant": "a test can only observe one limit on one file", "anchors": ["punx/validate.py: Data_File_Validator._group_address_catalog_"]}
{"id": "C12", "title": "Group and field names: the verdict is exactly the documented three level rule", "statement": "For every group or field, outside NXcollection, the name verdict is OK if the name matches the strict pattern, NOTE if it only matches the relaxed pattern and ERROR otherwise; for items whose class path contains NXcollection it is WARN, whatever the name; exactly one name verdict is recorded per item.", "quantifier": "every name (any string), every class path, every set of \\w characters", "why_tests_cant": "ranges over all strings", "anchors": ["punx/validations/item_name.py: verify, handle_groups_and_fields, validItemName_match_key"]}
{"id": "C13", "title": "Names accepted as valid satisfy the NeXus naming rule", "statement": "A name reported OK or NOTE consists of a letter or underscore followed by letters, digits and underscores and is at most 63 characters long (the rule in nxdl.xsd).", "quantifier": "every name", "why_tests_cant": "the boundary cases are infinitely many; two of them (trailing newline, length) are accepted by the code", "anchors": ["punx/validations/item_name.py: getValidItemNamePatterns, validItemName_match_key", "punx/nxdl_schema.py / nxdl.xsd: validItemName"]}
{"id": "C14", "title": "NX_class values accepted as valid satisfy the NeXus class name rule", "statement": "An NX_class value is reported OK only if it starts with NX and is also a valid item name (nxdl.xsd: validNXClassName restricts validItemName with NX.+).", "quantifier": "every string value of an NX_class attribute", "why_tests_cant": "quantifies over all strings; code accepts a value matching either of the two patterns instead of both", "anchors": ["punx/validations/item_name.py: verify (handle_NX_class)", "punx/nxdl_schema.py / schema_manager.parse_nxdl_patterns"]}
{"id": "C15", "title": "Every item is name-checked exactly once", "statement": "A successful validation records exactly one validItemName finding for every group, field and attribute, except the root, attributes of non-NeXus content and attributes of linked objects (target differs from the address), which get none.", "quantifier": "every file, every definition set", "why_tests_cant": "counting over whole executions", "anchors": ["punx/validate.py: validate, validate_item_name", "punx/validations/item_name.py: verify"]}
{"id": "C16", "title": "Attribute names are judged OK or ERROR, never in between", "statement": "The name of an attribute (other than NX_class, whose value is judged) is OK if it matches one of the item name patterns and ERROR otherwise; it is never NOTE or WARN, also inside NXcollection. Attributes of an object whose target attribute names another address (a link) are not judged by name.", "quantifier": "every attribute name and position", "why_tests_cant": "ranges over all strings", "anchors": ["punx/validations/item_name.py: handle_any_attribute"]}
{"id": "C17", "title": "signal attribute verdicts", "statement": "@signal of a group: the value is checked as item name and reported OK as 'found' exactly if a member of that name exists in the group, else ERROR. @signal of a field is OK exactly if it is the number 1 or text consisting of digits denoting 1, else NOTE. On the file root it is only noted as not checked.", "quantifier": "every attribute value and every group content", "why_tests_cant": "ranges over all values and group contents", "anchors": ["punx/validations/attribute.py: signal_handler"]}
{"id": "C18", "title": "axes attribute verdicts, one pair per axis", "statement": "@axes of a group: for each listed axis, in order, one naming verdict and one existence verdict (OK if the name resolves from the group, ERROR otherwise; '.' resolves to the group itself, and fails as a name), followed by exactly one TODO; nothing else. @axes that lists anything, on anything but a group or the root, never occurs in a completed validation (AttributeError).", "quantifier": "every list of axes of any length", "why_tests_cant": "induction over the list of axes", "anchors": ["punx/validations/attribute.py: axes_handler"]}
{"id": "C19", "title": "target attribute verdicts", "statement": "@target gets exactly one verdict: OK if it is an absolute path, every component is a valid item name, and the path leads link by link from the root to an object of the file; otherwise ERROR.", "quantifier": "every path string of any number of components", "why_tests_cant": "induction over path components", "anchors": ["punx/validations/attribute.py: target_handler"]}
{"id": "C20", "title": "Attribute checking never stops on an '@'-free file with ordinary attribute values", "statement": "For a catalogued file in which object names contain no '@' and attributes named NX_class, axes, signal, target and default hold strings, and @axes is only used on groups, the name and attribute checks finish without exception.", "quantifier": "every file in that class", "why_tests_cant": "absence of exceptions over all inputs", "anchors": ["punx/validations/attribute.py", "punx/validations/item_name.py", "punx/validate.py: validate"]}
{"id": "C21", "title": "Which class names are usable as a base class", "statement": "usedAsBaseClass(name) is True exactly for known base classes and for contributed definitions, except that it raises TypeError for a contributed definition with no fields, no links and exactly one group; application definitions and unknown names give False.", "quantifier": "every definition set and every name", "why_tests_cant": "the failing case depends on the downloaded definitions", "anchors": ["punx/validate.py: usedAsBaseClass"]}
{"id": "C22", "title": "NX_class verdict of a group", "statement": "For every NeXus group: 'known NXDL' is OK if its class is in the definitions and otherwise ERROR; 'NeXus base class' is a single ERROR if the class is unknown, else OK if it is a base class or contributed definition and ERROR if it is an application definition, followed by one TODO. Only the definition set decides.", "quantifier": "every group and definition set", "why_tests_cant": "ranges over definition sets", "anchors": ["punx/validations/nx_class_attribute.py: validate_NX_class_attribute", "punx/validate.py: validate_group"]}
{"id": "C23", "title": "Content that is not in the definitions is never an error", "statement": "Checking the members of a NeXus group against its base class records one finding per linked object, in order, OK for fields and groups (TODO for a named datatype), with a comment that says 'defined' exactly if the class lists the name; every attribute gets one OK 'known attribute' finding, whose comment says 'known' exactly if the class lists the attribute or it is NX_class; an undefined item therefore never turns into ERROR or WARN.", "quantifier": "every group, every number of children, every base class", "why_tests_cant": "ranges over all contents", "anchors": ["punx/validations/hdf5_group_items_in_base_class.py: verify_group_children, verify_group_attributes"]}
{"id": "C24", "title": "Attributes with enumerated values", "statement": "If a base class enumerates the values of an attribute, the attribute of the group gets exactly one 'attribute value enumeration' finding: OK when its text is one of the values and ERROR otherwise; without enumeration there is none.", "quantifier": "every attribute value and every enumeration", "why_tests_cant": "ranges over all values and enumerations", "anchors": ["punx/validations/hdf5_group_items_in_base_class.py: verify_group_attributes"]}
{"id": "C25", "title": "Missing base class content is optional, never an error", "statement": "For each field and each group named in the base class exactly one finding is recorded: OK if the group has a member of that name, OPTIONAL otherwise; fields first, then groups, each in alphabetical order; no other status occurs.", "quantifier": "every base class and every group", "why_tests_cant": "ranges over definitions and contents", "anchors": ["punx/validations/base_class_items_in_hdf5_group.py: verify"]}
{"id": "C26", "title": "Application definition: required fields", "statement": "For every entry with a definition field: the definition is looked up and reported as known (OK) or not (ERROR); for a known definition the fields of the first group of the definition are looked up in turn in the entry: a present one gives OK, an absent one without enumeration gives ERROR, an enumerated one is compared with its values, and an absent enumerated one stops the validation with TypeError instead of being reported.", "quantifier": "every application definition, every entry content", "why_tests_cant": "ranges over definitions and contents", "anchors": ["punx/validations/application_definition.py: verify"]}
{"id": "C27", "title": "Exactly one default plot verdict per validation", "statement": "Every validation that completes records exactly one 'NeXus default plot' finding, at the root: OK with the address if a default plot was found, else ERROR if the definitions require one, else NOTE.", "quantifier": "every file, every definition set, every prior use of the validator", "why_tests_cant": "counting over whole executions", "anchors": ["punx/validations/default_plot.py: verify"]}
{"id": "C28", "title": "Default plot (attribute method): what it finds exists", "statement": "If the default plot is found by the default/signal attributes and there is only one path, then the reported attribute exists and the signal named by it exists in its group as a dataset.", "quantifier": "every file", "why_tests_cant": "soundness over all files", "anchors": ["punx/validations/default_plot.py: default_plot_v3, build_h5_address, attribute_points_at_target"]}
{"id": "C29", "title": "Default plot (signal=1 method): exact decision", "statement": "Without the attribute method, the default plot is found exactly if some group has exactly one dataset whose attribute signal reads as 1 (counted over all class paths ending in '@signal'); the reported address is that of the dataset in the last such group; each group with more than one gives one ERROR and never counts.", "quantifier": "every file", "why_tests_cant": "ranges over all groups and fields", "anchors": ["punx/validations/default_plot.py: default_plot_v2"]}
{"id": "C30", "title": "Method precedence", "statement": "The verdict uses the attribute method if it finds something, else the signal=1 method, else nothing.", "quantifier": "every file", "why_tests_cant": "interaction of two searches over all files", "anchors": ["punx/validations/default_plot.py: verify"]}
{"id": "C31", "title": "Validation is repeatable", "statement": "Validating a file gives the same findings whatever files were validated before with the same validator or definitions. (Violated: minOccurs values stored in the shared definitions survive a validation; at most the default plot verdict depends on the history.)", "quantifier": "every history of validate() and close() calls on any files", "why_tests_cant": "histories are unbounded", "anchors": ["punx/validate.py: validate, __init_local__", "punx/validations/base_class_items_in_hdf5_group.py: group_object.minOccurs"]}
{"id": "C32", "title": "Findings belong to the file named by the validator", "statement": "After any sequence of validate() calls, including failing ones, the findings held by the validator are those of the file the validator names. (Violated: after a file that exists but cannot be opened, the validator names it but holds earlier findings.)", "quantifier": "every history of validate() calls with existing, missing and unreadable files", "why_tests_cant": "histories and failure points are unbounded", "anchors": ["punx/validate.py: validate"]}
{"id": "C33", "title": "The report of a completed validation can always be printed", "statement": "Every finding recorded by a validation has an address, so the report never fails; and the address is that of a catalogued item (or of a missing application definition field, which is reported at '<entry>@None').", "quantifier": "every file and definition set", "why_tests_cant": "ranges over whole executions", "anchors": ["punx/validate.py: record_finding, print_report"]}
{"id": "C34", "title": "The per-item record keeps the verdicts", "statement": "item.validations holds every finding recorded for the item. (Violated: keys are re-used, later findings overwrite earlier ones; exactly the last finding per test name survives.)", "quantifier": "every sequence of recorded findings", "why_tests_cant": "sequences are unbounded", "anchors": ["punx/validate.py: record_finding"]}
{"id": "C35", "title": "Non-NeXus content is not judged against base classes", "statement": "Groups of non-NeXus content get exactly one group finding, OK 'not a NeXus group', and no class, attribute or default plot verdict; besides the name check only the NeXus group or application definition above may mention them as its (undefined or required) members, never with ERROR except through the application definition.", "quantifier": "every file", "why_tests_cant": "ranges over all non-NeXus subtrees", "anchors": ["punx/validate.py: validate_group"]}
{"id": "C36", "title": "Byte string decoding", "statement": "decode_byte_string returns text unchanged, is idempotent, turns lists and arrays of strings into lists of text element by element, never fails except on undecodable bytes, and inverts string_list_to_hdf5 for UTF-8 (read back as single strings; read back as an array only for ASCII texts).", "quantifier": "every value, every codec", "why_tests_cant": "ranges over all values, incl. nested lists", "anchors": ["punx/utils.py: decode_byte_string, string_list_to_hdf5"]}
{"id": "C37", "title": "NeXus file detection", "statement": "isNeXusFile(file) is True exactly if the root has a group with NX_class equal to NXentry, unless a group before it has an NX_class that is an empty array or cannot be decoded, which raises an exception; broken links are ignored; a missing file gives None and a non-HDF5 file raises OSError.", "quantifier": "every file", "why_tests_cant": "ranges over all root contents", "anchors": ["punx/utils.py: isNeXusFile, isHdf5FileObject"]}
{"id": "C38", "title": "Tree report is complete", "statement": "The tree report has one header line per group, one per dataset and one per link; every member of each group appears exactly once below its group with the indentation of its depth, datasets and links before groups, each in sorted order.", "quantifier": "every finite HDF5 hierarchy", "why_tests_cant": "induction over the hierarchy", "anchors": ["punx/h5tree.py: Hdf5TreeView.report, _renderGroup"]}
{"id": "C39", "title": "Hiding attributes only removes attribute lines", "statement": "report(show_attributes=False) is report(True) with the attribute lines removed: all other lines are identical and in the same order.", "quantifier": "every finite HDF5 hierarchy", "why_tests_cant": "two executions compared on all inputs", "anchors": ["punx/h5tree.py: _renderAttributes, _renderGroup, _renderDataset"]}
{"id": "C40", "title": "Broken links do not break the tree report", "statement": "The tree report of a file with soft links (dangling or not) and external links to missing files never fails because of them; each is shown in one header line, followed by file and path of an external link if attributes are shown.", "quantifier": "every finite HDF5 hierarchy with any set of unresolvable links", "why_tests_cant": "links can be anywhere", "anchors": ["punx/h5tree.py: _renderGroup"]}
{"id": "C41", "title": "Array previews are bounded and faithful", "statement": "For a one dimensional dataset of n values and a limit m > 2: if n <= m all values are shown in order; otherwise exactly the first m-2, an ellipsis and the last value; so at most m entries. For rank 2 and 3 the same rule holds at every level; from rank 4 on, the same rule holds for the first index and the items are shown by their rank only.", "quantifier": "every array length, rank and limit", "why_tests_cant": "ranges over all sizes and limits", "anchors": ["punx/h5tree.py: _decideNumShown, _renderNdArray"]}
{"id": "C42", "title": "Selecting a definition set", "statement": "select_NXDL_file_set(ref) returns the set named ref if it is known and otherwise the most recently modified one (the first listed among equals); among sets whose description has a date and a commit it fails only if no set is known. (If there are two or more sets and one has no date, every selection fails.)", "quantifier": "every collection of file sets and every reference", "why_tests_cant": "ranges over all caches", "anchors": ["punx/cache_manager.py: CacheManager.select_NXDL_file_set"]}
{"id": "C43", "title": "User definitions take precedence", "statement": "When the same reference is in the user cache and in the package cache, the user's is used; all other sets of both are available.", "quantifier": "every pair of caches", "why_tests_cant": "ranges over all caches", "anchors": ["punx/cache_manager.py: CacheManager.all_file_sets"]}
{"id": "C44", "title": "Installing without force leaves an installed set alone", "statement": "Download with replace=False of a set which is already installed changes nothing on disk.", "quantifier": "every file system state, archive content and failure", "why_tests_cant": "ranges over file systems", "anchors": ["punx/cache_manager.py: download_file_set"]}
{"id": "C45", "title": "An interrupted installation never leaves a half installed set listed as complete", "statement": "At whatever point an installation stops (crash or error), every set that is listed under the requested name is either the previous one or the complete new one. (Violated while an update removes the previous set: a set whose info file is still there but some of whose files are gone is listed. Holds for a first installation, and for updates at every other point.)", "quantifier": "every crash point of the installation, every archive, every earlier file system state", "why_tests_cant": "crash points between any two file system operations", "anchors": ["punx/cache_manager.py: download_file_set, Base_Cache.all_file_sets"]}
{"id": "C46", "title": "An interrupted update never loses the installed set", "statement": "At whatever point an update with replace=True stops, a usable set with the requested name is still installed. (Violated between removal and rename. What holds: at every point the complete previous set or the complete new set is on the disk, the new one possibly still under the name of its archive directory.)", "quantifier": "every crash point", "why_tests_cant": "crash points between any two file system operations", "anchors": ["punx/cache_manager.py: download_file_set"]}
{"id": "C47", "title": "Downloads are retried", "statement": "A download that fails with a connection error is attempted again, up to the documented number of attempts. (Violated: the first failure is final.)", "quantifier": "every sequence of network outcomes", "why_tests_cant": "sequences of network outcomes", "anchors": ["punx/cache_manager.py: download_NeXus_zip_archive, GITHUB_RETRY_COUNT"]}
{"id": "C48", "title": "What is extracted from an archive", "statement": "Exactly the archive members with suffix .xsd, .xml or .xsl whose immediate parent directory is named base_classes, applications, contributed_definitions or like the top directory of the archive (which has a name) are extracted, in archive order, each once; with fewer than two of them the installation is refused.", "quantifier": "every archive member list", "why_tests_cant": "ranges over all paths", "anchors": ["punx/cache_manager.py: is_extractable, download_file_set"]}
{"id": "C49", "title": "Definition items are never lost to duplicate names", "statement": "While reading a definition, every group, field and link element is kept under a name that is unique among groups, fields and links; a fresh name is kept as is, a used one gets the smallest free numeric suffix.", "quantifier": "every definition document, every number of duplicates", "why_tests_cant": "induction over the list of elements", "anchors": ["punx/nxdl_manager.py: ensure_unique_name, parse_groups, parse_fields, parse_links"]}
{"id": "C50", "title": "Which definition wins", "statement": "When the same definition name exists in several categories the contributed one replaces the application which replaces the base class; files that do not end in .nxdl.xml are ignored; within a category the order is alphabetical.", "quantifier": "every directory content", "why_tests_cant": "ranges over all directory contents", "anchors": ["punx/nxdl_manager.py: get_NXDL_file_list, NXDL_Manager.__init__"]}
{"id": "C51", "title": "Fields of base classes stay optional", "statement": "Reading application definitions does not change whether fields of base classes are required. (Violated: the default is shared.)", "quantifier": "every collection of definitions", "why_tests_cant": "depends on which other definitions were loaded and in which order", "anchors": ["punx/nxdl_manager.py: NXDL__definition/NXDL__field parse, xml_attributes"]}
{"id": "C52", "title": "Pattern inheritance", "statement": "A name type of the schema that restricts another name type gets its own patterns first and then those of the type it restricts, and the base and length limit of that type (its own length limit is lost); when every type is declared after the one it restricts, it gets the patterns of the whole chain. When a type in the middle of a chain is declared later than its user, the patterns further along the chain are missing, so the order of declarations matters. Reading succeeds exactly for well formed schemas.", "quantifier": "every schema and every order of its declarations", "why_tests_cant": "ranges over schemas and declaration orders", "anchors": ["punx/schema_manager.py: parse_nxdl_patterns", "punx/nxdl_schema.py: NXDL_schema_named_simpleType"]}
{"id": "C53", "title": "Command abbreviations", "statement": "A sub-command of two or more characters which is a prefix of exactly one command runs that command; an exact name always runs its command; anything else is rejected and nothing is run.", "quantifier": "every command word", "why_tests_cant": "ranges over all strings", "anchors": ["punx/main.py: MyArgumentParser.parse_args"]}
{"id": "C54", "title": "--report option", "statement": "The report selection is exactly the set of listed status names (any case, options in ASCII), and the printed rows are exactly the findings with these statuses; if any name is unknown no data file is looked at.", "quantifier": "every option string", "why_tests_cant": "ranges over all strings", "anchors": ["punx/main.py: func_validate"]}
{"id": "C55", "title": "validate command preconditions", "statement": "punx validate runs the validator only if the requested definition set is locally known; otherwise it exits without touching the data file; so does the demonstration unless the set main is installed; validating an NXDL file is not possible (AttributeError).", "quantifier": "every argument combination and cache", "why_tests_cant": "ranges over all argument combinations", "anchors": ["punx/main.py: func_validate"]}
{"id": "C56", "title": "Short commit references", "statement": "get_short_sha returns the first seven characters, so it is a prefix of the reference and equal for equal prefixes.", "quantifier": "every string", "why_tests_cant": "ranges over all strings", "anchors": ["punx/cache_manager.py: get_short_sha"]}
{"id": "C57", "title": "One cache manager per process", "statement": "CacheManager() and the other singletons always give the same object, whatever the arguments of later calls; selections made through one are visible to all.", "quantifier": "every sequence of constructions", "why_tests_cant": "histories", "anchors": ["punx/singletons.py: Singleton"]}
{"id": "C58", "title": "Category of an NXDL tree view", "statement": "The category is found for exactly the three documented values and any other value raises ValueError.", "quantifier": "every attribute value", "why_tests_cant": "ranges over all strings", "anchors": ["punx/nxdltree.py: NxdlTreeView._determine_category_"]}
{"id": "C59", "title": "Rows of the report: an object, then its attributes, then its children; within one address best to worst", "statement": "The rows of an object come before those of its attributes, which come before those of everything below it; rows at one address are ordered from best to worst status. (The second half is violated: the order within an address is COMMENT, UNUSED, TODO, OK, WARN, NOTE, OPTIONAL, ERROR, so WARN is listed before NOTE.)", "quantifier": "every address (any text), attribute name, continuation of the address and pair of statuses", "why_tests_cant": "ranges over all addresses; the wrong order shows only if two such statuses meet at one address", "anchors": ["punx/validate.py: Data_File_Validator.print_report sort_validations"]}
{"id": "C60", "title": "NX_class value must name a usable class", "statement": "The NX_class attribute of NeXus content gets exactly one 'attribute value' verdict: OK exactly if the definitions contain that class as a base class, or as a contributed definition that does not define an entry group with a definition field; otherwise ERROR.", "quantifier": "every attribute value and every definition set", "why_tests_cant": "ranges over definition sets", "anchors": ["punx/validations/attribute.py: nxclass_handler, isBaseClassNXDL"]}
{"id": "C61", "title": "Every other attribute is marked as not checked", "statement": "Every attribute of NeXus content other than NX_class, target, signal and axes gets exactly one 'attribute value' finding, TODO; objects whose path has no '@' and attributes of non-NeXus content get none.", "quantifier": "every file and attribute", "why_tests_cant": "ranges over all names", "anchors": ["punx/validations/attribute.py: verify, generic_handler"]}
{"id": "C62", "title": "Attributes that name something in the group", "statement": "An attribute that the class of a group defines gets exactly one 'value of @...' finding: signal, and default of the root, an entry or a subentry, are OK if the value names something in the group and else ERROR; axes gets none here; all others TODO. An attribute that the class does not define gets none.", "quantifier": "every file, definition set and attribute", "why_tests_cant": "ranges over contents and definitions", "anchors": ["punx/validations/hdf5_group_items_in_base_class.py: verify_group_attributes"]}
{"id": "C63", "title": "Values of single numbers are shown", "statement": "The line of a dataset with a single number shows its value. (Violated for scalar datasets, shape (): nothing is shown after the equal sign; holds for shape (1,).)", "quantifier": "every dataset of numbers", "why_tests_cant": "ranges over all datasets", "anchors": ["punx/h5tree.py: _renderDataset, _renderArray"]}
{"id": "C64", "title": "The cache of a file set is named correctly", "statement": "Every listed file set says from which cache it comes: 'source' for the sets of the package and 'user' for those of the user. (Violated: the cache is guessed from the path, and a user's set whose name starts with 'cache' is called a source set. Proved for all other names; also proved: a set of a cache with an absolute path is called 'source' exactly if 'punx/cache' is in the path of the cache, or this path ends in 'punx' and the name of the set starts with 'cache'; all other sets are called 'user'.)", "quantifier": "every cache directory and every set name", "why_tests_cant": "the wrong label needs an unusual set name", "anchors": ["punx/cache_manager.py: NXDL_File_Set.read_info_file"]}
{"id": "C65", "title": "The table of known file sets", "statement": "The table of known sets has exactly one row for each set, from the oldest to the newest, with the reference, the cache, the date, the short commit and the path of the set; it is produced whenever all sets have a date and a commit.", "quantifier": "every collection of file sets", "why_tests_cant": "ranges over all caches", "anchors": ["punx/cache_manager.py: table_of_caches"]}
{"id": "C66", "title": "An installation that reports success has installed the set", "statement": "If download_file_set returns without an exception and did download, then the complete new set is installed under the requested name and described by the date of the newest extracted file and by the archive comment. (Violated: errors while the old set is removed are ignored, the rename then puts the new set inside what is left of the old one, or fails. Proved when the removal is complete.)", "quantifier": "every archive, file system state and removal outcome", "why_tests_cant": "needs a file system on which removal fails", "anchors": ["punx/cache_manager.py: download_file_set"]}
{"id": "C67", "title": "An interrupted installation can be repeated", "statement": "After an installation that stopped at any point, the same installation can be made again, and if that reports success then the complete set is installed. (Violated for an update repeated without --update: the half removed set is taken as installed. Proved for a first installation, and for an update repeated as an update.)", "quantifier": "every crash point, archive and file system state", "why_tests_cant": "crash points between any two file system operations", "anchors": ["punx/cache_manager.py: download_file_set"]}
{"id": "C68", "title": "An interrupted installation does not break the listing", "statement": "At whatever point an installation stops, the cache can still be listed. (Violated: while the info file is being written the listing of all sets fails. Proved: all sets other than the one in the temporary directory of the installation can still be read.)", "quantifier": "every crash point, archive and file system state", "why_tests_cant": "crash points, torn writes", "anchors": ["punx/cache_manager.py: download_file_set, NXDL_File_Set.read_info_file"]}
{"id": "C69", "title": "Dates of file sets are compared correctly", "statement": "The order of the date texts that are stored in the info files is the order in time of the dates, and different dates have different texts.", "quantifier": "every pair of valid calendar dates", "why_tests_cant": "ranges over all dates", "anchors": ["punx/cache_manager.py: download_file_set, CacheManager.select_NXDL_file_set"]}
{"id": "C70", "title": "The cache stays usable", "statement": "After any sequence of installations and updates that were not interrupted (each may fail because of the network or be refused), starting from a cache that can be listed, the cache can be listed, and each listed set has a date and a commit so that a selection succeeds if there is any set.", "quantifier": "every sequence of installations of archives like those of GitHub (one directory, not called like the set, nothing called like the info file), any network answers, any part of an old set that cannot be removed", "why_tests_cant": "histories of any length", "anchors": ["punx/cache_manager.py: download_file_set, Base_Cache.all_file_sets"]}
{"id": "C71", "title": "Exit status of punx validate", "statement": "punx validate ends normally (status 0) exactly if a report was printed, that is if the definitions are known and can be read, the report option is valid, and the file is an HDF5 file whose validation runs to its end. Whether there are ERROR findings plays no role.", "quantifier": "every argument combination, cache and file", "why_tests_cant": "ranges over all arguments and files", "anchors": ["punx/main.py: func_validate, exit_message"]}
{"id": "C72", "title": "Installing several sets", "statement": "Wherever punx install a b c stops (end, error or crash), each of the named sets, none of which was there before, is either absent or complete, and all other sets are untouched; if it reports success then all named sets are complete.", "quantifier": "every list of names, all archives, every crash point", "why_tests_cant": "crash points of a sequence of installations of any length", "anchors": ["punx/main.py: func_install", "punx/cache_manager.py: download_file_set"]}
{"id": "C73", "title": "punx tree of a file that cannot be read", "statement": "For a file that does not exist or is not an HDF5 file punx tree leaves with a message and status 1, otherwise it prints the lines of the tree report. (Violated: for a missing file it prints an empty line and ends normally; for a file that is not HDF5, and for a missing NXDL file, it ends with an exception that is not caught.)", "quantifier": "every file name and file system", "why_tests_cant": "ranges over all files", "anchors": ["punx/main.py: func_tree", "punx/h5tree.py: Hdf5TreeView.report", "punx/nxdltree.py: NxdlTreeView"]}
{"id": "C74", "title": "The default file set reported after an installation", "statement": "After an installation punx install reports the table of all sets and the most recent one as the default. (Violated: the default is the one from before the installation. Proved: the table is that of the sets afterwards, the default is the most recent set from before.)", "quantifier": "every pair of caches and sequence of installed sets", "why_tests_cant": "depends on the dates of all sets", "anchors": ["punx/main.py: func_install", "punx/cache_manager.py: CacheManager.__init__"]}
{"id": "C75", "title": "Options of fields in a definition have no effect", "statement": "Two collections of definitions that differ only in the XML attributes of field elements other than the name (minOccurs, optional, required, type, units, ...) are read as the same specifications; in particular a field of an application definition marked optional or minOccurs=0 is read as required. (This is what the code does; the NeXus standard says otherwise.)", "quantifier": "every definition document and every choice of XML attributes on its fields", "why_tests_cant": "ranges over all documents and all attribute combinations", "anchors": ["punx/nxdl_manager.py: NXDL__field.parse, xml_attributes", "punx/validations/nx_class_attribute.py"]}
{"id": "C76", "title": "Definitions are usable only as a whole", "statement": "Reading a file set succeeds exactly if its directory and the three category directories exist and each *.nxdl.xml file in them is well formed XML, is valid for the schema, and has the names and types it needs (attribute, field and link names, group types, no attribute twice in one element); one bad file blocks the whole set.", "quantifier": "every directory content", "why_tests_cant": "ranges over all directory contents", "anchors": ["punx/nxdl_manager.py: NXDL_Manager.__init__, get_NXDL_file_list, validate_xml_tree"]}
{"id": "C77", "title": "Which files are validated to the end", "statement": "A validation raises no exception exactly if: the file can be catalogued; all NX_class, target, signal and axes attributes of NeXus objects have the kinds of values that their checks expect; each NeXus group can be compared with the definition of its class (decodable attributes, text where an enumeration or a member is looked up, minOccurs given as numbers); the fields of each declared application definition can be looked up; and each NXdata signal up to the first missing one can be followed to a catalogued address.", "quantifier": "every well named HDF5 tree, every attribute value, all definitions", "why_tests_cant": "one unusual value anywhere in a file ends the whole validation; which values do so is a condition over all files", "anchors": ["punx/validate.py: Data_File_Validator.validate", "punx/validations/*.py"]}
{"id": "C78", "title": "The layout of the NXDL schema file does not matter", "statement": "The summary made from nxdl.xsd (defaults of attributes, parts of the definition element, simple types) depends on the XML content of the file only, not on the lines on which declarations are written. (Violated: objects are stored by line; of several attributes on one line only the last is found, so writing minOccurs and maxOccurs of fields on one line makes every application definition with a field unreadable. Proved: two schemas with the same content and no two attributes, elements or groups of one kind on one line give the same summary, and what is found at a line is always the last declaration there.)", "quantifier": "every pair of schema documents that differ in line numbers", "why_tests_cant": "ranges over all layouts of all schemas", "anchors": ["punx/nxdl_schema.py: NXDL_item_catalog, NXDL_Summary"]}
{"id": "C79", "title": "Which schemas can be catalogued", "statement": "The catalogue of an nxdl.xsd is built without an exception exactly if lengths of simple types are numbers and patterns have values, a named group comes with at least one simple type or attribute group, and each named complex type refers only to names that are declared already: simple types, attribute groups, groups or complex types further up. So the order of the complex types matters, unlike in XML Schema.", "quantifier": "every schema document", "why_tests_cant": "ranges over all documents and all orders of their declarations", "anchors": ["punx/nxdl_schema.py: NXDL_item_catalog"]}
{"id": "C80", "title": "Putting types in their places ends unless a type contains itself", "statement": "The substitution of types in the definition element ends without an exception, given enough stack, exactly if going from an element to its parts comes to an end, where references to the group groupGroup are left out, and no untyped element meets an unnamed type. What comes of it is determined: an element or group then has its own children followed by those of its type (references to groupGroup left out, except in the definition element itself), each with its types put in; attributes and elements have the pattern and length of their simple type, and what has no type of the schema stays as it is. A type that contains itself in another way than through groupGroup always exhausts the stack.", "quantifier": "every catalogue, every element, every size of the stack", "why_tests_cant": "termination for all schemas", "anchors": ["punx/nxdl_schema.py: _init_definition_element"]}
{"id": "C81", "title": "Attributes of types", "statement": "The attributes kept for a complex type are those that XML Schema gives it: written in it, in its extension, in an attribute group that one of these refers to (directly or through other attribute groups), or inherited from its base; default and use are the declared ones. (Violated: attribute groups in extensions and in attribute groups are ignored, and types, groups and attribute groups share one table of names, so that the wrong declaration can be used. Proved for schemas without these and with one declaration per line; the shipped schema is one of them.)", "quantifier": "every schema document, every type and attribute", "why_tests_cant": "types can extend types to any depth", "anchors": ["punx/nxdl_schema.py: NXDL_schema__complexType, NXDL_schema__attributeGroup, NXDL_schema__attribute"]}
{"id": "C82", "title": "Schema managers are independent of each other", "statement": "What a schema manager knows about nxdl.xsd (attributes, elements, types, units, patterns) is determined by the files of its own file set. (Violated: attributes and elements are kept in dictionaries of the class, and whether groups are described is decided once per process. Proved: types, units and patterns are those of the own files; the shared attributes and elements are at any time those of all schemas read so far, of the same name the newest; after a group element was met once, all managers made later describe group elements as empty. Witnesses: a second manager for the same file destroys the description of groups, an attribute of another file set stays, a file refused the first time is accepted the second time.)", "quantifier": "every history of schema managers made from any schema files, including failures", "why_tests_cant": "the state is shared by all managers of a process; histories are unbounded", "anchors": ["punx/schema_manager.py: Schema_Root, _GroupParsing, SchemaManager.__init__"]}
{"id": "C83", "title": "Attributes known to a schema manager", "statement": "For a schema whose references lead to declarations of the right kind, a type that can be read has exactly the attributes that XML Schema gives it (own, of attribute groups at any depth, of the extension, of the base), each with the declared use, type, default, enumeration and patterns; the same holds for every element at any depth and, in a fresh process, for the definition element. An attribute can be read unless it is an NX_BOOLEAN without default. A boolean default is read as true exactly if it is true or y, in any case. Of a type that is written inside of an element, exactly the first attribute is known. (Violated: the boolean default 1 is read as false, and the other attributes of a type written inside of an element are lost: dim in nxdl.xsd.)", "quantifier": "every schema document, type, element and depth", "why_tests_cant": "types extend and nest to any depth", "anchors": ["punx/schema_manager.py: Schema_Attribute, Schema_Type, Schema_Element, Schema_Root"]}
{"id": "C84", "title": "Data types and units", "statement": "nxdlTypes.xsd can be read exactly if all declarations consist of lists, restrictions and unions with their attributes and both special types anyUnitsAttr and primitiveType are declared; then exactly the other declared types are known, each as its (last) declaration says, and the units are the values enumerated for anyUnitsAttr. (Violated for units: if they are written as a union, as in two of the three shipped file sets, the list of units is empty.)", "quantifier": "every content of nxdlTypes.xsd", "why_tests_cant": "ranges over all documents", "anchors": ["punx/schema_manager.py: SchemaManager.parse_nxdlTypes, Schema_nxdlType"]}
{"id": "C85", "title": "Elements known to a schema manager", "statement": "For a schema whose references lead to declarations of the right kind, a type that can be read has exactly the child elements that XML Schema gives it, with their types, and so on at any depth, except that nothing is known of a group element below a group element. (Violated: a group that a sequence of a type refers to is not looked up. Proved for schemas where only the sequence of the definition element refers to groups; the shipped schema is one of them.)", "quantifier": "every schema document, type, element and depth", "why_tests_cant": "types extend and nest to any depth", "anchors": ["punx/schema_manager.py: Schema_Type, Schema_Element, Schema_Root.parse_sequence"]}
{"id": "C86", "title": "Definitions are checked with the schema of their own file set", "statement": "A manager of definitions holds the classes that the files of its file set define, and every one of these files is accepted by the nxdl.xsd of that set. (Violated: the check always uses the schema of the default file set. A manager that is made for a file set object, and not for a name, uses definitions that their own schema refuses and refuses ones that it accepts. Proved for managers made by name or without a name, as long as the schema files do not change.)", "quantifier": "every history of listings, selections, managers and schema accesses in a process, every content of the disk", "why_tests_cant": "depends on the whole history of the process", "anchors": ["punx/nxdl_manager.py: NXDL_Manager.__init__, validate_xml_tree", "punx/schema_manager.py: get_default_schema_manager", "punx/cache_manager.py: NXDL_File_Set.__getattribute__"]}
{"id": "C87", "title": "The file set that is meant", "statement": "A manager or validator made for the name of a known file set is one of that set; a name that is not known is refused (as the documentation of select_NXDL_file_set says); without a name the most recent set is used. (Violated: an unknown name silently gives the most recent set, and without a name one gets the set that was named last. Proved: named sets; without a name in processes in which nothing was named; that listings, other managers and schemas do not change the default.)", "quantifier": "every history of a process, every content of the caches", "why_tests_cant": "depends on the whole history of the process", "anchors": ["punx/nxdl_manager.py: NXDL_Manager.__init__", "punx/cache_manager.py: CacheManager.__init__, select_NXDL_file_set, all_file_sets"]}
{"id": "C88", "title": "The schema of a file set is read once", "statement": "Once the schema of a file set has been read it is kept, whatever the process does; objects of file sets are never lost and keep their description. (Violated for sets: listing the sets makes new objects, for which the schema is read again, which together with C82 spoils it. Proved for objects.)", "quantifier": "every history of a process", "why_tests_cant": "histories are unbounded", "anchors": ["punx/cache_manager.py: NXDL_File_Set.__getattribute__, Base_Cache.all_file_sets"]}
{"id": "C89", "title": "punx validate uses the definitions that were asked for", "statement": "If all file sets have a readable description, punx validate reads exactly the definitions in the directory of the set with the given name, checked with the schema in that directory, and its name patterns are those of that schema; nothing else on the disk plays a role. It ends normally exactly if the report option is known, the set is there and can be read, and the data file is an HDF5 file whose validation against these definitions runs to its end. A set can be read exactly if its category directories exist, its schema can be read and accepts every definition, and every definition makes sense.", "quantifier": "every content of the caches and of the file sets, every data file, every argument", "why_tests_cant": "the claim is about all disks and all definitions at once", "anchors": ["punx/main.py: func_validate", "punx/cache_manager.py: CacheManager", "punx/nxdl_manager.py: NXDL_Manager.__init__"]}
{"id": "C90", "title": "Dimensions of a field", "statement": "A field read from a definition has dimensions exactly if its element has one dimensions element. Then the rank is the one written there, and all dim elements are kept, each under its index with the value, ref, refindex and incr that are written on it, exactly if no index is written twice (of several with one index the last is kept). A field with dimensions cannot be read if the schema of the set does not describe dimensions.", "quantifier": "every field element with any number of dim elements, every schema", "why_tests_cant": "ranges over all lists of elements", "anchors": ["punx/nxdl_manager.py: NXDL__field.parse_nxdl_xml, NXDL__dimensions, NXDL__dim"]}
{"id": "C91", "title": "Data files are opened one at a time", "statement": "Whatever calls of validate and close are made, and whether or not they raise: a data file is opened only when the one before has been closed, a file is closed at most once, and the file that the validator holds is the one that the last call left open (a call for a missing file leaves everything as it was; a call for a file that is not HDF5 closes the one before). After close nothing is open.", "quantifier": "every sequence of calls, every content of the files at each call", "why_tests_cant": "resource handling over unbounded histories with failures", "anchors": ["punx/validate.py: Data_File_Validator.validate, close"]}
{"id": "C92", "title": "The tree report of a file with shared groups", "statement": "The tree report of a file whose groups have been linked in any way (hard links, soft links, cycles, target attributes) can be finished, for some recursion limit, exactly if no group that is shown contains itself by way of groups that have no target attribute; a group with a target is shown at most at the address that the target names. A finished report shows exactly the groups that can be reached in this way, each under the address by which it was reached. A limit quadratic in the number of objects is then sufficient; otherwise the only failure is the recursion limit.", "quantifier": "every store of objects with any links between them, every recursion limit", "why_tests_cant": "ranges over all graphs; termination cannot be tested", "anchors": ["punx/h5tree.py: Hdf5TreeView._renderGroup", "punx/utils.py: isNeXusLink"]}
{"id": "C93", "title": "What git says about the source tree is read back", "statement": "If git describes the tree by a tag, a number of commits, an abbreviated commit and perhaps the mark -dirty, the version module reads exactly these four, whatever the tag is (with hyphens, digits or a text that itself looks like a description), and writes the same text again in the style git-describe-long; a text is accepted only if it has this form and there is only one way to read it. The date of the commit is turned into the ISO form.", "quantifier": "every tag, number, commit and mark, every answer of git", "why_tests_cant": "ranges over all texts; ambiguities of regular expressions show only for unusual tags", "anchors": ["punx/_version.py: git_pieces_from_vcs, render_git_describe_long, run_command"]}
{"id": "C94", "title": "The text of a version says which commit it is", "statement": "Two source trees with the same version text in the default style (pep440) have the same tag, and either both are the unchanged tree of the tag or they have the same number of commits, the same commit and the same mark, provided no tag contains a plus sign. The version is the tag itself only for the unchanged tree of the tag. In the styles pep440 and pep440-post a version has at most one plus sign if the tag has at most one. In the style git-describe-long tag, commit and mark can always be told from the text.", "quantifier": "every pair of descriptions, every tag", "why_tests_cant": "injectivity over all texts", "anchors": ["punx/_version.py: render_pep440, render_pep440_post, render_git_describe_long, plus_or_dot, render"]}
{"id": "C95", "title": "The version of an archive is chosen from its tags", "statement": "For keywords filled in by git archive the version is the first in the order of texts among the tags that begin with the prefix; if no reference is marked as a tag the names with a digit count as tags; if there is none the version is 0+unknown, an error is given and the commit is still named. Neither the order nor the repetition of references matters, and of two tags of which one continues the other the shorter is used. Keywords that are not filled in are never used.", "quantifier": "every list of references, every prefix", "why_tests_cant": "ranges over all lists of names and their orders", "anchors": ["punx/_version.py: git_versions_from_keywords"]}
{"id": "C96", "title": "The version in the name of a directory", "statement": "The version is taken from the name of a directory exactly if the directory of the source tree or one of the two above it has a name that begins with the prefix; the nearest one is used and the version is the rest of its name.", "quantifier": "every path", "why_tests_cant": "ranges over all paths", "anchors": ["punx/_version.py: versions_from_parentdir"]}
{"id": "C97", "title": "A version is always returned", "statement": "The version of the source tree is determined from filled-in keywords, else from git, else from the name of the directory, and is 0+unknown if all fail; the function returns a version for every environment and never raises an exception. (Violated: an exception is raised if git knows the commit but does not give its date, or the number of commits without a tag, or writes something that is not UTF-8. Proved: which version is returned or which exception is raised, for every behaviour of git and every name of the directory.)", "quantifier": "every behaviour of git, every path of the file, every content of the keywords", "why_tests_cant": "ranges over all combinations of failing programs", "anchors": ["punx/_version.py: get_versions, git_pieces_from_vcs, run_command"]}
{"id": "C98", "title": "Keywords are read from a source file", "statement": "A keyword has the value of the last line of the file that gives it one, the text between the first and the last quotation mark; it has no value if there is no such line or the file cannot be read.", "quantifier": "every file", "why_tests_cant": "ranges over all texts", "anchors": ["punx/_version.py: git_get_keywords"]}
{"id": "C99", "title": "The report has exactly the expected lines", "statement": "When the validation of a file completes, the report has a line (address, test, verdict) if and only if it is one of: the verdict on the name of a group, field or attribute, or on the text of a class; the verdict on the value of NX_class, target, signal or axes, TODO for other attributes; the lines on a group checked against its class; the lines on the application definition declared by a group and on its fields; the lines of the search for the default plot and the final verdict. No line is missing and there is no other.", "quantifier": "every file whose object names are their paths, every set of definitions with distinct group names, every environment", "why_tests_cant": "completeness and absence of other lines cannot be seen from examples", "anchors": ["punx/validate.py: Data_File_Validator.validate, validate_item_name, validate_group, validate_application_definition", "punx/validations/*.py"]}
{"id": "C100", "title": "ERROR is reported exactly for faults", "statement": "When the validation of a file completes, ERROR is reported at an address under a test if and only if the file has one of these faults there: a name of a group or field (outside of collections), attribute or class that no rule accepts; NX_class that is no class; target that is no path in the file; signal or axes that is no name or names nothing in the group; a group whose class is unknown or is an application definition; an attribute without one of the values of its definition; default or signal of a group that names no member; a declared definition that is unknown or a base class; a missing field of a definition, or one without one of its values; an NXdata signal that does not exist, several fields of one group marked with signal=1, or no default plot though the definitions require one. In particular the report is free of ERROR exactly if the file has none of them.", "quantifier": "every file whose object names are their paths, every set of definitions with distinct group names, every environment", "why_tests_cant": "ranges over all files; tests cannot show that nothing else is an ERROR", "anchors": ["punx/validate.py", "punx/validations/*.py"]}
{"id": "C101", "title": "What punx validate prints, from the files to the lines", "statement": "punx validate prints a line about a file if and only if all names in --report are statuses, the file is an HDF5 file and not a .nxdl.xml file, the set asked for is listed and its definitions can be read, the validation against exactly these definitions runs to its end, the line is one of the expected ones (C99), and its status is asked for. An ERROR is printed exactly for the faults of the file (C100).", "quantifier": "every command line, every content of the two caches, every data file whose object names are their paths", "why_tests_cant": "ranges over all caches, schema files, definitions and data files", "anchors": ["punx/main.py: func_validate, _install", "punx/cache_manager.py", "punx/schema_manager.py", "punx/nxdl_manager.py", "punx/validate.py"]}
{"id": "C102", "title": "How punx validate ends, and what its summary and score say", "statement": "punx validate ends normally if and only if it reaches the data file and the file can be validated to the end. The summary then counts a status if and only if a line with this status is expected, whether or not it was asked for with --report; in particular it counts an ERROR exactly if the file has a fault, and if it counts at most 100,000 findings then the score is negative exactly if the file has a fault.", "quantifier": "every command line, every content of the two caches, every data file whose object names are their paths", "why_tests_cant": "ranges over all caches, definitions and data files", "anchors": ["punx/main.py: func_validate", "punx/validate.py: finding_summary, finding_score, print_report"]}
{"id": "C103", "title": "Installations of different sets at the same time do not disturb each other", "statement": "Any number of processes install different file sets into one cache at the same time. Whatever the order of their steps: at every moment the directories of each set are as its own installation alone could have left them, and everything else is as before; an installation that ends has the result it would have had alone and has left its directories as it would have alone, so if it reports success the set is complete. No installation can get stuck.", "quantifier": "every number of processes, every order of their single looks and operations, every content of the disk and every archive with one top directory", "why_tests_cant": "the number of interleavings is unbounded, and races do not show up in tests", "anchors": ["punx/cache_manager.py: download_file_set"]}
{"id": "C104", "title": "Installations of the same set at the same time", "statement": "If several processes install the same set at the same time and all report success then the set is complete.", "quantifier": "every order of their single looks and operations", "why_tests_cant": "races do not show up in tests", "anchors": ["punx/cache_manager.py: download_file_set"]}
{"id": "C105", "title": "What was installed is what is used", "statement": "If `punx install` reports success and the set is then used for `punx validate`, the lines that are printed are exactly those that are expected with the definitions in the downloaded archive: no file of an older version of the set, none of the shipped set with the same name and no order of the directory listing has any influence.", "quantifier": "all archives with one directory, all earlier contents of the cache, all orders of listings, all validated files, all options", "why_tests_cant": "tests install one archive on one system and do not compare the report with the archive", "anchors": ["punx/cache_manager.py: download_file_set, all_file_sets", "punx/nxdl_manager.py: get_NXDL_file_list", "punx/main.py: func_validate"]}
{"id": "C106", "title": "The parts of types in nxdl.xsd", "statement": "The elements and groups kept for a complex type of nxdl.xsd are those that XML Schema gives to it: in its model groups at any depth, in its extension, or inherited from its base; those kept for an element or group declaration are the ones written in it, in order, with names, types and limits as declared. (Violated: xs:choice, xs:all and sequences in sequences are not looked at, so their elements are lost. Proved for schemas with plain sequences; the shipped schema is one of them.)", "quantifier": "all schemas", "why_tests_cant": "tests read the shipped schemas only", "anchors": ["punx/nxdl_schema.py: NXDL_schema__complexType, NXDL_schema__element, NXDL_schema__group"]}
{"id": "C107", "title": "The order of members and attributes does not matter", "statement": "If two files differ only in the order in which the members of groups and the attributes of objects are listed (at any depth), then the validation completes for both or for none, and the reports have the same lines (address, test, verdict). (Violated for files in which the signal of an NXdata group is missing: the search for a default plot stops at the first one, so signals after it are not reported, and an exception that a later signal would raise is not raised. Proved for files whose report has no such line, and for all other lines if both validations complete.)", "quantifier": "all pairs of files that differ in order only, with object names that are their paths, all definitions", "why_tests_cant": "the number of orders grows with the factorial of the number of members, and files made for tests have one order", "anchors": ["punx/validate.py: validate, build_address_catalog", "punx/validations/default_plot.py: default_plot_v3", "punx/validations/*.py: verify"]}
{"id": "C108", "title": "punx configuration names the newest set as the default", "statement": "punx configuration works exactly if both caches can be listed, there is at least one set, every set has a commit and (if there are several) a date; it then shows one row for each set, from the oldest to the newest, and as the default the last one of these. (Violated in two ways: the default is named as its description says, not as its directory, so the name shown may be that of another set or of none; and of several sets with the newest date the first listed one is the default, but the last listed one is the last row. Proved for sets that are named like their directories and have different dates.)", "quantifier": "all contents of both caches, in every order of listing", "why_tests_cant": "ranges over all sets of descriptions, including equal dates and copied directories", "anchors": ["punx/main.py: func_configuration", "punx/cache_manager.py: CacheManager.__init__, select_NXDL_file_set, table_of_caches"]}
{"id": "C109", "title": "What punx demonstrate does", "statement": "punx demonstrate ends normally exactly if the set main is known, its definitions can be read, the example file is an HDF5 file whose validation against them runs to its end, and its tree can be rendered; its report has every finding of the validation, whatever the status, and the tree is printed exactly if it ends normally.", "quantifier": "all caches, definitions and contents of the example file", "why_tests_cant": "the example file and the definitions on a computer are arbitrary", "anchors": ["punx/main.py: func_demo, func_validate", "punx/h5tree.py: Hdf5TreeView.report"]}
{"id": "C110", "title": "Definitions that a file does not mention do not matter", "statement": "The definitions that play a part in the validation of a file are NXroot, NXentry, the ones named in an NX_class attribute of an object of the file and the ones declared in a field `definition` of a group of the file. If two sets of definitions agree on these (and on the name patterns and defaults of nxdl.xsd), validation gives exactly the same findings, in the same order, and ends in the same way. If two installed sets can both be read and have the same nxdl.xsd, nxdlTypes.xsd and the same files for these definitions, `punx validate` prints the same lines for both and ends normally on both or on none. (Only the lines: the comments of a declared application definition may differ, as other files may change the common default of minOccurs, see C51.)", "quantifier": "all files, all pairs of sets of definitions", "why_tests_cant": "ranges over pairs of sets of definitions; tests use the shipped sets", "anchors": ["punx/validate.py: validate, validate_group", "punx/validations/base_class_items_in_hdf5_group.py", "punx/validations/hdf5_group_items_in_base_class.py", "punx/validations/application_definition.py", "punx/nxdl_manager.py: NXDL_Manager.__init__, get_NXDL_file_list"]}
{"id": "C111", "title": "Names are judged by the patterns that are written in the schema of the file set", "statement": "The text of a pattern in nxdl.xsd (characters, `.`, `\\w`, sets, groups, alternatives and the repetitions *, + and ?) stands for one regular expression, that which the grammar of patterns gives. `punx validate` records for every group and field exactly one verdict on its name, according to the strict rule and to the patterns whose texts are written for validItemName in the schema of the file set that was asked for; for the value of NX_class according to the texts written for validNXClassName and for the type it restricts; the verdict is printed if its status is asked for. With the texts of the shipped schemas the rules are: a letter or underscore followed by word characters; and NX followed by at least one character, or an item name.", "quantifier": "all texts of patterns, all schemas with such texts, all file sets, all files", "why_tests_cant": "ranges over all pattern texts and all names; the shipped schemas have three patterns", "anchors": ["punx/validations/item_name.py: getValidItemNamePatterns, validItemName_match_key, handle_NX_class", "punx/schema_manager.py: SchemaManager.parse_nxdl_patterns"]}
{"id": "C112", "title": "The cache can be listed while sets are installed", "statement": "A listing of a cache (as punx configuration and punx validate make it) while sets are installed or updated ends, and each set that it has is one that is completely there. (Violated: a listing fails with ValueError if it reads the info file before it is written, and with FileNotFoundError if the directory is renamed after the info file has been seen; a listing during an update may not have the set although it is there before and after. Proved for any order of steps: if the listing ends without an exception, sets that no installation has to do with are listed exactly as they are; a new set is listed only if its installation has succeeded and the set is complete, and it is listed if it was there when the listing began; while only new sets are installed the listing can only fail because of the directory of an archive that is being unpacked.)", "quantifier": "every number of installations, every order of their steps and those of the listing, every content of the disk", "why_tests_cant": "races do not show up in tests", "anchors": ["punx/cache_manager.py: Base_Cache.all_file_sets, NXDL_File_Set.read_info_file, download_file_set"]}
{"id": "C113", "title": "A group is judged by its own content", "statement": "If two files have a group (or field) in common, at the same address and in containers with the same class path, the reports on them have the same lines (address, test and verdict) on the group itself and on everything in it: nothing else in the files matters, neither other entries nor attributes of the containers. The same holds for what `punx validate` prints for the two files with the same options. Excepted are the lines on the default plot, which is a matter of the whole file, and on the values of `target` attributes, which are paths from the root; signal, axes and default must not be given as paths from the root.", "quantifier": "all pairs of files, all definitions whose names have no /, all common parts at any depth", "why_tests_cant": "ranges over all pairs of files with a common part", "anchors": ["punx/validate.py: validate, build_address_catalog, validate_group", "punx/validations/*.py: verify"]}
{"id": "C114", "title": "The definitions that are read belong together", "statement": "Definitions are read from a file set (as punx validate does) while sets are installed or updated: the sets are listed, one is selected, and its directory is read file by file. The set that is used is the one that was asked for, and what is read of it is what one version of the set contains. (Violated: if the set is updated meanwhile, some definitions are read from the old version and others from the new one, and they are used without complaint; or the set that was asked for is not found for a moment and another one is used instead, again without complaint. Proved for any order of steps: reading alone gives what is on the disk; a set that no installation has to do with is read as it is, however many others are installed or updated; a set that is installed for the first time meanwhile is used only when it is complete, with exactly the definitions of its archive.)", "quantifier": "every number of installations, every order of their steps and those of the reading, every content of the disk and of the archives", "why_tests_cant": "races do not show up in tests", "anchors": ["punx/nxdl_manager.py: NXDL_Manager.__init__, get_nxdl_defaults, get_NXDL_file_list, NXDL__definition.parse_nxdl_xml", "punx/cache_manager.py: Base_Cache.all_file_sets, CacheManager.select_NXDL_file_set, download_file_set"]}
{"id": "C115", "title": "What the arguments of the command line mean", "statement": "Every list of arguments is read as a grammar says. The first argument is the name of a command or a beginning of it with two letters or more; the other arguments are words, options (a letter after a dash, several letters together, a name or an unambiguous beginning of one after two dashes, with the text in the same argument or in the next) and `--`. `punx validate` is run on a file with a file set and a selection of findings, `punx tree` with its options and `punx install` with its names exactly if the arguments consist of pieces that give these, the last value of an option counts, and the defaults hold for options that are not given; configuration and demonstrate take nothing. Help or the version is shown exactly if it is asked for before anything that is wrong: by an option of the program itself, with only options that do not exist before it, or by an option of a command, which is the first argument or is written out after options that do not exist. Nothing else can happen: otherwise the status is 2, and 1 exactly if there are no arguments.", "quantifier": "all lists of arguments", "why_tests_cant": "the language of argument lists is infinite, with combined letters, abbreviations, texts that look like options and negative numbers", "anchors": ["punx/main.py: parse_command_line_arguments, MyArgumentParser.parse_args, main"]}
{"id": "C116", "title": "The order of arguments does not matter", "statement": "The name of the file of `punx tree` and `punx validate` may be anywhere among the options, with the same outcome; different options may be exchanged; the names of `punx install` may be anywhere among the options. (Violated for install: names with an option between them are refused, although the same names after or before the option are accepted. It holds if the names are together.)", "quantifier": "all lists of arguments", "why_tests_cant": "ranges over all positions and lists of options", "anchors": ["punx/main.py: parse_command_line_arguments"]}
{"id": "C117", "title": "punx validate FILE uses the most recent set", "statement": "Without --file_set_name `punx validate FILE` validates against the most recent one of the listed sets and prints exactly the lines that are expected with its definitions. (Violated: the default is the name in the description of the set, not that of its directory; if they differ nothing is validated. Moreover a description without a date next to another set stops every command before its arguments are read, even help and the installation of a new version of the set.)", "quantifier": "all contents of the caches, all files, all beginnings of `validate`", "why_tests_cant": "tests run with the shipped sets", "anchors": ["punx/main.py: parse_command_line_arguments, func_validate", "punx/cache_manager.py: CacheManager.__init__, select_NXDL_file_set"]}
{"id": "C118", "title": "The documented usage of the commands", "statement": "The usages that the documentation and the help texts give are understood as documented, whatever the names and texts are: `punx validate` with -f NAME, --file_set_name NAME, --file_set_name=NAME, --report LIST and --report=LIST in any number and order before or after the file (the last one counts; otherwise the default set and all statuses); `punx tree` with -a (no attributes) and -m N, --max_array_items N, --max_array_items=N (otherwise five items); `punx install` with any number of names (otherwise main) and -u or --update; -h or --help first, and after each command; -v or --version. Commands may be abbreviated to two letters.", "quantifier": "all texts that do not begin with a dash (after =: all texts), all lists of options", "why_tests_cant": "tests run a few command lines", "anchors": ["punx/main.py: parse_command_line_arguments", "docs/source/cmd_validate.rst", "docs/source/cmd_tree.rst", "docs/source/cmd_install.rst"]}
{"id": "C119", "title": "A set is called like its description says", "statement": "After any number of installations and updates the description of every set in the user's cache has the name of the directory that the set is in, and `punx validate FILE` uses the most recent set. (Violated: if an old set cannot be removed, the second update fails and leaves the new set where it was unpacked; its description calls it like the old one. It has the latest date, so `punx validate FILE` asks for the set with the name in its description, which is the old one. It holds if no use ends with an error of the file system after the download; other failures do no harm.)", "quantifier": "all histories of the user's cache, all archives with one directory, all files", "why_tests_cant": "ranges over all histories; the violation needs two updates of a set that cannot be removed", "anchors": ["punx/cache_manager.py: download_file_set, CacheManager.select_NXDL_file_set", "punx/main.py: parse_command_line_arguments"]}
{"id": "C120", "title": "Sessions: punx stays usable from run to run", "statement": "Start with a shipped cache that has a set and a user's cache that is empty or was made by punx, and run punx any number of times with any arguments. Only lines that begin with `install` (or a beginning of it) change the user's cache, and a set is installed only by a line with its name, or by one without any name, then it is main. Afterwards `punx configuration` shows all sets and names a newest one, `punx validate FILE` shows exactly the lines that are expected with the definitions of a newest set, and after `punx install -u NAME` has reported success `punx validate FILE -f NAME` shows exactly the lines that are expected with the definitions in the archive, whatever was run in between that does not install NAME again. (It does not hold in all cases: see C46, C66, C119; proved if no run was interrupted, no use ended with an error of the file system after the download and, for the last part, the old set can be removed.)", "quantifier": "all sessions: all lists of arguments, all data files, archives and networks", "why_tests_cant": "ranges over all sequences of runs and their arguments", "anchors": ["punx/main.py: main, func_configuration, func_install, func_validate, parse_command_line_arguments", "punx/cache_manager.py: CacheManager, download_file_set"]}
{"id": "C121", "title": "The data of a file do not matter for its validation", "statement": "Two data files with the same objects, names and attributes get the same report, finding by finding and with the same comments, and their validation ends in the same way, whatever their datasets hold: values, types and shapes. The exceptions are exactly named: values of datasets called `definition`, and values of those which an application definition that is declared in the file describes with a list of values. (So a wrong type or shape of a field is never reported.)", "quantifier": "all data files and all contents of their datasets, all sets of definitions, all states of the validator", "why_tests_cant": "ranges over all contents of all datasets", "anchors": ["punx/validate.py: Data_File_Validator.validate", "punx/validations/*.py", "punx/main.py: func_validate"]}
{"id": "C122", "title": "The tree report can be read back", "statement": "A user who knows the notation can read in the lines of `punx tree` for each object its path (from the indentation), what it is (a group and its class, a dataset with its type and shape, a soft link and its path, an external link that cannot be followed, a link to a target) and, if attributes are shown, its attributes. What is read is in the file and everything in the file is read, so files with the same report look the same. This holds for files in which names of objects are not empty, have no spaces or colons and do not begin with @, names of attributes and classes have no spaces, and names of types do not begin with one. (Otherwise reports are ambiguous: a group called `a: --> /b` looks like a soft link. In the printed text, a line break in a value can look like an object that is not there.)", "quantifier": "all data files with such names, all settings of the report", "why_tests_cant": "ranges over all trees; a faithful report needs that no two trees give the same lines", "anchors": ["punx/h5tree.py: Hdf5TreeView.report, _renderGroup, _renderDataset, _renderDsType, _renderDsShape", "punx/main.py: func_tree"]}
{"id": "C123", "title": "Attributes that are notes do not change anything else", "statement": "Attributes whose name has no @ and is none of NX_class, target, signal, axes and default are notes: taking any set of them out of a file only takes away the lines on these attributes (on the name, on the value, and, for groups, what the definition of the class says about it). All other lines of the report stay, also those on the default plot and on application definitions, and none are new. The errors that notes can cause are exactly: a name that is not valid, and a value that is not among those enumerated. The validation of the file completes if and only if that of the file without the notes does and the notes of groups can be read; so a note of a group that cannot be decoded stops the validation, one of a field does not.", "quantifier": "all data files with well-formed names, all sets of attributes that are notes, all sets of definitions", "why_tests_cant": "ranges over all files and all additional attributes", "anchors": ["punx/validate.py: Data_File_Validator.validate, build_address_catalog", "punx/validations/attribute.py: verify", "punx/validations/item_name.py: verify", "punx/validations/hdf5_group_items_in_base_class.py: verify", "punx/validations/default_plot.py: verify"]}
{"id": "C124", "title": "punx tree of an NXDL file uses the style sheet of the most recent set", "statement": "punx tree FILE.nxdl.xml prints the name of the file, the name of the style sheet for the category of the file in the most recent set of definitions (the same set that punx validate uses by default), and what that style sheet makes of the file; it prints nothing else. A file that is no XML or has none of the three categories is refused with a message and status 1. If the most recent set has no style sheet the run ends with a ValueError that is not caught, whatever other sets have.", "quantifier": "every pair of caches, machine, file and style sheet", "why_tests_cant": "ranges over all caches and files; which set is used depends on all dates", "anchors": ["punx/main.py: func_tree", "punx/nxdltree.py: NxdlTreeView.report", "punx/nxdltree.py: NxdlTreeView._determine_category_", "punx/cache_manager.py: CacheManager.select_NXDL_file_set"]}
{"id": "C125", "title": "How objects are linked does not matter for validation", "statement": "Two data files with the same objects, names and attributes that differ only in how the objects are linked (hard links, soft links, external links, and what the link says about the place of its object) get the same report, finding by finding and with the same comments, and their validation ends in the same way; so does `punx validate`. Links that lead nowhere stay such links. (The names that h5py gives for the objects are the same in both files.) In contrast the report of `punx tree` shows the kind of a link.", "quantifier": "all data files and all kinds of links in them, all sets of definitions, all states of the validator", "why_tests_cant": "ranges over all trees and all assignments of kinds to their links", "anchors": ["punx/validate.py: Data_File_Validator.validate, build_address_catalog", "punx/utils.py: isHdf5Link, isHdf5ExternalLink, isNeXusLink", "punx/validations/item_name.py: verify", "punx/h5tree.py: Hdf5TreeView._renderGroup"]}
{"id": "C126", "title": "How texts are stored does not matter for validation", "statement": "Two data files that hold the same texts in their attributes and datasets get reports with the same lines, however the texts are stored: with variable length (read as `str`), with fixed length (read as `bytes`), or as arrays of either kind with the same texts. The validation of one completes if and only if that of the other does. (False in the code for the attribute `signal` of a field: with fixed length, \"1\" is not recognised as the mark of the default plot, though it is accepted as the value of the attribute.)", "quantifier": "all data files, all ways to store the texts in them, all sets of definitions", "why_tests_cant": "ranges over all trees, all texts and all ways to store each of them", "anchors": ["punx/validate.py: ValidationItem.__init__, Data_File_Validator.validate", "punx/validations/attribute.py", "punx/validations/default_plot.py:138-141 (str(v_item.h5_object))", "punx/validations/application_definition.py: verify", "punx/utils.py: decode_byte_string"]}
{"id": "C127", "title": "Definitions that allow more accept the same files", "statement": "A data file that is validated to the end without an ERROR finding is also validated to the end without an ERROR finding with any other set of definitions that allows at least as much: whose patterns accept at least the same names, which has all definitions of the first set, and whose definitions have at least the same enumerated values, no new attributes with enumerated values, no new attributes that point to members of a group (signal, default, target), and require no more fields and no default plot that was not required. In particular new definitions do no harm, and which fields the base classes have does not matter at all for whether a file is accepted. In contrast one more field in an application definition can make an accepted file wrong.", "quantifier": "all data files, all pairs of sets of definitions, all values stored by earlier validations", "why_tests_cant": "ranges over all files and all pairs of sets of definitions in the relation", "anchors": ["punx/validate.py: Data_File_Validator.validate", "punx/validations/base_class_items_in_hdf5_group.py: verify", "punx/validations/hdf5_group_items_in_base_class.py: verify", "punx/validations/application_definition.py: verify", "punx/validations/default_plot.py: verify", "punx/validations/attribute.py: verify", "punx/validations/item_name.py: verify"]}
{"id": "C128", "title": "What is written in the info file of a set is read back", "statement": "Every value of texts, whole numbers, true, false, null, lists and objects (nested to any depth, with any characters in the texts) that is written with write_json_file is read back unchanged by read_json_file. The text that is written has line ends and printable ASCII characters only, so it does not matter which encoding the operating system prefers. If only a part of a text, list or object was written, wherever the writing stopped, then the file is refused with a ValueError and never taken for another value. So the name, the commit, the address and the date that an installation writes are those that are read from the info file, and a description that was not completely written is never used.", "quantifier": "all values that JSON can hold (whole numbers only), all prefixes of what is written", "why_tests_cant": "ranges over all nested values and texts and over all points where the writing stops", "anchors": ["punx/cache_manager.py: write_json_file, read_json_file", "punx/cache_manager.py: NXDL_File_Set.read_info_file", "punx/cache_manager.py: download_file_set"]}
{"id": "C129", "title": "Additional content does no harm", "statement": "If a data file is validated to the end without an ERROR finding, then so is every file that has the same content and more: additional fields (or named datatypes) in any groups, whose names are valid and not 'definition' and whose attributes have valid names and no meaning for punx, and additional groups without a NeXus class, with anything below them that has valid names, readable links and readable targets (also groups with NeXus classes, wrong signals and so on). No class of the definitions may have a name that ends with a slash. In contrast a field called definition, a name that is not valid, a target that does not exist or a group with a class that is not defined can make an accepted file wrong.", "quantifier": "all data files and all selections of their objects, all sets of definitions without class names that end with a slash", "why_tests_cant": "ranges over all files, at any depth, and over all ways to add objects to them", "anchors": ["punx/validate.py: Data_File_Validator.validate", "punx/validate.py: Data_File_Validator.build_address_catalog", "punx/validations/default_plot.py: verify", "punx/validations/application_definition.py: verify", "punx/validations/item_name.py: verify"]}
{"id": "C130", "title": "A file made of accepted parts is accepted", "statement": "If a data file is made of parts, each of which has some of the attributes and some of the members of its root (any part may have any of them, in any order, also several parts the same ones), and every part is validated to the end without an ERROR finding, then so is the file; provided that no field in the root itself is marked with signal=1, and that the attribute default of the root is text if it is there. Without the first condition it does not hold: two such fields are each accepted alone, but not together. The converse does not hold: a part of an accepted file can be wrong, for instance because the group that default names is in another part.", "quantifier": "all data files and all ways to divide the members and the attributes of their roots among parts, all sets of definitions", "why_tests_cant": "ranges over all files and all ways to divide them", "anchors": ["punx/validate.py: Data_File_Validator.validate", "punx/validate.py: Data_File_Validator.build_address_catalog", "punx/validations/default_plot.py: verify", "punx/validations/application_definition.py: verify", "punx/validations/attribute.py: verify"]}
{"id": "C131", "title": "The printed outline of the schema shows everything and counts right", "statement": "print_tree shows an object, its attributes, elements and groups, and what is in them, each kind sorted by name and indented by its level (of several children of one kind with the same name the last), one line each; the number it returns is the number of lines, and the table it returns has for each kind that occurs the number of its lines. The text of an object has its members that are neither private nor None, a list or a dictionary, sorted by name, without leading underscores of the values. print_tree completes unless the objects are nested deeper than the recursion limit. The code deviates: elements are never shown (other than the object itself), for any schema.", "quantifier": "all objects that can be read from XML schemas, nested to any depth, and all levels", "why_tests_cant": "ranges over all trees of objects; the project's test has the numbers of one schema, and these leave out the elements", "anchors": ["punx/nxdl_schema.py: print_tree", "punx/nxdl_schema.py: render_class_str", "punx/nxdl_schema.py: NXDL_Summary.build_tree"]}
{"id": "C132", "title": "The text of a definitions manager counts the classes by category", "statement": "The text of an NXDL_Manager has one entry for each category that occurs, sorted by name, with the number of its classes; all classes are counted. Two managers have the same text exactly if they have the same number of classes in every category.", "quantifier": "all sets of classes", "why_tests_cant": "ranges over all sets of classes", "anchors": ["punx/nxdl_manager.py: NXDL_Manager.__str__"]}
{"id": "C133", "title": "Which files punx validate passes, and that it passes related files", "statement": "`punx validate` ends normally with a summary that counts no ERROR exactly if the options, the set of definitions and the data file can be read, the file can be validated to the end, and it has none of the faults. With the same options and definitions it also passes a passed file with additional content (C129), a file made of passed parts (C130), a passed file under definitions that allow more (C127), and it prints the same lines for two files that hold the same texts stored in different ways (C126, the attribute signal of fields aside).", "quantifier": "all disks with sound sets, all options, all files", "why_tests_cant": "ranges over all files, sets and options", "anchors": ["punx/main.py: func_validate", "punx/validate.py: validate, print_report, finding_summary", "punx/cache_manager.py", "punx/nxdl_manager.py"]}
{"id": "C134", "title": "The names of groups and fields do not matter", "statement": "If two data files differ only in the names of groups and fields, and in what the attributes target, default, signal and axes say to refer to them, then the validation of one completes exactly if that of the other does, a test reports an ERROR at a place of one exactly if it does at the same place of the other, and one is accepted (validated to the end without an ERROR) exactly if the other is; also by the command `punx validate`. The exchanged names are valid names other than 'definition' and 'NXdata' (which have a meaning as names of fields), the definitions require no fields with these names, and they enumerate no values of the four attributes.", "quantifier": "all pairs of data files that differ in this way, with groups nested to any depth and any number of exchanged names, all sets of definitions, all options", "why_tests_cant": "ranges over all pairs of files and all ways to exchange names; relates two runs", "anchors": ["punx/validate.py: Data_File_Validator.validate", "punx/validate.py: Data_File_Validator.build_address_catalog", "punx/validations/attribute.py: verify", "punx/validations/item_name.py: verify", "punx/validations/default_plot.py: verify", "punx/validations/application_definition.py: verify"]}
{"id": "C135", "title": "Additional content can be removed", "statement": "If no reference of a data file leads to additional content (fields and named datatypes with valid names other than 'definition' and attributes without a meaning for punx; groups without a NeXus class with valid names below them), then the file is validated to the end exactly if it is without this content, and then a test reports an ERROR at an address exactly if it does so without this content, whether the file is right or wrong. So the file is accepted (validated to the end without an ERROR) exactly if it is accepted without this content; also by the command `punx validate`. References are the attributes target, signal, default and axes, the fields of the declared application definition, and the addresses that are looked up for the default plot. In contrast, without the target of a field or the signal of the plot an accepted file is wrong.", "quantifier": "all data files and all selections of their objects at any depth, all sets of definitions, all options; class names do not end with a slash", "why_tests_cant": "ranges over all files and all ways to remove objects from them; relates two runs", "anchors": ["punx/validate.py: Data_File_Validator.validate", "punx/validate.py: Data_File_Validator.build_address_catalog", "punx/validations/attribute.py: verify", "punx/validations/default_plot.py: verify", "punx/validations/application_definition.py: verify"]}
{"id": "C136", "title": "A file that cannot be read stops at the first obstacle", "statement": "The objects of a data file are visited in order: each group before its members, the members in the order of the file. Obstacles are: a link that leads nowhere (KeyError); a target that cannot be decoded (UnicodeDecodeError), that has no length, like a number or an empty array of texts (TypeError), or that is an array of several numbers (ValueError); the NX_class of a group in NeXus content that cannot be decoded (UnicodeDecodeError). The reading of the file ends with an exception if and only if there is an obstacle, and the exception is that of the first one; the validation ends with the same exception before anything is found, and so does `punx validate`, without printing a report.", "quantifier": "all data files whose objects are named by their paths, with any number of obstacles at any depth, all sets of definitions, all options", "why_tests_cant": "ranges over all files and all positions of obstacles", "anchors": ["punx/validate.py: Data_File_Validator._group_address_catalog_, build_address_catalog, get_subject", "punx/validate.py: ValidationItem.determine_NeXus_classpath, identify_object_type", "punx/utils.py: isNeXusLink, decode_byte_string", "punx/main.py: func_validate"]}
{"id": "C137", "title": "Which exceptions end a validation, and when punx validate ends with its own message", "statement": "For every HDF5 file and every set of definitions, a validation that does not run to its end stops with KeyError, ValueError, TypeError, AttributeError, IndexError, NameError or UnicodeDecodeError, and each of these seven ends the validation of some file (exhaustion of memory or of the interpreter's stack and defects of the storage apart). In particular the checks never raise FileNotFound or HDF5_Open_Error, which func_validate turns into messages, nor SystemExit. So punx validate, when the file sets are listed, stops with its own message exactly if the argument is not a .nxdl.xml file and either the file set is not known, or its definitions are read and the report option has an unknown word or there is no such HDF5 file; if the definitions can be read, every other abnormal end is a traceback of one of the seven exceptions.", "quantifier": "all files, definitions, arguments of punx validate and exceptions", "why_tests_cant": "ranges over all files, all definitions and every place in the checks that may raise", "anchors": ["punx/validate.py: Data_File_Validator.validate, build_address_catalog", "punx/validations/*.py: verify", "punx/utils.py: decode_byte_string, isNeXusLink", "punx/main.py: func_validate, exit_message"]}
{"id": "C138", "title": "The simple types of the schema", "statement": "For every XML Schema document, what is read from a simple type is the base of its last restriction that has one (without prefix), the values of the patterns of all its restrictions in order, and the last of the lengths. In the table of simple types of a schema that is read, the names are the declared ones; a type whose base is no simple type of the schema is as declared; any other type has its own patterns followed by those of its base, and the base and length of its base: those of the table if the base was declared earlier, those declared otherwise. (So the own length of such a type is lost, and the order of the declarations matters.)", "quantifier": "all schema documents and simple types", "why_tests_cant": "ranges over all documents and all orders of declarations; the tests read one schema", "anchors": ["punx/nxdl_schema.py: NXDL_schema_named_simpleType, NXDL_item_catalog._parse_nxdl_simpleType_nodes"]}
{"id": "C139", "title": "Version texts in the documented styles", "statement": "For every commit (tag or none, number of commits after it, hash, uncommitted changes) each of the six styles of _version.py gives the text of its documented template (for example TAG[+DISTANCE.gHEX[.dirty]] for pep440, a second plus sign written as a dot). An empty style and default mean pep440, and any other style raises ValueError.", "quantifier": "all commits and style names", "why_tests_cant": "ranges over all tags, distances, hashes and style names; there is no test of _version.py", "anchors": ["punx/_version.py: render, render_pep440, render_pep440_pre, render_pep440_post, render_pep440_old, render_git_describe, render_git_describe_long, plus_or_dot"]}
{"id": "C140", "title": "Which archives are installed", "statement": "If the temporary directory of the archive is free and the directory of the set is absent or can be removed, an archive with one top directory is installed exactly if at least two of its members are wanted, the date of the newest of them (1980 at least) is a date of the calendar, no wanted file is in the way of another wanted member (as its directory, or as a directory of the same name), and none needs a directory named like the info file. Any other archive is refused with an exception, and wherever the attempt stops nothing but the temporary directory has changed.", "quantifier": "every archive, state of the disk and point of interruption", "why_tests_cant": "ranges over all archives and all stopping points; the tests install the archives that GitHub has", "anchors": ["punx/cache_manager.py: download_file_set, is_extractable"]}
{"id": "C141", "title": "Type and texts of datasets in the tree", "statement": "The tree shows for every dataset with a shape its type: CHAR for texts, with the sizes for arrays of texts of fixed length, the name of numpy's type otherwise, and in NeXus files NX_ and capital letters. Texts of fixed length in fewer than two dimensions, or without rows, follow in quotes, several of them in brackets separated by commas; a single text is shown without quotes; a single number without the shape [1]. Another array of texts with two or more dimensions ends the program with TypeError, and a text that cannot be decoded with UnicodeDecodeError.", "quantifier": "every dataset, name and indentation", "why_tests_cant": "ranges over all datasets and texts", "anchors": ["punx/h5tree.py: _renderDataset, _renderDsType, _renderDsShape"]}
{"id": "C142", "title": "What definitions do to the defaults that all classes share", "statement": "Reading a base class or a contributed definition never changes the defaults of the schema. Reading an application definition makes attributes not optional if it has an attribute anywhere (of itself, of a group or of a field), fields required if it has a field anywhere, and groups required if it has a group, for all classes of the file set, read before or after; no other default changes. So after a file set was read each of the three defaults is the one of the schema exactly if no application definition has such an item. Without a schema a directory can be read only if it has no definition at all; otherwise the reading ends with an AssertionError.", "quantifier": "every directory of definitions, every schema and every definition, nested to any depth", "why_tests_cant": "ranges over all definitions and directories; the tests load the shipped file sets, which all have application definitions", "anchors": ["punx/nxdl_manager.py: parse_attributes, parse_fields, parse_groups, NXDL_Manager.__init__"]}
{"id": "C143", "title": "Where the defaults for definitions come from", "statement": "The summary of an nxdl.xsd takes the first group of the definition element and from it the elements group, attribute, doc, field and link, and as symbols the first element of the definition; of several items of a kind with one name the last counts. There is a summary exactly if all of these are there and there is a simple type; a missing element of the group is a KeyError, a definition without group or without element an IndexError. The default for attributes is that of the attribute optional of attribute, the defaults for fields and groups are those of minOccurs of field and of the inner group, and dimensions can be read exactly if field has an element dimensions, with dim in it. A directory without schema has no defaults, which is no error by itself.", "quantifier": "every schema that can be catalogued and whose definition element can be resolved", "why_tests_cant": "ranges over all schemas; the tests read the shipped ones", "anchors": ["punx/nxdl_schema.py: NXDL_Summary.setup, build_tree"]}
{"id": "C144", "title": "Files without an entry", "statement": "A file that punx validate passes has an NXentry group among the members of its root. (Violated twice: a file with nothing but a field marked signal=1 passes, and so does a file of groups whose only NXentry group is inside of another group.) What holds: a default plot that is described by attributes of groups is in an NXentry group of the root; a file that passes has an NXentry group somewhere, or its default plot is given by a field with the only mark in its group; and a file with neither that is validated first gets an ERROR for the missing default plot, whatever the definitions say about it.", "quantifier": "every file, all definitions (for the validation itself, those whose names have no slash), every call of the command", "why_tests_cant": "ranges over all files and definitions; the tests validate some example files, which all have an entry", "anchors": ["punx/validations/default_plot.py: verify, default_plot_v3, default_plot_v2", "docs/source/data_file_validation.rst"]}
{"id": "C145", "title": "Entries follow the application definitions that they declare", "statement": "In a file that punx validate passes every NXentry and NXsubentry group has a field definition and follows the application definition that it names, with all its subgroups. (Violated: an entry without the field passes; groups of the definition are not looked for; and an NXsubentry group that is not in an NXentry group of the root may name a definition that does not exist.) What holds: every NXentry group of the root, and every NXsubentry group in one of these, that has a field definition names a known definition that is no base class, has all fields of the entry of this definition, and for enumerated fields one of the values.", "quantifier": "every file, all definitions, every call of the command", "why_tests_cant": "ranges over all files and definitions; the tests validate some example files", "anchors": ["punx/validate.py: Data_File_Validator.validate", "punx/validations/application_definition.py: verify", "docs/source/data_file_validation.rst"]}
{"id": "C146", "title": "punx tree and punx validate agree on what a NeXus file is", "statement": "punx tree calls a file that can be catalogued a NeXus data file exactly if the validation finds an NXentry group in its root, and calls every file so that punx validate passes. (Violated: if the class of the entry is an array with one text the tree says yes and the validation finds no entry; a class that is an empty array ends punx tree with IndexError, not the validation; and a file without an entry can pass.) What holds: both agree if no class of a group in the root is an array, the first line of the tree report says it, and a file that passes with a default plot described by attributes is called a NeXus file.", "quantifier": "every file that can be catalogued", "why_tests_cant": "ranges over all files and ways to store a class; the tests use the two commands on different files", "anchors": ["punx/utils.py: isNeXusFile, isNeXusGroup", "punx/h5tree.py: Hdf5TreeView.report", "punx/validate.py: ValidationItem"]}
{"id": "C147", "title": "What a file that passes guarantees about the objects in it", "statement": "If punx validate passes a file, then for every object that is in the root or in groups with a NeXus class down from the root: a group with a NeXus class has a class of the definitions that is no application definition; the name of the object is a valid one (outside of collections, and unless its class path has an @); and, unless it is a group without a class, the path in its attribute target exists, the signal of a group is a valid name of something in the group, and so are all its axes. Groups without a class are excluded: their signal need not exist.", "quantifier": "every file that passes and every object in NeXus content, at any depth", "why_tests_cant": "ranges over all files that pass; the tests look at reports of some files, not at what an empty list of errors implies for the tree", "anchors": ["punx/validate.py: Data_File_Validator.validate", "punx/validations/attribute.py", "punx/validations/item_name.py", "punx/validations/nx_class_attribute.py"]}
{"id": "C148", "title": "Which paths in a file are found", "statement": "The value of signal of a group is reported as found exactly if it is not empty and there is a link with this path: components are separated by slashes, empty ones and dots are left out, a path with a slash in front starts at the root and other paths at the group, all links but the last have to lead to groups, the last link may be broken, and a path that ends with a dot has to lead to a group. Looking up the object for a path, as for axes and for the fields of definitions, is refused for the empty path; otherwise it gives the object to which all these links lead, and nothing if one is missing or broken.", "quantifier": "every file, every group in it and every text", "why_tests_cant": "ranges over all texts and trees; the tests look up some names of members", "anchors": ["punx/validations/attribute.py: signal_handler, axes_handler, target_handler", "punx/validations/application_definition.py: verify"]}
{"id": "C149", "title": "Which files punx tree can show", "statement": "punx tree shows a file exactly if it can be told whether it is a NeXus file and the root and all objects reached by links that are followed can be shown. The target of each object has to be readable; what is a NeXus link needs nothing else. Another group needs a class that is absent, a text, bytes that are not empty and can be decoded, or an array with a first element that can be decoded. Another dataset needs a shape, and strings of fixed length have to be decodable and must not form a table with rows; in a NeXus file its target must not be an empty array, and one that has another object as target is shown as a link. A named datatype that is no link cannot be shown. Links that are not followed always can. If attributes are shown their values have to be decodable; hiding them, another number of array items or another file name never makes the report fail. A file that punx validate accepts need not be one that can be shown; but one whose catalogue can be built can, if classes are absent or texts that are not empty, data and attributes can be shown, no target of a dataset is an empty array and there are no named datatypes.", "quantifier": "every file, all options", "why_tests_cant": "ranges over all trees and attribute values; the tests show some example files", "anchors": ["punx/h5tree.py: Hdf5TreeView.report, _renderGroup, _renderDataset, _renderAttributes", "punx/utils.py: isNeXusFile, isNeXusLink, decode_byte_string"]}
{"id": "C150", "title": "The order of members and attributes does not matter for punx tree", "statement": "If the members of groups and the attributes of objects of a file come in another order, punx tree gives the same report. (Violated twice: attributes are shown in the order of the file; and whether it is a NeXus file is found out by looking at the members of the root in their order up to the first entry, so a NeXus link whose class is an empty array ends the report only if it is in front of the entry.) What holds: if it can still be told whether the file is a NeXus file, the report has the same lines, and if attributes are hidden they are in the same order.", "quantifier": "every file with different names in each group and for each object, every other order of its members and attributes at all levels, all options", "why_tests_cant": "ranges over all trees and all their orders; the tests show files in the order in which they were written", "anchors": ["punx/h5tree.py: Hdf5TreeView.report, _renderGroup, _renderAttributes", "punx/utils.py: isNeXusFile"]}
{"id": "C151", "title": "How texts are stored does not matter for punx tree", "statement": "If a file stores the texts in its attributes in another way, with fixed instead of variable length or the other way round, single texts as well as arrays of texts, punx tree gives the same report or ends with the same exception. (Violated: a class that is an empty text is shown as nothing if it has variable length, and ends the report with TypeError if it has fixed length.) What holds: this is so for all files in which no class is an empty text, if the encoding of the terminal reads ASCII as ASCII.", "quantifier": "every file, every other way to store the texts in its attributes, all options", "why_tests_cant": "ranges over all trees and texts; the tests show files written in one way", "anchors": ["punx/h5tree.py: Hdf5TreeView.report, _renderGroup, _renderAttributes", "punx/utils.py: decode_byte_string, isNeXusFile, isNeXusLink"]}
{"id": "C152", "title": "How many array items are asked for matters only for arrays that have more", "statement": "With --max_array_items another number gives the same report of a file (or the same exception) if both numbers are larger than two and no array of numbers in the file is larger: of arrays with one to three dimensions no extent, of others not the first. All numbers up to two give the same report of every file. For a larger array, and between two and three, the number matters.", "quantifier": "every file, all numbers, all other options", "why_tests_cant": "ranges over all files, shapes and numbers; the tests use the default number", "anchors": ["punx/h5tree.py: Hdf5TreeView._renderDataset, _decideNumShown, _renderNdArray", "punx/main.py: func_tree"]}
{"id": "C153", "title": "What is behind a link does not matter for punx tree", "statement": "Links that are not followed (soft links, links to missing files) and NeXus links (objects whose target is another object) are shown by one line each. So if two files differ only in what is behind such links (in the kind, content and attributes other than the target of NeXus links; in the objects to which the other links lead, or in whether they lead to one), punx tree gives the same report or ends with the same exception. (Violated: whether the file is a NeXus file is found out by following all links in the root, so what is behind a soft link changes the first line and the names of types.) What holds: this is so if both files are NeXus files or both are not.", "quantifier": "every two files that differ only behind links, at all levels, all options", "why_tests_cant": "ranges over all trees and everything that can be behind a link; the tests show files with few links", "anchors": ["punx/h5tree.py: Hdf5TreeView._renderGroup, _renderLinkedObject", "punx/utils.py: isNeXusFile, isNeXusLink"]}
{"id": "C154", "title": "A member of a file is shown by its own lines", "statement": "The lines of punx tree for a member of the root (a group with all that is in it, a dataset or a link) stand together, and they are the lines that follow those of the root in the report of a file that has only this member. (Violated: in a NeXus file the types of datasets are written in another way, and more targets count; so a dataset beside the entry is shown in another way than alone.) What holds: this is so for every member of a file that is no NeXus file, for every entry of a NeXus file, and for each member if both files are NeXus files or both are not.", "quantifier": "every file that has a report, every member of its root, all options", "why_tests_cant": "ranges over all trees; the tests compare whole reports of some files", "anchors": ["punx/h5tree.py: Hdf5TreeView.report, _renderGroup"]}
{"id": "C155", "title": "The name of a file matters only in the first line of punx tree", "statement": "The same file under any name gives the same report, except that the first line begins with the name; or nothing under any name, if there is no such file; or the same exception under any name.", "quantifier": "every file or missing file, all names, all options", "why_tests_cant": "ranges over all names and files; the tests remove the first line or compare it for one name", "anchors": ["punx/h5tree.py: Hdf5TreeView.__init__, report"]}
{"id": "C156", "title": "Additional content only adds lines to punx tree", "statement": "If a file has additional members or attributes, at any levels (no attribute NX_class or target), and punx tree shows it, then it shows the file without them too, and the lines of that report are lines of the first one, in the same order: nothing else in the report changes. This holds if both files are NeXus files or both are not; otherwise other lines may change.", "quantifier": "every file that has a report, all that can be left out of it, all options", "why_tests_cant": "ranges over all trees and all their parts; the tests show some files", "anchors": ["punx/h5tree.py: Hdf5TreeView.report, _renderGroup, _renderAttributes, _renderDataset"]}

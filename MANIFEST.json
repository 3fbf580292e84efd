{
 "claims": [
  {
   "property": "C01",
   "status": "proved",
   "theorems": [
    "Punx.findingScore_exact",
    "Punx.findingScore_perm",
    "Punx.findingScore_ignores_unscored"
   ],
   "note": "average kept as an exact quotient; floating point rounding is not modelled"
  },
  {
   "property": "C02",
   "status": "partial",
   "theorems": [
    "Punx.score_negative_iff",
    "Punx.error_score_negative_partial",
    "Punx.no_error_score_nonneg",
    "Punx.error_score_negative_fails"
   ],
   "note": "the unrestricted claim is false in the code (error_score_negative_fails); exact condition and the bound are proved"
  },
  {
   "property": "C03",
   "status": "proved",
   "theorems": [
    "Punx.findingSummary_error_iff",
    "Punx.findingSummary_exact",
    "Punx.findingSummary_total"
   ],
   "note": ""
  },
  {
   "property": "C04",
   "status": "proved",
   "theorems": [
    "Punx.reportRows_error_iff",
    "Punx.reportRows_perm",
    "Punx.reportRows_sorted",
    "Punx.reportRows_stable",
    "Punx.reportRows_selection"
   ],
   "note": ""
  },
  {
   "property": "C05",
   "status": "proved",
   "theorems": [
    "Punx.mkFinding_iff",
    "Punx.md5Preimage_injective",
    "Punx.md5Preimage_collision"
   ],
   "note": "MD5 itself is not modelled; the hashed text is"
  },
  {
   "property": "C06",
   "status": "proved",
   "theorems": [
    "Punx.catalog_visits",
    "Punx.catalog_count",
    "Punx.catalog_once_containers_first",
    "Punx.sortByName_spec"
   ],
   "note": "tree shaped files; hard-link cycles are treated under C11"
  },
  {
   "property": "C07",
   "status": "partial",
   "theorems": [
    "Punx.catalog_addresses_nodup_partial",
    "Punx.catalog_addresses_complete",
    "Punx.catalog_addresses_collide"
   ],
   "note": "false in general: catalog_addresses_collide; proved for files whose object names contain no '@'"
  },
  {
   "property": "C08",
   "status": "proved",
   "theorems": [
    "Punx.catalog_entries"
   ],
   "note": "for files without root groups of other files (external links to '/') and without NX_class values ending in '/'"
  },
  {
   "property": "C09",
   "status": "partial",
   "theorems": [
    "Punx.catalog_contained",
    "Punx.catalog_parent_partial",
    "Punx.catalog_parent_fails",
    "Punx.catalog_parent_mem"
   ],
   "note": "false for members of non-NeXus groups with attributes (catalog_parent_fails); catalog_contained describes all cases"
  },
  {
   "property": "C10",
   "status": "proved",
   "theorems": [
    "Punx.catalog_completes_iff",
    "Punx.catalog_ok_iff"
   ],
   "note": "catalog_completes_iff: well named files; catalog_ok_iff: any names, for files whose NX_class attributes can be decoded"
  },
  {
   "property": "C100",
   "status": "proved",
   "theorems": [
    "Punx.error_iff",
    "Punx.no_error_iff",
    "Punx.expected_error_iff"
   ],
   "note": "The faults are given in Spec/Expected.lean."
  },
  {
   "property": "C101",
   "status": "proved",
   "theorems": [
    "Punx.command_prints_iff",
    "Punx.command_errors_iff",
    "Punx.command_rows",
    "Punx.own_groups_nodup"
   ],
   "note": "The documents of a set are assumed to be XML (no attribute twice in an element); the set asked for has at least one definition."
  },
  {
   "property": "C102",
   "status": "proved",
   "theorems": [
    "Punx.command_succeeds_iff",
    "Punx.command_summary_iff",
    "Punx.command_report"
   ],
   "note": "As for C101."
  },
  {
   "property": "C103",
   "status": "proved",
   "theorems": [
    "Punx.install_alone",
    "Punx.installs_meanwhile",
    "Punx.installs_independent",
    "Punx.installs_complete",
    "Punx.install_can_finish"
   ],
   "note": "install_alone: the process of Model/Concurrent.lean that is alone does what the model of download_file_set does."
  },
  {
   "property": "C104",
   "status": "partial",
   "theorems": [
    "Punx.installs_elsewhere_partial",
    "Punx.installed_kept_partial",
    "Punx.same_set_incomplete"
   ],
   "note": "Violated (same_set_incomplete): both processes extract into the same directory, so one can move away files that the other has extracted; both report success and the listed set lacks a file. What holds: everything else is as before; a set that is there is kept if all installations of it are without --update."
  },
  {
   "property": "C105",
   "status": "proved",
   "theorems": [
    "Punx.ownDefinitions_ext",
    "Punx.installed_content",
    "Punx.installed_definitions",
    "Punx.validate_after_install"
   ],
   "note": "ArchiveDir says what an archive has, without the installation; the directory of the set on the disk may be listed in any order (DirOf). The files of an older version must be removable completely (RemovesAll, see C66), and the directory of the archive must not be in the cache before."
  },
  {
   "property": "C106",
   "status": "partial",
   "theorems": [
    "Punx.inline_parts",
    "Punx.group_parts",
    "Punx.type_parts_partial",
    "Punx.choice_lost",
    "Punx.inner_sequence_lost"
   ],
   "note": "False in the code (choice_lost, inner_sequence_lost). type_parts_partial is the full statement for schemas without xs:choice, xs:all, nested sequences and groups directly in extensions."
  },
  {
   "property": "C107",
   "status": "partial",
   "theorems": [
    "Punx.order_irrelevant_partial",
    "Punx.order_irrelevant_lines",
    "Punx.order_irrelevant_missing",
    "Punx.order_matters",
    "Punx.order_chooses_missing",
    "Punx.order_decides_completion"
   ],
   "note": "False in the code for files with a missing signal (order_matters, order_chooses_missing, order_decides_completion). SameFile says which files differ in order only. Which of several plottable fields is named in the comment of the verdict depends on the order too (order_chooses_plot); the address, test and status do not."
  },
  {
   "property": "C108",
   "status": "partial",
   "theorems": [
    "Punx.configuration_iff",
    "Punx.configuration_shows",
    "Punx.configuration_default_partial",
    "Punx.default_not_last",
    "Punx.default_not_known"
   ],
   "note": "False in the code (default_not_last, default_not_known). configuration_default_partial is the full statement for sets that are named like their directories and have different dates."
  },
  {
   "property": "C109",
   "status": "proved",
   "theorems": [
    "Punx.demo_option",
    "Punx.demo_succeeds_iff",
    "Punx.demo_shows"
   ],
   "note": ""
  },
  {
   "property": "C11",
   "status": "proved",
   "theorems": [
    "Punx.walk_finishes_iff",
    "Punx.walk_limit",
    "Punx.walk_cycle",
    "Punx.walk_visits",
    "Punx.tree_iff_acyclic",
    "Punx.catalog_is_walk",
    "Punx.walk_of_tree"
   ],
   "note": "The link graph is a model of its own; the recursion limit of the interpreter is the fuel. The last three theorems relate it to the tree model of the other claims: a store can be seen as a tree exactly if it has no cycle, and then the catalogue of the tree visits the same objects in the same order."
  },
  {
   "property": "C110",
   "status": "proved",
   "theorems": [
    "Punx.unused_definitions",
    "Punx.unused_definitions_lines",
    "Punx.unused_definitions_validate",
    "Punx.unused_definitions_command",
    "Punx.unused_definition_set",
    "Punx.same_files_classes",
    "Punx.unused_files",
    "Punx.unused_files_command"
   ],
   "note": "Mentions says which definitions a file mentions, over the tree of the file. The files of an installed set: no two files of a category have the same name (true for directories), and each set can be read (an unreadable file blocks the whole set, C76). Beside unused_definitions an example shows that every kind of mention matters."
  },
  {
   "property": "C111",
   "status": "proved",
   "theorems": [
    "Punx.readPattern_iff",
    "Punx.patternText_unique",
    "Punx.shipped_item_names",
    "Punx.shipped_class_names",
    "Punx.command_name_row",
    "Punx.command_class_row",
    "Punx.shipped_declares"
   ],
   "note": "Spec/RegexText has the grammar. That re.compile reads the texts of this grammar as written is the hypothesis Compiles; readPattern shows that the grammar gives each text one meaning. Texts with other syntax are not covered."
  },
  {
   "property": "C112",
   "status": "partial",
   "theorems": [
    "Punx.listing_alone",
    "Punx.listing_others_partial",
    "Punx.listing_new_partial",
    "Punx.listing_fails_partial",
    "Punx.listing_disturbed",
    "Punx.listing_misses_updated"
   ],
   "note": "False in the code (listing_disturbed, listing_misses_updated). listing_alone: the listing of Model/Concurrent.lean that is alone does what the model of all_file_sets does."
  },
  {
   "property": "C113",
   "status": "proved",
   "theorems": [
    "Punx.part_judged_alone",
    "Punx.entry_judged_alone",
    "Punx.command_part_alone",
    "Punx.own_simpleNames"
   ],
   "note": "Spec/Part says which lines are lines on a group. The class path of the common part must not have an @ (a name with @ is judged by the rule for attributes, which depends on the container). Examples beside the theorems show that the excepted lines do depend on the rest of the file."
  },
  {
   "property": "C114",
   "status": "partial",
   "theorems": [
    "Punx.reading_alone",
    "Punx.reading_others_partial",
    "Punx.reading_new_partial",
    "Punx.use_others_partial",
    "Punx.use_new_partial",
    "Punx.reading_mixed",
    "Punx.use_another"
   ],
   "note": "False in the code (reading_mixed, use_another). Missing for the full statement: sets that are updated while they are read. os.listdir is any function that lists what is in the directory at that moment, in any order (ListsSet)."
  },
  {
   "property": "C115",
   "status": "proved",
   "theorems": [
    "Punx.validate_read_iff",
    "Punx.tree_read_iff",
    "Punx.install_read_iff",
    "Punx.configuration_read_iff",
    "Punx.demonstrate_read_iff",
    "Punx.command_help_iff",
    "Punx.shows_help_iff",
    "Punx.later_help_case",
    "Punx.later_short_case",
    "Punx.line_outcomes",
    "Punx.no_arguments",
    "Punx.known_iff",
    "Punx.known_help_iff"
   ],
   "note": "Model/Argparse follows argparse of CPython 3.11 and the parsers in main.py; Spec/Argparse has the grammar. What int() reads and which texts are negative numbers are parameters. shows_help_iff has all lists of arguments with which help or the version is shown (Spec/ArgparseTop)."
  },
  {
   "property": "C116",
   "status": "partial",
   "theorems": [
    "Punx.word_anywhere_partial",
    "Punx.names_anywhere_partial",
    "Punx.options_swap",
    "Punx.install_order_matters"
   ],
   "note": "False in the code for install (install_order_matters). The other three theorems are the full statement for names that are together."
  },
  {
   "property": "C117",
   "status": "partial",
   "theorems": [
    "Punx.default_ref_iff",
    "Punx.plain_validate",
    "Punx.plain_validate_prints_partial",
    "Punx.misnamed_default_refused",
    "Punx.undated_set_stops_all"
   ],
   "note": "False in the code (misnamed_default_refused, undated_set_stops_all). plain_validate_prints_partial is the full statement for sets that have a date and the name of their directory, as installations make them."
  },
  {
   "property": "C118",
   "status": "proved",
   "theorems": [
    "Punx.validate_usage",
    "Punx.tree_usage",
    "Punx.install_usage",
    "Punx.first_usage",
    "Punx.help_usage"
   ],
   "note": "Spec/Usage has the names of the options as they are documented; the statements do not use the descriptions of the parsers in Model/Argparse."
  },
  {
   "property": "C119",
   "status": "partial",
   "theorems": [
    "Punx.true_names_after_partial",
    "Punx.validate_after_uses_partial",
    "Punx.true_names_violated",
    "Punx.stale_set_used"
   ],
   "note": "False in the code (true_names_violated, stale_set_used). The partial theorems are the full statement if what was downloaded could be put on the disk; this also discharges the hypothesis about names of C117."
  },
  {
   "property": "C12",
   "status": "proved",
   "theorems": [
    "Punx.object_name_verdict",
    "Punx.object_name_verdict_bundled",
    "Punx.object_with_at_verdict",
    "Punx.accepted_name_iff"
   ],
   "note": "For every file whose validation completes, every set of definitions and every run time. Objects with '@' in their class path are judged like attributes (object_with_at_verdict). The strict and relaxed rules are characterised by character tests in Spec/Names; patMatch_iff links them to the matcher."
  },
  {
   "property": "C120",
   "status": "partial",
   "theorems": [
    "Punx.changed_by_install",
    "Punx.session_use",
    "Punx.session_configuration_partial",
    "Punx.session_validate_partial",
    "Punx.install_then_validate_partial"
   ],
   "note": "Missing: interrupted runs and errors of the file system after a download, for which the statement is false in the code (C46, C66, C119). The five theorems are the full statement otherwise."
  },
  {
   "property": "C121",
   "status": "proved",
   "theorems": [
    "Punx.data_irrelevant",
    "Punx.data_irrelevant_validate",
    "Punx.data_irrelevant_command"
   ],
   "note": ""
  },
  {
   "property": "C122",
   "status": "proved",
   "theorems": [
    "Punx.tree_read_back",
    "Punx.same_report_same_tree",
    "Punx.same_report_same_groups",
    "Punx.tree_read_text",
    "Punx.report_ambiguous",
    "Punx.text_faked"
   ],
   "note": "readTree (Spec/TreeRead.lean) is the reader. The last two theorems show that the assumptions about names and line breaks are needed."
  },
  {
   "property": "C123",
   "status": "proved",
   "theorems": [
    "Punx.notes_completes_iff",
    "Punx.notes_report_iff",
    "Punx.notes_errors_iff",
    "Punx.note_stops_validation"
   ],
   "note": ""
  },
  {
   "property": "C124",
   "status": "proved",
   "theorems": [
    "Punx.nxdl_tree_prints_iff",
    "Punx.nxdl_tree_refused",
    "Punx.nxdl_tree_no_sheet"
   ],
   "note": "The transformation itself (lxml) is a parameter."
  },
  {
   "property": "C125",
   "status": "proved",
   "theorems": [
    "Punx.links_irrelevant",
    "Punx.links_irrelevant_command",
    "Punx.links_shown"
   ],
   "note": "The names of objects are part of the model of a file (what h5py reports), so both files have the same."
  },
  {
   "property": "C126",
   "status": "partial",
   "theorems": [
    "Punx.stored_completes_iff_partial",
    "Punx.stored_report_partial",
    "Punx.stored_signal_violated"
   ],
   "note": "False in the code for the attribute signal of fields (stored_signal_violated). The partial theorems are the full statement for files in which these attributes are stored alike; datasets and all other attributes are free, and so are the kinds of links."
  },
  {
   "property": "C127",
   "status": "proved",
   "theorems": [
    "Punx.wider_accepts",
    "Punx.more_definitions_accept",
    "Punx.base_fields_irrelevant",
    "Punx.more_fields_reject"
   ],
   "note": "WiderSet (Spec/Wider.lean) says when a set of definitions allows what another allows."
  },
  {
   "property": "C128",
   "status": "proved",
   "theorems": [
    "Punx.json_read_back",
    "Punx.json_plain",
    "Punx.json_part_refused",
    "Punx.info_read_back",
    "Punx.info_written",
    "Punx.info_part_refused",
    "Punx.info_file_exact"
   ],
   "note": "Model/Json.lean has json.dumps(indent=2) and json.loads character by character (numbers with fractions are left out). A part of a number is a number, so json_part_refused is for texts, lists and objects (number_part_read shows the contrast)."
  },
  {
   "property": "C129",
   "status": "proved",
   "theorems": [
    "Punx.extras_accepted",
    "Punx.extras_case",
    "Punx.other_extras_reject"
   ],
   "note": "trim X f is the file without the members that satisfy X (Spec/Extras.lean); Extra says which objects may be added."
  },
  {
   "property": "C13",
   "status": "partial",
   "theorems": [
    "Punx.accepted_name_partial",
    "Punx.accepted_newline",
    "Punx.accepted_long"
   ],
   "note": "Proved: accepted names are a letter or underscore followed by word characters, up to one newline at the end. The full claim is false in the code: a newline at the end (accepted_newline) and more than 63 characters (accepted_long) are accepted."
  },
  {
   "property": "C130",
   "status": "proved",
   "theorems": [
    "Punx.parts_accepted",
    "Punx.whole_case",
    "Punx.root_marks_reject",
    "Punx.part_rejected"
   ],
   "note": "MadeOf (Spec/Whole.lean) says when files are the parts of a file. root_marks_reject and part_rejected show that the condition on marks is needed, and that the converse does not hold."
  },
  {
   "property": "C131",
   "status": "partial",
   "theorems": [
    "Punx.outline_printed_partial",
    "Punx.summary_printed_partial",
    "Punx.class_text",
    "Punx.shown_unique",
    "Punx.object_line",
    "Punx.replaced_attributes",
    "Punx.elements_not_printed",
    "Punx.element_missing",
    "Punx.shipped_outline"
   ],
   "note": "The code violates the property: elements are never printed (elements_not_printed for every object, element_missing a case). The rest is proved."
  },
  {
   "property": "C132",
   "status": "proved",
   "theorems": [
    "Punx.manager_text",
    "Punx.manager_counts_all",
    "Punx.manager_text_iff"
   ],
   "note": ""
  },
  {
   "property": "C133",
   "status": "partial",
   "theorems": [
    "Punx.command_passes_iff",
    "Punx.command_extras",
    "Punx.command_parts",
    "Punx.command_wider",
    "Punx.command_stored_partial"
   ],
   "note": "Partial only in the last clause, which the code violates for the attribute signal of fields (stored_signal_violated, C126). Passes (Props/Accepts.lean) says that the command ends normally with a report and that no summary counts an ERROR."
  },
  {
   "property": "C134",
   "status": "proved",
   "theorems": [
    "Punx.renamed_completes_iff",
    "Punx.renamed_errors_placed",
    "Punx.renamed_errors_iff",
    "Punx.renamed_accepted_iff",
    "Punx.command_renamed"
   ],
   "note": "Renamed and SameAddress (Spec/Renamed.lean) say which files and places correspond; the relation is symmetric (Renamed.symm). Cases: Cases/Renamed.lean."
  },
  {
   "property": "C135",
   "status": "proved",
   "theorems": [
    "Punx.extras_completion",
    "Punx.extras_errors",
    "Punx.extras_removable",
    "Punx.extras_irrelevant",
    "Punx.command_removed"
   ],
   "note": "ReferencesKept (Spec/Removed.lean) says which references keep their objects. Cases: Cases/Removed.lean, Cases/Removed2.lean (a file with errors)."
  },
  {
   "property": "C136",
   "status": "proved",
   "theorems": [
    "Punx.reading_stops_at",
    "Punx.reading_completes_iff",
    "Punx.obstacle_ends_validation",
    "Punx.obstacle_ends_command",
    "Punx.blocked_case"
   ],
   "note": "Spec/Obstacles.lean lists the obstacles of a file in the order of the visit."
  },
  {
   "property": "C137",
   "status": "proved",
   "theorems": [
    "Punx.exceptions_of_validation",
    "Punx.exceptions_exact",
    "Punx.validateAndReport_end",
    "Punx.exit_message_iff",
    "Punx.validate_command_ends",
    "Punx.text_file_case",
    "Punx.stopped_file_case"
   ],
   "note": "The exceptions are followed through every definition of the checks; a file for each of them: each_exception."
  },
  {
   "property": "C138",
   "status": "proved",
   "theorems": [
    "Punx.simple_read",
    "Punx.declaresSimple_unique",
    "Punx.simple_types_table",
    "Punx.simple_types_case"
   ],
   "note": "DeclaresSimple and SimpleDeclared (Spec/SimpleTypes.lean) say what a document declares."
  },
  {
   "property": "C139",
   "status": "proved",
   "theorems": [
    "Punx.style_text",
    "Punx.other_styles",
    "Punx.style_case"
   ],
   "note": "The templates: documentedStyles (Spec/VersionStyles.lean)."
  },
  {
   "property": "C14",
   "status": "partial",
   "theorems": [
    "Punx.class_value_verdict",
    "Punx.class_value_partial",
    "Punx.class_of_group_ok",
    "Punx.accepted_class_not_name",
    "Punx.accepted_class_without_nx"
   ],
   "note": "The exact rule is proved: OK iff any of the two patterns matches. The full claim (both must hold) is false, with two witnesses."
  },
  {
   "property": "C140",
   "status": "proved",
   "theorems": [
    "Punx.installs_iff",
    "Punx.valid_iff",
    "Punx.installable_case"
   ],
   "note": "Installable and CalendarDate (Spec/Installable.lean) are stated over the members of the archive; the order of the members does not matter."
  },
  {
   "property": "C141",
   "status": "proved",
   "theorems": [
    "Punx.type_shown",
    "Punx.texts_line",
    "Punx.texts_fail",
    "Punx.text_line",
    "Punx.long_text_line",
    "Punx.number_line",
    "Punx.three_texts_case"
   ],
   "note": "typeName and textsShown: Spec/TreeData.lean."
  },
  {
   "property": "C142",
   "status": "proved",
   "theorems": [
    "Punx.definition_effect",
    "Punx.defaults_after",
    "Punx.without_schema",
    "Punx.defaults_leak",
    "Punx.attributed_case"
   ],
   "note": "After, HasAttribute, HasGroup, InApplications: Spec/Shared.lean. That one definition changes the defaults of all is the defect of C51; this claim says exactly what changes."
  },
  {
   "property": "C143",
   "status": "proved",
   "theorems": [
    "Punx.summary_iff",
    "Punx.summary_errors",
    "Punx.attributes_found",
    "Punx.defaults_from",
    "Punx.directory_defaults",
    "Punx.defaultOf_unique",
    "Punx.shipped_parts",
    "Punx.groupless_case"
   ],
   "note": "Found, FoundFirst, PartsOf, DefaultOf: Spec/SummaryParts.lean. Which schemas can be catalogued and resolved: C79, C80; the simple types: C138."
  },
  {
   "property": "C144",
   "status": "partial",
   "theorems": [
    "Punx.attribute_plot_entry",
    "Punx.accepted_entry_partial",
    "Punx.no_entry_reported",
    "Punx.passed_entry_partial",
    "Punx.accepted_without_entry",
    "Punx.accepted_nested_entry"
   ],
   "note": "The documentation asks for NXentry groups; the code looks for one only to find the default plot. Both violations are proved with a witness. Validated after another file the ERROR may be missing for another reason (C31)."
  },
  {
   "property": "C145",
   "status": "partial",
   "theorems": [
    "Punx.accepted_follows_partial",
    "Punx.passed_follows_partial",
    "Punx.accepted_undeclared",
    "Punx.accepted_incomplete",
    "Punx.accepted_deep"
   ],
   "note": "EntryGroup, HasDefinition, FollowsDefinition: Spec/Comply.lean, stated over the members of the file. The three violations are proved with a witness; the code says TODO for groups and attributes."
  },
  {
   "property": "C146",
   "status": "partial",
   "theorems": [
    "Punx.nexus_agree_partial",
    "Punx.tree_title_partial",
    "Punx.plotted_is_nexus_partial",
    "Punx.array_class_disagrees",
    "Punx.empty_class_disagrees",
    "Punx.accepted_not_nexus"
   ],
   "note": "TopEntry: Spec/Entry.lean; SingleClasses: Spec/Agree.lean. The three violations are proved with a witness."
  },
  {
   "property": "C147",
   "status": "proved",
   "theorems": [
    "Punx.inNexus_item",
    "Punx.accepted_guarantees",
    "Punx.clean_report_guarantees",
    "Punx.passed_guarantees",
    "Punx.classless_unchecked"
   ],
   "note": "InNexus, Guaranteed: Spec/Guarantee.lean, stated over the members of the file. classless_unchecked shows that the restriction to groups with a class is needed."
  },
  {
   "property": "C148",
   "status": "proved",
   "theorems": [
    "Punx.path_object",
    "Punx.path_contained",
    "Punx.signal_path"
   ],
   "note": "PathIs, StartsAt, Dotted, LeadsTo, LinkAt: Spec/Paths.lean, stated over the text of the path and the links. What h5py does for a path is part of the model (Model/H5.lean), not of punx."
  },
  {
   "property": "C149",
   "status": "proved",
   "theorems": [
    "Punx.tree_shown_iff",
    "Punx.tree_shown_options",
    "Punx.usual_file_shown",
    "Punx.accepted_not_shown"
   ],
   "note": "ToldNexus, ShownClass, ShownData, ShownAttrs, Showable: Spec/Showable.lean, stated object by object. usual_file_shown: files that the validation can catalogue (FileReadable, C10) and that are written as usual are shown. accepted_not_shown: a named datatype beside an entry is accepted by the validation and ends the tree report."
  },
  {
   "property": "C15",
   "status": "proved",
   "theorems": [
    "Punx.name_checked_once",
    "Punx.root_unjudged",
    "Punx.nonNexus_attribute_unjudged",
    "Punx.nameFindings_run"
   ],
   "note": "One verdict for every catalogued item except the exempt ones; Exempt lists the root, attributes of non-NeXus content, and attributes and '@' members of linked objects."
  },
  {
   "property": "C150",
   "status": "partial",
   "theorems": [
    "Punx.tree_order_partial",
    "Punx.tree_order_fails",
    "Punx.tree_attribute_order"
   ],
   "note": "Partial because the code violates the full property: tree_order_fails and tree_attribute_order are the two counterexamples. tree_order_partial holds for all files for which it can be told, in the other order, whether they are NeXus files; for hidden attributes the reports are equal. SameFile: Spec/Reorder.lean, ToldNexus: Spec/Showable.lean."
  },
  {
   "property": "C151",
   "status": "partial",
   "theorems": [
    "Punx.tree_stored_partial",
    "Punx.tree_stored_empty"
   ],
   "note": "Partial because the code violates the full property: tree_stored_empty. tree_stored_partial gives equality of the results for all files in which no class is an empty text. TextsAlikeFile: Spec/TreeStored.lean."
  },
  {
   "property": "C152",
   "status": "proved",
   "theorems": [
    "Punx.tree_items_enough",
    "Punx.tree_items_few",
    "Punx.tree_items_matter"
   ],
   "note": "AllFitKids, FitsIn, extents: Spec/TreeItems.lean. tree_items_matter shows that neither condition can be dropped."
  },
  {
   "property": "C153",
   "status": "partial",
   "theorems": [
    "Punx.tree_hidden_partial",
    "Punx.tree_hidden_fails"
   ],
   "note": "Partial because the code violates the full property: tree_hidden_fails. tree_hidden_partial gives equality of the results for all files that are both NeXus files or both not. ShownAlikeKids: Spec/TreeHidden.lean, ToldNexus: Spec/Showable.lean."
  },
  {
   "property": "C154",
   "status": "partial",
   "theorems": [
    "Punx.tree_member_alone",
    "Punx.tree_member_plain",
    "Punx.tree_entry_alone",
    "Punx.tree_member_fails"
   ],
   "note": "Partial because the code violates the full property: tree_member_fails. LinkedFrom, onlyLink: Spec/TreeAlone.lean, ToldNexus: Spec/Showable.lean."
  },
  {
   "property": "C155",
   "status": "proved",
   "theorems": [
    "Punx.tree_name_only",
    "Punx.tree_name_cases"
   ],
   "note": "One statement over all names: the rest of the first line, the other lines and the exception are chosen before the name."
  },
  {
   "property": "C156",
   "status": "proved",
   "theorems": [
    "Punx.tree_more",
    "Punx.tree_more_nexus"
   ],
   "note": "HasMoreKids, MoreAttrs: Spec/TreeMore.lean, ToldNexus: Spec/Showable.lean. tree_more_nexus shows that the condition on both files is needed."
  },
  {
   "property": "C16",
   "status": "proved",
   "theorems": [
    "Punx.attribute_name_verdict",
    "Punx.class_value_verdict"
   ],
   "note": "OK or ERROR, never anything else, also inside NXcollection."
  },
  {
   "property": "C17",
   "status": "proved",
   "theorems": [
    "Punx.signal_of_group",
    "Punx.signal_of_group_simple",
    "Punx.signal_of_field",
    "Punx.signal_elsewhere"
   ],
   "note": "For every completed validation. 'Member of that name' is h5py's `in`; h5contains_simple spells it out for names without path syntax."
  },
  {
   "property": "C18",
   "status": "proved",
   "theorems": [
    "Punx.axes_findings",
    "Punx.axes_only_on_groups",
    "Punx.h5get_simple",
    "Punx.h5get_dot",
    "Punx.axes_on_field_stops"
   ],
   "note": "The exact list of findings for every number of axes."
  },
  {
   "property": "C19",
   "status": "proved",
   "theorems": [
    "Punx.target_verdict",
    "Punx.target_verdict_bundled"
   ],
   "note": "target_verdict holds for any definitions; target_verdict_bundled spells the path out with the bundled naming rules."
  },
  {
   "property": "C20",
   "status": "partial",
   "theorems": [
    "Punx.names_attributes_total_partial",
    "Punx.signal_digit_stops",
    "Punx.axes_on_field_stops"
   ],
   "note": "Proved when digit text in signal of a field can be read by int(). The full claim is false: '\u00b2' counts as digit but int() refuses it (signal_digit_stops)."
  },
  {
   "property": "C21",
   "status": "proved",
   "theorems": [
    "Punx.usedAsBaseClass_spec"
   ],
   "note": ""
  },
  {
   "property": "C22",
   "status": "proved",
   "theorems": [
    "Punx.class_verdict",
    "Punx.group_findings_run",
    "Punx.addressed_groups"
   ],
   "note": "For every completed validation of a file whose h5py names are the paths (WellNamedFile). 'known NXDL' is also used by the application definition check, so the class verdict is the first such finding at the address."
  },
  {
   "property": "C23",
   "status": "proved",
   "theorems": [
    "Punx.attribute_known_ok",
    "Punx.attribute_comment",
    "Punx.members_reported",
    "Punx.member_comment",
    "Punx.undefined_never_error"
   ],
   "note": ""
  },
  {
   "property": "C24",
   "status": "proved",
   "theorems": [
    "Punx.attribute_enumeration"
   ],
   "note": ""
  },
  {
   "property": "C25",
   "status": "proved",
   "theorems": [
    "Punx.defined_content"
   ],
   "note": ""
  },
  {
   "property": "C26",
   "status": "proved",
   "theorems": [
    "Punx.app_findings_run",
    "Punx.declared_definition_verdict",
    "Punx.required_field_verdict",
    "Punx.missing_field_iff",
    "Punx.enumerated_field_absent_stops",
    "Punx.absent_mode_stops"
   ],
   "note": "For completed validations; the only way the check itself stops on an absent field is the enumerated case, shown with a witness."
  },
  {
   "property": "C27",
   "status": "proved",
   "theorems": [
    "Punx.default_plot_once",
    "Punx.default_plot_verdict"
   ],
   "note": "default_plot_verdict gives the complete report of the step and says when the definitions require a plot, including the values left by earlier validations."
  },
  {
   "property": "C28",
   "status": "proved",
   "theorems": [
    "Punx.attribute_plot_exists",
    "Punx.found_by_v3",
    "Punx.v3_exact"
   ],
   "note": "v3_exact characterises the method completely for every file."
  },
  {
   "property": "C29",
   "status": "proved",
   "theorems": [
    "Punx.v2_exact",
    "Punx.signalPlot_iff",
    "Punx.default_plot_verdict"
   ],
   "note": ""
  },
  {
   "property": "C30",
   "status": "proved",
   "theorems": [
    "Punx.default_plot_verdict"
   ],
   "note": ""
  },
  {
   "property": "C31",
   "status": "partial",
   "theorems": [
    "Punx.repeatable_partial",
    "Punx.repeatable_iff",
    "Punx.repeatable_history_iff",
    "Punx.repeatable_with_entry",
    "Punx.repeatable_when_required",
    "Punx.not_repeatable",
    "Punx.history_stored"
   ],
   "note": "False in the code: minOccurs stored in the shared definitions survives a validation (not_repeatable). repeatable_history_iff says exactly when a history changes the findings, repeatable_partial that only the status of the last finding can change."
  },
  {
   "property": "C32",
   "status": "partial",
   "theorems": [
    "Punx.findings_named_partial",
    "Punx.findings_of_last_opened",
    "Punx.fname_of_last_found",
    "Punx.findings_misnamed"
   ],
   "note": "False in the code after a file that exists but cannot be opened (findings_misnamed); proved for all other histories, and both the name and the findings are characterised for every history."
  },
  {
   "property": "C33",
   "status": "proved",
   "theorems": [
    "Punx.findings_addressed",
    "Punx.report_never_fails",
    "Punx.report_never_fails_history"
   ],
   "note": "For every run, also runs that end with an exception, and for every history of calls."
  },
  {
   "property": "C34",
   "status": "partial",
   "theorems": [
    "Punx.itemRecord_last",
    "Punx.itemRecord_kept_iff",
    "Punx.itemRecord_keeps_partial",
    "Punx.itemRecord_loses"
   ],
   "note": "False in the code: later findings with the same test name replace earlier ones (itemRecord_loses); the exact content is proved."
  },
  {
   "property": "C35",
   "status": "proved",
   "theorems": [
    "Punx.nonNexus_findings",
    "Punx.nonNexus_group_once",
    "Punx.nonNexus_attributes_silent"
   ],
   "note": "For files whose h5py names are the paths (WellNamedFile)."
  },
  {
   "property": "C36",
   "status": "partial",
   "theorems": [
    "Punx.decode_unchanged",
    "Punx.decode_idempotent",
    "Punx.decode_objects",
    "Punx.decode_array",
    "Punx.asciiDecode_spec",
    "Punx.decode_fails_iff",
    "Punx.decode_encoded",
    "Punx.utf8Codec_isUtf8",
    "Punx.stringListToHdf5_injective",
    "Punx.decode_encoded_array_partial",
    "Punx.decode_encoded_array_fails"
   ],
   "note": "Proved for every value, except that the inverse of string_list_to_hdf5 holds for arrays only with ASCII texts (decode_encoded_array_partial); decode_encoded_array_fails is a counterexample."
  },
  {
   "property": "C37",
   "status": "proved",
   "theorems": [
    "Punx.isNeXusFile_spec",
    "Punx.isNeXusFile_readable",
    "Punx.isNeXusGroup_spec"
   ],
   "note": "An NX_class that is an empty array or undecodable bytes, found before an NXentry group, stops the search with an exception."
  },
  {
   "property": "C38",
   "status": "proved",
   "theorems": [
    "Punx.tree_shows_all",
    "Punx.tree_headers",
    "Punx.outline_complete",
    "Punx.arrange_order",
    "Punx.treeReport_ok",
    "Punx.isNeXusLink_ok",
    "Punx.renderAsLink_ok"
   ],
   "note": "Objects with a target attribute that names another path are shown as links, without what is below."
  },
  {
   "property": "C39",
   "status": "proved",
   "theorems": [
    "Punx.hide_attributes",
    "Punx.report_hide_attributes"
   ],
   "note": ""
  },
  {
   "property": "C40",
   "status": "proved",
   "theorems": [
    "Punx.links_do_not_break",
    "Punx.links_do_not_break_ok",
    "Punx.tree_shows_all",
    "Punx.renderUnfollowed_fine"
   ],
   "note": ""
  },
  {
   "property": "C41",
   "status": "proved",
   "theorems": [
    "Punx.preview_1",
    "Punx.preview_2_3",
    "Punx.preview_4",
    "Punx.shownEntries_length",
    "Punx.shownEntries_valid",
    "Punx.array_line",
    "Punx.array_lines",
    "Punx.array_hidden"
   ],
   "note": ""
  },
  {
   "property": "C42",
   "status": "proved",
   "theorems": [
    "Punx.select_known",
    "Punx.select_latest",
    "Punx.select_fails_iff",
    "Punx.select_without_date"
   ],
   "note": "For sets that have a date and a commit; select_without_date shows what happens otherwise."
  },
  {
   "property": "C43",
   "status": "proved",
   "theorems": [
    "Punx.listed_sets",
    "Punx.listing_works_iff",
    "Punx.user_precedence"
   ],
   "note": ""
  },
  {
   "property": "C44",
   "status": "proved",
   "theorems": [
    "Punx.no_replace_untouched",
    "Punx.failed_download_untouched"
   ],
   "note": "At every point where the call may stop."
  },
  {
   "property": "C45",
   "status": "partial",
   "theorems": [
    "Punx.first_install_atomic",
    "Punx.interrupted_install_partial",
    "Punx.other_sets_untouched",
    "Punx.half_removed_set_listed"
   ],
   "note": "False in the code while an update removes the previous set (half_removed_set_listed)."
  },
  {
   "property": "C46",
   "status": "partial",
   "theorems": [
    "Punx.update_keeps_a_copy_partial",
    "Punx.update_loses_set"
   ],
   "note": "False in the code between removal and rename (update_loses_set); a complete set is always on the disk."
  },
  {
   "property": "C47",
   "status": "partial",
   "theorems": [
    "Punx.one_request",
    "Punx.not_retried",
    "Punx.retry_violated",
    "Punx.first_request_partial"
   ],
   "note": "False in the code: the loop always leaves after the first request."
  },
  {
   "property": "C48",
   "status": "proved",
   "theorems": [
    "Punx.extractable_iff",
    "Punx.extracted_exactly",
    "Punx.extracted_count",
    "Punx.too_few_refused"
   ],
   "note": ""
  },
  {
   "property": "C49",
   "status": "proved",
   "theorems": [
    "Punx.definition_contents",
    "Punx.definition_names_distinct",
    "Punx.document_readable_iff",
    "Punx.named_nodup",
    "Punx.named_functional"
   ],
   "note": ""
  },
  {
   "property": "C50",
   "status": "proved",
   "theorems": [
    "Punx.class_defined_iff",
    "Punx.class_from_winner",
    "Punx.wins_unique"
   ],
   "note": ""
  },
  {
   "property": "C51",
   "status": "partial",
   "theorems": [
    "Punx.fields_required_iff_partial",
    "Punx.applications_leak"
   ],
   "note": "False in the code (applications_leak)."
  },
  {
   "property": "C52",
   "status": "proved",
   "theorems": [
    "Punx.manager_patterns",
    "Punx.patterns_read_iff",
    "Punx.patterns_keys",
    "Punx.patterns_ground",
    "Punx.patterns_inherited",
    "Punx.inherit_general",
    "Punx.inherit_chain",
    "Punx.patterns_order_matters",
    "Punx.patterns_length_lost"
   ],
   "note": ""
  },
  {
   "property": "C53",
   "status": "proved",
   "theorems": [
    "Punx.expand_iff",
    "Punx.expand_rejects",
    "Punx.two_letters"
   ],
   "note": "Options before the sub-command are left to argparse."
  },
  {
   "property": "C54",
   "status": "proved",
   "theorems": [
    "Punx.report_option_refused",
    "Punx.report_option_selection",
    "Punx.report_option_names",
    "Punx.validate_opens_iff",
    "Punx.validate_report"
   ],
   "note": ""
  },
  {
   "property": "C55",
   "status": "proved",
   "theorems": [
    "Punx.validate_loads_iff",
    "Punx.validate_opens_iff",
    "Punx.validate_nxdl_fails",
    "Punx.demo_needs_main"
   ],
   "note": ""
  },
  {
   "property": "C56",
   "status": "proved",
   "theorems": [
    "Punx.short_sha"
   ],
   "note": ""
  },
  {
   "property": "C57",
   "status": "proved",
   "theorems": [
    "Punx.singleton_same",
    "Punx.singleton_made",
    "Punx.singleton_first"
   ],
   "note": "For histories of constructions."
  },
  {
   "property": "C58",
   "status": "proved",
   "theorems": [
    "Punx.category_iff",
    "Punx.category_error"
   ],
   "note": ""
  },
  {
   "property": "C59",
   "status": "partial",
   "theorems": [
    "Punx.rows_same_address_partial",
    "Punx.not_best_to_worst",
    "Punx.rows_object_before_attribute",
    "Punx.rows_object_before_children"
   ],
   "note": "'best to worst' is false in the code (not_best_to_worst); the exact order is proved"
  },
  {
   "property": "C60",
   "status": "proved",
   "theorems": [
    "Punx.nxclass_known",
    "Punx.isBaseClassNXDL_iff"
   ],
   "note": ""
  },
  {
   "property": "C61",
   "status": "proved",
   "theorems": [
    "Punx.other_attribute_todo",
    "Punx.no_attribute_finding"
   ],
   "note": ""
  },
  {
   "property": "C62",
   "status": "proved",
   "theorems": [
    "Punx.attribute_value"
   ],
   "note": ""
  },
  {
   "property": "C63",
   "status": "partial",
   "theorems": [
    "Punx.single_value_shown_partial",
    "Punx.scalar_not_shown"
   ],
   "note": "False in the code for scalar datasets (scalar_not_shown); proved for datasets of shape (1,)."
  },
  {
   "property": "C64",
   "status": "partial",
   "theorems": [
    "Punx.cache_label_iff",
    "Punx.cache_label_partial",
    "Punx.cache_label_wrong"
   ],
   "note": "cache_label_iff says for every set how it is called. False in the code for user sets whose name starts with 'cache' (cache_label_wrong)."
  },
  {
   "property": "C65",
   "status": "proved",
   "theorems": [
    "Punx.table_rows",
    "Punx.table_works"
   ],
   "note": ""
  },
  {
   "property": "C66",
   "status": "partial",
   "theorems": [
    "Punx.install_success_partial",
    "Punx.install_success_nested",
    "Punx.removal_fails_silently"
   ],
   "note": "False in the code when the old set cannot be removed (removal_fails_silently); then install_success_nested says where the set is."
  },
  {
   "property": "C67",
   "status": "partial",
   "theorems": [
    "Punx.first_install_repeatable",
    "Punx.update_repeatable_partial",
    "Punx.interrupted_update_stuck"
   ],
   "note": "False in the code for an update repeated without --update (interrupted_update_stuck)."
  },
  {
   "property": "C68",
   "status": "partial",
   "theorems": [
    "Punx.listing_after_stop_partial",
    "Punx.listing_broken"
   ],
   "note": "False in the code while the info file is written (listing_broken)."
  },
  {
   "property": "C69",
   "status": "proved",
   "theorems": [
    "Punx.iso_order",
    "Punx.iso_injective"
   ],
   "note": ""
  },
  {
   "property": "C70",
   "status": "proved",
   "theorems": [
    "Punx.cache_usable",
    "Punx.selection_usable"
   ],
   "note": ""
  },
  {
   "property": "C71",
   "status": "proved",
   "theorems": [
    "Punx.validate_succeeds_iff",
    "Punx.validate_reports_iff",
    "Punx.exit_zero_with_errors"
   ],
   "note": ""
  },
  {
   "property": "C72",
   "status": "proved",
   "theorems": [
    "Punx.install_many",
    "Punx.install_many_success"
   ],
   "note": "For sets that were not installed before and archives with one directory."
  },
  {
   "property": "C73",
   "status": "partial",
   "theorems": [
    "Punx.tree_prints_partial",
    "Punx.tree_missing",
    "Punx.tree_nxdl_missing"
   ],
   "note": "False in the code: tree_missing and tree_nxdl_missing say what happens instead."
  },
  {
   "property": "C74",
   "status": "partial",
   "theorems": [
    "Punx.install_report_partial",
    "Punx.default_not_updated"
   ],
   "note": "False in the code (default_not_updated)."
  },
  {
   "property": "C75",
   "status": "proved",
   "theorems": [
    "Punx.field_options_ignored",
    "Punx.optional_field_becomes_required"
   ],
   "note": ""
  },
  {
   "property": "C76",
   "status": "proved",
   "theorems": [
    "Punx.load_succeeds_iff"
   ],
   "note": "Schema validation is the parameter `valid`."
  },
  {
   "property": "C77",
   "status": "proved",
   "theorems": [
    "Punx.validation_completes_iff",
    "Punx.catalog_completes_iff",
    "Punx.names_completes_iff",
    "Punx.groups_completes_iff",
    "Punx.definitions_completes_iff",
    "Punx.plot_completes_iff",
    "Punx.dot_signal_stops"
   ],
   "note": "For files in which each object is named by its path, member names are distinct and not empty and contain no slash and no @."
  },
  {
   "property": "C78",
   "status": "partial",
   "theorems": [
    "Punx.layout_irrelevant_partial",
    "Punx.layout_matters",
    "Punx.found_is_last"
   ],
   "note": "False in the code (layout_matters)."
  },
  {
   "property": "C79",
   "status": "proved",
   "theorems": [
    "Punx.schema_read_iff",
    "Punx.declaration_order_matters"
   ],
   "note": ""
  },
  {
   "property": "C80",
   "status": "proved",
   "theorems": [
    "Punx.substitute_ends_iff",
    "Punx.substitute_iff",
    "Punx.putIn_unique",
    "Punx.definition_element_iff",
    "Punx.substitute_attributes",
    "Punx.recursive_type_stops",
    "Punx.put_in_case"
   ],
   "note": "The recursion limit of the interpreter is the fuel. PutIn (Spec/PutIn.lean) says what comes of an object."
  },
  {
   "property": "C81",
   "status": "partial",
   "theorems": [
    "Punx.type_attributes_partial",
    "Punx.element_attributes_partial",
    "Punx.extension_group_lost",
    "Punx.nested_group_lost",
    "Punx.same_name_confused"
   ],
   "note": "False in the code (the last three)."
  },
  {
   "property": "C82",
   "status": "partial",
   "theorems": [
    "Punx.own_members_partial",
    "Punx.manager_adds",
    "Punx.shared_entries",
    "Punx.groups_once",
    "Punx.second_manager_spoils",
    "Punx.leftover_attribute",
    "Punx.refused_then_accepted"
   ],
   "note": "False in the code (the last three)."
  },
  {
   "property": "C83",
   "status": "partial",
   "theorems": [
    "Punx.manager_type_attributes",
    "Punx.definition_attributes",
    "Punx.attribute_describes",
    "Punx.attribute_read_iff",
    "Punx.boolean_one_lost",
    "Punx.inside_attributes_lost"
   ],
   "note": "Proved except for the meaning of boolean defaults (boolean_one_lost) and for types written inside of an element, of which exactly the first attribute is known (inside_attributes_lost)."
  },
  {
   "property": "C84",
   "status": "partial",
   "theorems": [
    "Punx.types_read_iff",
    "Punx.types_known",
    "Punx.units_listed_partial",
    "Punx.union_units_lost",
    "Punx.shipped_units_lost"
   ],
   "note": "False in the code for units written as a union."
  },
  {
   "property": "C85",
   "status": "partial",
   "theorems": [
    "Punx.manager_type_elements_partial",
    "Punx.definition_elements_partial",
    "Punx.sequence_group_lost"
   ],
   "note": "False in the code (sequence_group_lost)."
  },
  {
   "property": "C86",
   "status": "partial",
   "theorems": [
    "Punx.manager_definitions",
    "Punx.manager_is_default",
    "Punx.own_schema_partial",
    "Punx.foreign_schema"
   ],
   "note": "False in the code for managers made for a file set object (foreign_schema)."
  },
  {
   "property": "C87",
   "status": "partial",
   "theorems": [
    "Punx.named_manager",
    "Punx.unnamed_latest_partial",
    "Punx.default_kept",
    "Punx.readSets_infos",
    "Punx.unknown_gives_latest",
    "Punx.unknown_accepted",
    "Punx.unnamed_after_named",
    "Punx.default_drifts"
   ],
   "note": "False in the code (the last four)."
  },
  {
   "property": "C88",
   "status": "partial",
   "theorems": [
    "Punx.schema_stays",
    "Punx.listing_rereads"
   ],
   "note": "Proved for objects, false for sets (listing_rereads)."
  },
  {
   "property": "C89",
   "status": "proved",
   "theorems": [
    "Punx.command_load_iff",
    "Punx.command_schema",
    "Punx.command_manager",
    "Punx.command_patterns",
    "Punx.command_validates_iff",
    "Punx.set_readable_iff"
   ],
   "note": "What lxml accepts as valid is a parameter, the same in model and claim."
  },
  {
   "property": "C90",
   "status": "proved",
   "theorems": [
    "Punx.field_dimensions",
    "Punx.readDims_ok",
    "Punx.dimensions_undeclared"
   ],
   "note": ""
  },
  {
   "property": "C91",
   "status": "proved",
   "theorems": [
    "Punx.one_file_at_a_time",
    "Punx.closed_after_close"
   ],
   "note": "Files that the HDF5 library opens to follow external links are not modelled."
  },
  {
   "property": "C92",
   "status": "proved",
   "theorems": [
    "Punx.tree_finishes_iff",
    "Punx.tree_limit",
    "Punx.treeWalk_ok",
    "Punx.treeWalk_error",
    "Punx.freeLoop_never"
   ],
   "note": "Groups only (datasets are leaves); external links are left out; objects are assumed to be named by the links through which they were opened."
  },
  {
   "property": "C93",
   "status": "proved",
   "theorems": [
    "Punx.matchDescribe_iff",
    "Punx.date_iso",
    "Punx.describe_read",
    "Punx.describe_round_trip"
   ],
   "note": "Digits and int() of Python are parameters with the properties that are used (PythonDigits)."
  },
  {
   "property": "C94",
   "status": "proved",
   "theorems": [
    "Punx.pep440_identifies",
    "Punx.pep440_release_iff",
    "Punx.one_plus",
    "Punx.long_identifies"
   ],
   "note": ""
  },
  {
   "property": "C95",
   "status": "proved",
   "theorems": [
    "Punx.keywords_version",
    "Punx.keywords_unknown",
    "Punx.keywords_order",
    "Punx.keywords_prefer_short",
    "Punx.shipped_keywords"
   ],
   "note": "Names of references with brackets are left out."
  },
  {
   "property": "C96",
   "status": "proved",
   "theorems": [
    "Punx.parentdir_version"
   ],
   "note": ""
  },
  {
   "property": "C97",
   "status": "partial",
   "theorems": [
    "Punx.versions_not_given_up",
    "Punx.versions_of_keywords",
    "Punx.versions_no_file",
    "Punx.versions_of_git",
    "Punx.versions_of_directory",
    "Punx.versions_iff",
    "Punx.versions_returned_partial",
    "Punx.versions_may_raise",
    "Punx.untagged_case",
    "Punx.uncounted_case"
   ],
   "note": "The order of the methods and the result or exception in every case are proved; an exception is raised if git knows the commit but does not give its date or number (versions_may_raise)."
  },
  {
   "property": "C98",
   "status": "proved",
   "theorems": [
    "Punx.line_value",
    "Punx.keyword_of_file",
    "Punx.keyword_missing"
   ],
   "note": ""
  },
  {
   "property": "C99",
   "status": "proved",
   "theorems": [
    "Punx.report_iff",
    "Punx.catalog_contents",
    "Punx.object_kinds"
   ],
   "note": "The expected lines are given in Spec/Expected.lean over the contents of the file, a walk over its tree in Spec/Contents.lean; catalog_contents: the catalogue of the validator is this walk. object_kinds: what the tests for groups and datasets, which the expected lines use, mean."
  }
 ]
}
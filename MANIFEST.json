{
 "claims": [
  {
   "property": "C01",
   "status": "proved",
   "theorems": [
    "Oelint.C01_parsing_is_lossless"
   ],
   "note": ""
  },
  {
   "property": "C02",
   "status": "proved",
   "theorems": [
    "Oelint.C02_lines"
   ],
   "note": "Line = InFileLine + offset for items with no include/inherit before them, outside .bbappend files."
  },
  {
   "property": "C03",
   "status": "proved",
   "theorems": [
    "Oelint.C03_one_item_per_chunk"
   ],
   "note": ""
  },
  {
   "property": "C04",
   "status": "proved",
   "theorems": [
    "Oelint.C04_no_inline_python_left"
   ],
   "note": "Termination: the model function is total and its iteration limit never matters (inlineLoop_spec)."
  },
  {
   "property": "C05",
   "status": "proved",
   "theorems": [
    "Oelint.C05_inline_scope"
   ],
   "note": ""
  },
  {
   "property": "C06",
   "status": "proved",
   "theorems": [
    "Oelint.C06_raw_from_realraw"
   ],
   "note": ""
  },
  {
   "property": "C07",
   "status": "partial",
   "theorems": [
    "Oelint.C07_every_file_can_be_added_partial",
    "Oelint.C07_preprocessing_partial",
    "Oelint.C07_counterexample_continuation",
    "Oelint.C07_counterexample_function",
    "Oelint.C07_false",
    "Oelint.C07_add_file_succeeds_partial",
    "Oelint.C07_session_succeeds_partial",
    "Oelint.C07_counterexample_name"
   ],
   "note": "False of the code: StopIteration for a file ending in a continued line or a function header, regex.error for a .bbappend whose name is no pattern. Proved: under the hypotheses of C47 AddFile returns for every complete text, and leaves a usable stash."
  },
  {
   "property": "C08",
   "status": "proved",
   "theorems": [
    "Oelint.C08_chunk_boundaries"
   ],
   "note": ""
  },
  {
   "property": "C09",
   "status": "proved",
   "theorems": [
    "Oelint.C09_new_syntax_is_sticky"
   ],
   "note": ""
  },
  {
   "property": "C14",
   "status": "proved",
   "theorems": [
    "Oelint.C14_inline_branch",
    "Oelint.C14_inline_branch_in_raw"
   ],
   "note": "Arguments without commas, parentheses, newlines; branch values in quotes."
  },
  {
   "property": "C15",
   "status": "proved",
   "theorems": [
    "Oelint.C15_unknown_inline_code"
   ],
   "note": ""
  },
  {
   "property": "C16",
   "status": "partial",
   "theorems": [
    "Oelint.C16_blocks_restored_partial",
    "Oelint.C16_unknown_code_restored_partial",
    "Oelint.C16_false",
    "Oelint.C16_counterexample_empty"
   ],
   "note": "False of the code for repeated blocks and for blocks whose replacement is empty or occurs earlier; proved for different blocks with unambiguous replacements."
  },
  {
   "property": "C17",
   "status": "proved",
   "theorems": [
    "Oelint.C17_overrides_split_off"
   ],
   "note": ""
  },
  {
   "property": "C18",
   "status": "proved",
   "theorems": [
    "Oelint.C18_no_piece_is_lost"
   ],
   "note": ""
  },
  {
   "property": "C19",
   "status": "partial",
   "theorems": [
    "Oelint.C19_function_names_recompose_partial",
    "Oelint.C19_counterexample"
   ],
   "note": "False when the operation word also occurs as an earlier piece of the name (list.index)."
  },
  {
   "property": "C20",
   "status": "proved",
   "theorems": [
    "Oelint.C20_modifiers_agree"
   ],
   "note": ""
  },
  {
   "property": "C21",
   "status": "proved",
   "theorems": [
    "Oelint.C21_var_value_stripped"
   ],
   "note": ""
  },
  {
   "property": "C24",
   "status": "proved",
   "theorems": [
    "Oelint.C24_entries",
    "Oelint.C24_empty_means_none"
   ],
   "note": ""
  },
  {
   "property": "C25",
   "status": "proved",
   "theorems": [
    "Oelint.C25_words"
   ],
   "note": ""
  },
  {
   "property": "C27",
   "status": "proved",
   "theorems": [
    "Oelint.C27_add_constants"
   ],
   "note": ""
  },
  {
   "property": "C28",
   "status": "proved",
   "theorems": [
    "Oelint.C28_remove_constants"
   ],
   "note": ""
  },
  {
   "property": "C29",
   "status": "proved",
   "theorems": [
    "Oelint.C29_override_constants"
   ],
   "note": "What was below a replaced dictionary disappears."
  },
  {
   "property": "C30",
   "status": "proved",
   "theorems": [
    "Oelint.C30_get_by_path"
   ],
   "note": "A path running through a non-dictionary raises AttributeError."
  },
  {
   "property": "C31",
   "status": "partial",
   "theorems": [
    "Oelint.C31_this_call_partial",
    "Oelint.C31_known_paths_partial",
    "Oelint.C31_out_of_reach_partial",
    "Oelint.C31_add_add",
    "Oelint.C31_override_add",
    "Oelint.C31_false"
   ],
   "note": "False in general (C31_false): the data base keeps list and dictionary objects of the caller and a later AddConstants extends them in place. Proved: one call on an unshared data base changes no object of the caller and refines the value-level merge; sequences of removals and of additions to known paths never change caller objects; objects out of reach never change."
  },
  {
   "property": "C32",
   "status": "proved",
   "theorems": [
    "Oelint.C32_filters_are_exact",
    "Oelint.C32_no_filter"
   ],
   "note": ""
  },
  {
   "property": "C33",
   "status": "proved",
   "theorems": [
    "Oelint.C33_sorted_and_unique",
    "Oelint.C33_composition",
    "Oelint.C33_combined_filter"
   ],
   "note": "Equality of result lists up to the order of items with equal Line (set iteration order)."
  },
  {
   "property": "C36",
   "status": "proved",
   "theorems": [
    "Oelint.C36_append",
    "Oelint.C36_remove",
    "Oelint.C36_remove_undoes_append"
   ],
   "note": ""
  },
  {
   "property": "C37",
   "status": "partial",
   "theorems": [
    "Oelint.C37_stashlist_partial",
    "Oelint.C37_extend_does_nothing",
    "Oelint.C37_false",
    "Oelint.C37_iadd_loses_the_type"
   ],
   "note": "False of the code: extend does nothing, += returns a plain list."
  },
  {
   "property": "C12",
   "status": "partial",
   "theorems": [
    "Oelint.C12_include_reports",
    "Oelint.C12_inherit_reports",
    "Oelint.C12_reported_files_are_loaded",
    "Oelint.C12_counterexample"
   ],
   "note": "False of the code for ignored classes: the whole list of names is compared with ClassIgnore."
  },
  {
   "property": "C38",
   "status": "proved",
   "theorems": [
    "Oelint.C38_class_loaded_once"
   ],
   "note": ""
  },
  {
   "property": "C39",
   "status": "partial",
   "theorems": [
    "Oelint.C39_includes_linked_partial",
    "Oelint.C39_class_linked_once_partial",
    "Oelint.C39_counterexample"
   ],
   "note": "False of the code: only the first file that inherits a class is linked to it."
  },
  {
   "property": "C40",
   "status": "partial",
   "theorems": [
    "Oelint.C40_seen_again",
    "Oelint.C40_retry_partial",
    "Oelint.C40_counterexample"
   ],
   "note": "False of the code: a .bbappend or .bbclass whose loading failed is never parsed again."
  },
  {
   "property": "C41",
   "status": "partial",
   "theorems": [
    "Oelint.C41_matching_linked_partial",
    "Oelint.C41_linked_matching_partial",
    "Oelint.C41_order_independent_partial",
    "Oelint.C41_percent_whole",
    "Oelint.C41_same_stem",
    "Oelint.C41_order_counterexample",
    "Oelint.C41_stem_counterexample"
   ],
   "note": "False of the code: when the .bbappend is added first a matching beginning of the name is enough; names are used as regular expressions."
  },
  {
   "property": "C42",
   "status": "proved",
   "theorems": [
    "Oelint.C42_append_after_recipe",
    "Oelint.C42_recipe_added_later"
   ],
   "note": "For names without characters special to regular expressions (other than .)."
  },
  {
   "property": "C43",
   "status": "partial",
   "theorems": [
    "Oelint.C43_first_include_partial",
    "Oelint.C43_first_inherit_partial",
    "Oelint.C43_two_includes_counterexample",
    "Oelint.C43_nested_include_counterexample",
    "Oelint.C43_two_classes_counterexample"
   ],
   "note": "False of the code with two includes, nested includes or two classes in one inherit: the offset of a loaded file ignores the files loaded before it. Proved for the first include or inherit of a file, if what it loads loads nothing itself."
  },
  {
   "property": "C44",
   "status": "partial",
   "theorems": [
    "Oelint.C44_finalize_partial",
    "Oelint.C44_one_pass",
    "Oelint.C44_counterexample"
   ],
   "note": "False of the code: one pass over the files is not a transitive closure. What the pass computes is proved exactly."
  },
  {
   "property": "C45",
   "status": "proved",
   "theorems": [
    "Oelint.C45_included_from",
    "Oelint.C45_add_file_keeps"
   ],
   "note": "With empty caches; stale caches: C35."
  },
  {
   "property": "C46",
   "status": "proved",
   "theorems": [
    "Oelint.C46_file_lists",
    "Oelint.C46_recipes_added",
    "Oelint.C46_item_flags"
   ],
   "note": ""
  },
  {
   "property": "C48",
   "status": "proved",
   "theorems": [
    "Oelint.C48_hashed",
    "Oelint.C48_fingerprint",
    "Oelint.C48_add_file",
    "Oelint.C48_other_calls"
   ],
   "note": ""
  },
  {
   "property": "C49",
   "status": "proved",
   "theorems": [
    "Oelint.C49_expansion_terminates",
    "Oelint.C49_depth"
   ],
   "note": "For every stash, value, spare and seen; the bound on the depth is explicit. CPython's own recursion limit is not modelled."
  },
  {
   "property": "C50",
   "status": "proved",
   "theorems": [
    "Oelint.C50_no_reference",
    "Oelint.C50_unknown_or_spared",
    "Oelint.C50_among_others"
   ],
   "note": "References are ${NAME} and d.getVar(...)."
  },
  {
   "property": "C51",
   "status": "proved",
   "theorems": [
    "Oelint.C51_expansion_substitutes",
    "Oelint.C51_acyclic_definitions",
    "Oelint.C51_first_assignment"
   ],
   "note": "For texts in which every ${ starts a reference and no getVar/read_file is called; cyclic definitions are covered by C49 only."
  },
  {
   "property": "C56",
   "status": "proved",
   "theorems": [
    "Oelint.C56_name_and_version",
    "Oelint.C56_no_version",
    "Oelint.C56_more_parts"
   ],
   "note": ""
  },
  {
   "property": "C57",
   "status": "proved",
   "theorems": [
    "Oelint.C57_base_name",
    "Oelint.C57_one_base_name",
    "Oelint.C57_all_parts"
   ],
   "note": "For names without newline."
  },
  {
   "property": "C47",
   "status": "partial",
   "theorems": [
    "Oelint.C47_add_file_terminates_partial",
    "Oelint.C47_self_include_counterexample"
   ],
   "note": "False of the code: a .inc, .bb or .conf file that includes itself is read until the recursion limit. Proved whenever the files that are read again cannot reach themselves; cycles through classes are allowed."
  },
  {
   "property": "C58",
   "status": "partial",
   "theorems": [
    "Oelint.C58_source_components",
    "Oelint.C58_raises",
    "Oelint.C58_mirrors_functional",
    "Oelint.C58_options_read_back_partial",
    "Oelint.C58_false"
   ],
   "note": "False of the code for option values that contain '='. urlparse is a parameter of the model."
  },
  {
   "property": "C59",
   "status": "partial",
   "theorems": [
    "Oelint.C59_find_local_or_layer_partial",
    "Oelint.C59_layer_root_partial",
    "Oelint.C59_nearest",
    "Oelint.C59_two_slashes_counterexample",
    "Oelint.C59_own_directory_counterexample"
   ],
   "note": "False of the code: paths starting with // loop forever; the start directory itself is never taken as layer root."
  },
  {
   "property": "C22",
   "status": "partial",
   "theorems": [
    "Oelint.C22_maximal_runs",
    "Oelint.C22_tokens_partial",
    "Oelint.C22_join_split",
    "Oelint.C22_words",
    "Oelint.C22_mark_counterexample"
   ],
   "note": "False of the code: a line-continuation mark that an x follows stays in the token. All else is proved."
  },
  {
   "property": "C23",
   "status": "proved",
   "theorems": [
    "Oelint.C23_constraints_dropped",
    "Oelint.C23_names_only"
   ],
   "note": ""
  },
  {
   "property": "C60",
   "status": "proved",
   "theorems": [
    "Oelint.C60_package_names"
   ],
   "note": ""
  },
  {
   "property": "C61",
   "status": "partial",
   "theorems": [
    "Oelint.C61_patterns",
    "Oelint.C61_raises",
    "Oelint.C61_answers",
    "Oelint.C61_dynamic_packages_partial",
    "Oelint.C61_false"
   ],
   "note": "False of the code when the value has adjacent, leading or trailing separators."
  },
  {
   "property": "C62",
   "status": "proved",
   "theorems": [
    "Oelint.C62_images_and_package_groups",
    "Oelint.C62_any_collection"
   ],
   "note": "For known-variable collections (lists, or dictionaries by their keys) without the empty name."
  },
  {
   "property": "C63",
   "status": "partial",
   "theorems": [
    "Oelint.C63_timeouts_contained_partial",
    "Oelint.C63_finditer_raises"
   ],
   "note": "False of the code: finditer is lazy, its TimeoutError escapes."
  },
  {
   "property": "C64",
   "status": "partial",
   "theorems": [
    "Oelint.C64_attribute_constants_partial",
    "Oelint.C64_counterexample",
    "Oelint.C64_missing_file"
   ],
   "note": "False of the code: two constants name no attribute."
  },
  {
   "property": "C65",
   "status": "partial",
   "theorems": [
    "Oelint.C65_getVar_partial",
    "Oelint.C65_false"
   ],
   "note": "False of the code for d.getVar with a second argument."
  },
  {
   "property": "C66",
   "status": "proved",
   "theorems": [
    "Oelint.C66_named_resources",
    "Oelint.C66_raises"
   ],
   "note": ""
  },
  {
   "property": "C34",
   "status": "partial",
   "theorems": [
    "Oelint.C34_caching_invisible_partial",
    "Oelint.C34_false",
    "Oelint.C34_failed_remove_false",
    "Oelint.C34_failed_addFile_false",
    "Oelint.C34_failed_finalize_false"
   ],
   "note": "False of the code for GetBBClasses, GetPackagesDynamic and IsDynamicPackage, whose caches are never emptied. Also false after a call that raised half-way: a Remove (ValueError), an AddFile because of a malformed pattern in the name of an append, a Finalize because of a file known from Append only; what was changed by then is not seen (C34_failed_remove_false, C34_failed_addFile_false, C34_failed_finalize_false). Proved for all other questions after any history of successful calls, calls of AddFile that failed while reading files, and questions."
  },
  {
   "property": "C35",
   "status": "partial",
   "theorems": [
    "Oelint.C35_question_changes_nothing",
    "Oelint.C35_questions_change_nothing_partial",
    "Oelint.C35_false"
   ],
   "note": "False of the code: Finalize works with what an earlier GetItemsFor left in the caches. Proved when a call that empties the caches lies between a question and a later Finalize."
  },
  {
   "property": "C10",
   "status": "proved",
   "theorems": [
    "Oelint.C10_capital_names",
    "Oelint.C10_assignment",
    "Oelint.C10_one_item_per_assignment"
   ],
   "note": "C10_assignment covers every name the grammar allows, with its overrides."
  },
  {
   "property": "C11",
   "status": "proved",
   "theorems": [
    "Oelint.C11_comments_always_win"
   ],
   "note": ""
  },
  {
   "property": "C13",
   "status": "partial",
   "theorems": [
    "Oelint.C13_unset_partial",
    "Oelint.C13_unset_flag_partial",
    "Oelint.C13_observed_partial",
    "Oelint.C13_counterexample",
    "Oelint.C13_false"
   ],
   "note": "False of the code: VarName is the first character of the name; right for names of one character."
  },
  {
   "property": "C26",
   "status": "proved",
   "theorems": [
    "Oelint.C26_addtask",
    "Oelint.C26_deltask"
   ],
   "note": ""
  },
  {
   "property": "C67",
   "status": "partial",
   "theorems": [
    "Oelint.C67_flag_assignment_partial",
    "Oelint.C67_counterexample"
   ],
   "note": "False of the code for flags with other characters than [A-Za-z0-9_./@-]."
  },
  {
   "property": "C68",
   "status": "partial",
   "theorems": [
    "Oelint.C68_export_partial",
    "Oelint.C68_counterexample",
    "Oelint.C68_counterexample_operator"
   ],
   "note": "False of the code for values in single quotes and for operators other than =."
  },
  {
   "property": "C69",
   "status": "partial",
   "theorems": [
    "Oelint.C69_python_function_partial",
    "Oelint.C69_counterexample"
   ],
   "note": "False of the code for names with capital letters."
  },
  {
   "property": "C70",
   "status": "partial",
   "theorems": [
    "Oelint.C70_function_partial",
    "Oelint.C70_counterexample"
   ],
   "note": "False of the code for names that start with python or fakeroot."
  },
  {
   "property": "C71",
   "status": "partial",
   "theorems": [
    "Oelint.C71_body_partial",
    "Oelint.C71_counterexample"
   ],
   "note": "False of the code for names with { and bodies that end with }."
  },
  {
   "property": "C72",
   "status": "partial",
   "theorems": [
    "Oelint.C72_include_partial",
    "Oelint.C72_observed_partial",
    "Oelint.C72_counterexample"
   ],
   "note": "False of the code for names with characters like +, which are cut off."
  },
  {
   "property": "C73",
   "status": "proved",
   "theorems": [
    "Oelint.C73_inherit"
   ],
   "note": ""
  },
  {
   "property": "C74",
   "status": "proved",
   "theorems": [
    "Oelint.C74_names_as_written"
   ],
   "note": ""
  },
  {
   "property": "C75",
   "status": "partial",
   "theorems": [
    "Oelint.C75_addpylib_partial",
    "Oelint.C75_counterexample"
   ],
   "note": "False of the code for more than one blank in front of the namespace."
  },
  {
   "property": "C76",
   "status": "proved",
   "theorems": [
    "Oelint.C76_statement",
    "Oelint.C76_recipe",
    "Oelint.C76_one_line_statements"
   ],
   "note": "What may be written in each statement is part of the specification (Stmt.Ok); the forms the code gets wrong are C67 to C72 and C75."
  },
  {
   "property": "C77",
   "status": "proved",
   "theorems": [
    "Oelint.C77_read",
    "Oelint.C77_add",
    "Oelint.C77_remove",
    "Oelint.C77_override"
   ],
   "note": "For data bases whose sections are dictionaries and whose constants are lists; what happens otherwise is C27 to C31."
  },
  {
   "property": "C78",
   "status": "proved",
   "theorems": [
    "Oelint.C78_layer",
    "Oelint.C78_no_layer",
    "Oelint.C78_add_file",
    "Oelint.C78_add_file_keeps",
    "Oelint.C78_recognised"
   ],
   "note": ""
  },
  {
   "property": "C79",
   "status": "proved",
   "theorems": [
    "Oelint.C79_query_returns_every_item",
    "Oelint.C79_add_file_adds",
    "Oelint.C79_failing_add_file_keeps",
    "Oelint.C79_remove_takes_out"
   ],
   "note": "Append is not among the calls, since the caller may append an item twice (C36)."
  },
  {
   "property": "C80",
   "status": "partial",
   "theorems": [
    "Oelint.C80_only_several_lines_partial",
    "Oelint.C80_several_lines_partial",
    "Oelint.C80_counterexample_blank",
    "Oelint.C80_counterexample_escape",
    "Oelint.C80_counterexample_inline"
   ],
   "note": "False of the code: blanks between the backslash and the newline, and continuations inside of inline python, are not seen; the text backslash x1b in a single line is taken for a continuation. Proved for all other texts that are not taken for the start of a function."
  },
  {
   "property": "C81",
   "status": "partial",
   "theorems": [
    "Oelint.C81_links",
    "Oelint.C81_count",
    "Oelint.C81_counterexample"
   ],
   "note": "False of the code: a file is listed once for each of its items, which is proved, as is which files are listed."
  },
  {
   "property": "C82",
   "status": "proved",
   "theorems": [
    "Oelint.C82_files"
   ],
   "note": ""
  },
  {
   "property": "C83",
   "status": "partial",
   "theorems": [
    "Oelint.C83_no_placeholder",
    "Oelint.C83_own_value_partial",
    "Oelint.C83_counterexample"
   ],
   "note": "False of the code: a value with placeholders is dropped, the value of objref is expanded instead. Proved for the value of objref itself."
  },
  {
   "property": "C84",
   "status": "proved",
   "theorems": [
    "Oelint.C84_load",
    "Oelint.C84_newlines",
    "Oelint.C84_fallback",
    "Oelint.C84_constructor"
   ],
   "note": "Numbers, true, false, null, lists of other values and the escape \\\\u are outside of the modelled fragment; a file that cannot be decoded is not covered."
  },
  {
   "property": "C85",
   "status": "partial",
   "theorems": [
    "Oelint.C85_loaded",
    "Oelint.C85_usable",
    "Oelint.C85_documented_types_partial",
    "Oelint.C85_kept_partial",
    "Oelint.C85_counterexample"
   ],
   "note": "False of the code for VariablesKnown: the shipped data base has no such entry, and the property returns an empty dictionary instead of a list. Proved for the other ten properties."
  },
  {
   "property": "C86",
   "status": "proved",
   "theorems": [
    "Oelint.C86_base_set_expands",
    "Oelint.C86_standard_names",
    "Oelint.C86_images"
   ],
   "note": "The names in question contain no dollar sign."
  },
  {
   "property": "C87",
   "status": "partial",
   "theorems": [
    "Oelint.C87_not_read_partial",
    "Oelint.C87_forgotten_partial",
    "Oelint.C87_counterexample"
   ],
   "note": "False of the code: the results are remembered and the remembered object itself is returned, so a caller who empties the list of recipes makes GetRecipes return none. Proved: nothing else notices the change, the stash and all questions that do not read the object stay as they are, and the next update undoes it, except for GetBBClasses, GetScrComponents and GetPackagesDynamic, whose results are never forgotten."
  },
  {
   "property": "C88",
   "status": "proved",
   "theorems": [
    "Oelint.C88_line_ends"
   ],
   "note": "Also the stashes are equal afterwards."
  },
  {
   "property": "C89",
   "status": "proved",
   "theorems": [
    "Oelint.C89_no_inline",
    "Oelint.C89_statements"
   ],
   "note": "No inline python: the text after translation of newlines has no place where the loop of prepare_lines sees the opening sequence."
  },
  {
   "property": "C90",
   "status": "proved",
   "theorems": [
    "Oelint.C90_known_names",
    "Oelint.C90_other_stash"
   ],
   "note": "The data base must have dictionaries and lists where the documented ones have (UsableConstants, true of the shipped one by C85). The counter that names objects is the same in both runs."
  },
  {
   "property": "C91",
   "status": "partial",
   "theorems": [
    "Oelint.C91_sorted",
    "Oelint.C91_questions_partial",
    "Oelint.C91_dynamic_partial",
    "Oelint.C91_same_members",
    "Oelint.C91_add_file_partial",
    "Oelint.C91_fingerprint_partial",
    "Oelint.C91_references_partial",
    "Oelint.C91_references_fingerprint_partial",
    "Oelint.C91_finalize",
    "Oelint.C91_counterexample",
    "Oelint.C91_fingerprint_counterexample",
    "Oelint.C91_references_counterexample"
   ],
   "note": "False of the code: two appends of one recipe get the same Lines, so ExpandTerm and ExpandVar depend on the order of a set; GetConfFiles and GetLinksForFile return lists in the order of a set; IsDynamicPackage with an invalid pattern raises in one run only; FingerPrint shows the set FilePaths, so it differs between runs if an inherit loads two classes. Proved: sorted lists and yes/no answers; all others if no two items have the same Line; the same members in any case; any calls of AddFile apart from the fingerprint if the names they load are written without references or refer only to variables that nothing assigns (C91_references_counterexample: two assignments with the same Line decide which include is loaded), and with the fingerprint if no inherit loads two classes; Finalize up to the order of links."
  },
  {
   "property": "C92",
   "status": "partial",
   "theorems": [
    "Oelint.C92_items_partial",
    "Oelint.C92_plain_partial",
    "Oelint.C92_counterexample",
    "Oelint.C92_reference_counterexample"
   ],
   "note": "False of the code for Line: the lines of an inherited class count only if the class had not been loaded before; and for names of includes that refer to variables of a class that is loaded once only. Proved for all attributes except Line if both calls succeed and the names of included files and inherited classes refer only to variables that are not assigned in either stash (none, or e.g. PN, BPN, PV, variables of the base set)."
  },
  {
   "property": "C93",
   "status": "partial",
   "theorems": [
    "Oelint.C93_attributes",
    "Oelint.C93_one_object",
    "Oelint.C93_seen_partial",
    "Oelint.C93_after_update",
    "Oelint.C93_counterexample",
    "Oelint.C93_surprises"
   ],
   "note": "False of the code for questions that compare an assigned attribute, and for GetValidPackageNames and GetValidNamedResources after an assignment to VarValue or Line: the setters empty no cache, so an answer given before is given again until the next update. Proved for all other questions, and for all questions after an update. Assumed: the iteration order of a set of items depends on the identity of the items only."
  },
  {
   "property": "C94",
   "status": "partial",
   "theorems": [
    "Oelint.C94_paths",
    "Oelint.C94_extension",
    "Oelint.C94_same_file",
    "Oelint.C94_elsewhere_partial",
    "Oelint.C94_nothing_relative_partial",
    "Oelint.C94_files",
    "Oelint.C94_counterexample"
   ],
   "note": "False of the code for values that call oe.utils.read_file with a relative path: what is read depends on the working directory of the process. Proved for everything else: with equal relative files including all errors, and without any assumption on relative files as long as none is opened. The places of files that the stash remembers must be those on the disk (see C101)."
  },
  {
   "property": "C95",
   "status": "proved",
   "theorems": [
    "Oelint.C95_not_needed"
   ],
   "note": "A file that cannot be opened is one for which open raises an OSError that is not FileNotFoundError, PermissionError or NotADirectoryError, so that no caller catches it. The places of files that the stash remembers must be those on the disk (see C101)."
  },
  {
   "property": "C96",
   "status": "proved",
   "theorems": [
    "Oelint.C96_item",
    "Oelint.C96_fingerprint"
   ],
   "note": "Assumes that SHA-1 gives no collision for the two texts that are compared. Values of sets are compared as sets."
  },
  {
   "property": "C97",
   "status": "proved",
   "theorems": [
    "Oelint.C97_lines",
    "Oelint.C97_loads_nothing"
   ],
   "note": "This is the formula behind C04, C42 and C43: offsets of earlier includes are not handed on to later included files, hence the disagreement of C43."
  },
  {
   "property": "C98",
   "status": "proved",
   "theorems": [
    "Oelint.C98_values",
    "Oelint.C98_without_file",
    "Oelint.C98_one_text"
   ],
   "note": "Exact counterpart of C52 to C55, which say where this differs from bitbake. Assumes that the base set is a dictionary of strings. The order of statements with the same Line is left open (see C91)."
  },
  {
   "property": "C99",
   "status": "proved",
   "theorems": [
    "Oelint.C99_quiet",
    "Oelint.C99_add_file",
    "Oelint.C99_other_calls",
    "Oelint.C99_once",
    "Oelint.C99_origins",
    "Oelint.C99_same"
   ],
   "note": ""
  },
  {
   "property": "C100",
   "status": "partial",
   "theorems": [
    "Oelint.C100_independent_partial",
    "Oelint.C100_next_reply_partial",
    "Oelint.C100_shared_constants",
    "Oelint.C100_false"
   ],
   "note": "False of the code: functools.cache keeps one table per method for all stashes, and making another stash (or loading a file with it) empties the caches of all of them; as Finalize reads stale caches (C35), whether the items of a stash report all files that include them in IncludedFrom can depend on whether another stash was made between a question and Finalize (C100_false). Proved for every interleaving, as long as the calls on that stash do not raise (the first one that does raises the same) and between a question and a later Finalize of that stash some call on it empties the caches. Items are values in the model, so no item belongs to two stashes."
  },
  {
   "property": "C101",
   "status": "partial",
   "theorems": [
    "Oelint.C101_loaded",
    "Oelint.C101_current_partial",
    "Oelint.C101_addFile_partial",
    "Oelint.C101_reloaded_partial",
    "Oelint.C101_edited",
    "Oelint.C101_false"
   ],
   "note": "False of the code: the caches of GetLayerRoot and FindLocalOrLayer are never emptied, so an include, class or configuration that was looked for in vain once is never found by the same stash, even if the recipe is added again after the file was created; and GetFiles and GetValidPackageNames go on giving what they found until a call empties their caches (C101_false). Proved: everything if no remembered place of a file has become wrong, in particular if only what is in the files changes (C101_edited); GetFiles and GetValidPackageNames after the next call that empties the caches; without the three questions of C34."
  },
  {
   "property": "C102",
   "status": "proved",
   "theorems": [
    "Oelint.C102_edit",
    "Oelint.C102_fix"
   ],
   "note": "Line and the identity of the objects are left out (C97, C03). Of the new text C102_fix asks that it consists of single lines, continued lines or closed functions that start with a letter or digit; C102_edit covers any two versions of a file whose statements agree outside the edited place. The names of what the file loads may refer to variables that are not assigned in either stash."
  },
  {
   "property": "C103",
   "status": "proved",
   "theorems": [
    "Oelint.C103_match",
    "Oelint.C103_search",
    "Oelint.C103_kind",
    "Oelint.C103_same_text",
    "Oelint.C103_shipped"
   ],
   "note": "The patterns are the texts of the source; what they describe is stated without a matching strategy (Spec/Regex.lean) and the backtracking matcher of the model is proved to find a beginning if and only if there is one (sound and complete), so the property does not depend on the matcher. Possessive repetitions are excluded; no pattern of the parser uses them."
  },
  {
   "property": "C104",
   "status": "partial",
   "theorems": [
    "Oelint.C104_order_partial",
    "Oelint.C104_plain_partial",
    "Oelint.C104_counterexample"
   ],
   "note": "False of the code for names written with references: a class is loaded for the first recipe only and the second recipe does not know its variables while it is read, so `include ${X}.inc` finds its file or not depending on the order (C104_counterexample). Proved if the names of includes and classes refer only to variables that nothing in the resulting stash assigns (none, or e.g. PN, BPN, PV, variables of the base set); Line is left out (C92_counterexample)."
  },
  {
   "property": "C105",
   "status": "partial",
   "theorems": [
    "Oelint.C105_undisturbed_partial",
    "Oelint.C105_files_partial",
    "Oelint.C105_shared_include_counterexample",
    "Oelint.C105_shared_append_counterexample"
   ],
   "note": "False of the code for two reasons. An include is read again for every recipe that requires it and its items are entered once more, so after adding a second recipe `A += \"x\"` of the shared include counts twice for the first one (C105_shared_include_counterexample). An append of two versions of a recipe is moved behind the longer one, so adding another version changes which of two appends of the first version comes last, and with it the values (C105_shared_append_counterexample). Proved otherwise: if no file that is read is the recipe or linked to it, the links of the recipe are the same, and no append of it is linked to a file that is read, all answers stay the same, exceptions included."
  },
  {
   "property": "C106",
   "status": "partial",
   "theorems": [
    "Oelint.C106_nothing_left_partial",
    "Oelint.C106_settled_partial",
    "Oelint.C106_stray_dollar_counterexample",
    "Oelint.C106_left_counterexample"
   ],
   "note": "False of the code when a definition ends in a stray `$`: with `A = \"$\"` and `B = \"1\"` the text `${A}{B}` expands to `${B}` and that to `1` (C106_stray_dollar_counterexample). Proved otherwise: if each `${` in the text and in the definitions starts a reference, each `$` is followed by something other than `$`, and there are no calls of getVar and read_file, the result refers to unknown and spared names only, and expanding it again returns it; cyclic definitions included."
  },
  {
   "property": "C107",
   "status": "partial",
   "theorems": [
    "Oelint.C107_order_only",
    "Oelint.C107_edit_partial",
    "Oelint.C107_comments_partial",
    "Oelint.C107_includes_negation"
   ],
   "note": "False of the code with two includes: their items interleave, as the Line of the second does not account for the lines of the first (C43), and four comment lines between the two `require` statements change which assignment of V comes first, so `${V}` changes from b to a (C107_includes_negation). Proved for any two stashes: the same Variable, Unset and Inherit items in the same order of Line, with the same links and settings, give the same answers (C107_order_only). Proved for a file that loads no other file, read into a fresh stash: an edit of statements that assign, unset and inherit nothing changes no answer, if it does not change whether the new override syntax is in use (C107_edit_partial); for comments that proviso holds (C107_comments_partial). Missing: files that load exactly one other file, stashes that hold other files."
  },
  {
   "property": "C108",
   "status": "partial",
   "theorems": [
    "Oelint.C108_negation",
    "Oelint.C108_remove_takes_more",
    "Oelint.C108_last_call_partial",
    "Oelint.C108_add_order_partial"
   ],
   "note": "False of the code if a dictionary is passed twice: AddConstants(d1), AddConstants(d2), RemoveConstants(d1) with d1 = {\"a\": [\"x\"]} and d2 = {\"a\": [\"y\"]} leaves the list empty, though nothing the caller wrote removes \"y\": the data base kept the list object of d1 and extended it in place (C108_negation, C108_remove_takes_more). Proved for any sequence of calls, on the heap of objects, if each dictionary passed is made of objects of its own and the shapes (dictionary or list at a path) of the data base and all dictionaries agree: no call raises and the last call decides (C108_last_call_partial); the order of AddConstants calls does not matter for the elements (C108_add_order_partial)."
  },
  {
   "property": "C109",
   "status": "partial",
   "theorems": [
    "Oelint.C109_piecewise_partial",
    "Oelint.C109_negation"
   ],
   "note": "False of the code for definitions that depend on themselves: with `A = \"${B}x\"` and `B = \"${A}y\"`, `${A}` expands to `yx`, `${B}` to `xy`, but `${A}${B}` to `yxy`, as what B stands for is remembered as it was found inside A (C109_negation). Proved otherwise, without calls of getVar and read_file in the text."
  },
  {
   "property": "C110",
   "status": "proved",
   "theorems": [
    "Oelint.C110_only_referred",
    "Oelint.C110_whatever_else",
    "Oelint.C110_edit"
   ],
   "note": "Exceptions included. Calls of getVar count as references, and the texts may call read_file. C110_edit is for files that load no other file: with two includes Lines of different files may collide, see C107."
  },
  {
   "property": "C111",
   "status": "proved",
   "theorems": [
    "Oelint.C111_own_statements",
    "Oelint.C111_edit"
   ],
   "note": "If a name contains a reference it is expanded like a value, and its items are added to those of the variable it becomes; such stashes are excluded. C111_edit is for files that load no other file: with two includes Lines of different files may collide, see C107."
  },
  {
   "property": "C112",
   "status": "partial",
   "theorems": [
    "Oelint.C112_assignment_partial",
    "Oelint.C112_as_on_one_line_partial",
    "Oelint.C112_inherit_partial",
    "Oelint.C112_negation",
    "Oelint.C112_negation_word"
   ],
   "note": "False of the code: a continuation line that starts with the letter x (for example x86) keeps the control character in its first item, and a word that is broken becomes two items. Proved for lines that are broken at blanks and do not start with x."
  },
  {
   "property": "C113",
   "status": "proved",
   "theorems": [
    "Oelint.C113_same_variable",
    "Oelint.C113_expandTerm",
    "Oelint.C113_expandVar",
    "Oelint.C113_file"
   ],
   "note": "Old spelling only with OverrideDelimiter _: once a stash has seen the new syntax, A_append is a variable of that name."
  },
  {
   "property": "C114",
   "status": "partial",
   "theorems": [
    "Oelint.C114_same_text_partial",
    "Oelint.C114_one_assignment_partial",
    "Oelint.C114_base_set_partial",
    "Oelint.C114_negation"
   ],
   "note": "False of the code: a reference is replaced by the first assignment of the variable, whatever follows; ExpandVar takes all statements in order, with append, prepend and remove (A = 1, then A = 2: ${A} is 1, ExpandVar gives 2). Proved for a variable with one assignment, for one from the base set, and in general where the statements give the text of the first assignment; no definition depends on itself."
  },
  {
   "property": "C115",
   "status": "proved",
   "theorems": [
    "Oelint.C115_operators",
    "Oelint.C115_modifiers"
   ],
   "note": "For statements of the recipe and one .bbappend; two .bbappend files of one recipe share their lines (C91). References in other texts do not follow the .bbappend (C114)."
  },
  {
   "property": "C116",
   "status": "proved",
   "theorems": [
    "Oelint.C116_recipe",
    "Oelint.C116_one_line_entries"
   ],
   "note": "For names in capital letters with overrides in the new syntax, no both append and prepend on one name, no inline python, no file loaded. A variable with only append, prepend and remove is excluded as far as remove goes (C53)."
  },
  {
   "property": "C117",
   "status": "proved",
   "theorems": [
    "Oelint.C117_references",
    "Oelint.C117_unique",
    "Oelint.C117_values"
   ],
   "note": "Restrictions of C116; texts call neither getVar nor read_file. That the first declaration counts, with whatever overrides it has, is how the code works and not what bitbake does (C114)."
  },
  {
   "property": "C118",
   "status": "proved",
   "theorems": [
    "Oelint.C118_values",
    "Oelint.C118_references",
    "Oelint.C118_order"
   ],
   "note": "Restrictions of C116 and C117; one .bbappend; the recipe is not empty; names as in C41."
  },
  {
   "property": "C119",
   "status": "proved",
   "theorems": [
    "Oelint.C119_values",
    "Oelint.C119_references",
    "Oelint.C119_in_place"
   ],
   "note": "Restrictions of C116 and C117; one include, whose file (.inc or .conf) is found, loads nothing, and is not to be ignored; the name has no references. With two includes the order of the lines can be wrong, see C43. The same values in place: if no declaration depends on itself."
  },
  {
   "property": "C120",
   "status": "proved",
   "theorems": [
    "Oelint.C120_values",
    "Oelint.C120_references",
    "Oelint.C120_in_place"
   ],
   "note": "Restrictions of C116 and C117; one class, which is found in one of the three directories, loads nothing, and is not to be ignored; its name has no references. A second inherit is left out, see C43. The same values in place: if no declaration depends on itself."
  },
  {
   "property": "C121",
   "status": "proved",
   "theorems": [
    "Oelint.C121_packages",
    "Oelint.C121_dynamic",
    "Oelint.C121_inherited",
    "Oelint.C121_included",
    "Oelint.C121_appended",
    "Oelint.C121_dynamic_inherited",
    "Oelint.C121_dynamic_included",
    "Oelint.C121_dynamic_appended"
   ],
   "note": "Restrictions of C117 (and of C118, C119, C120 for the second file); the texts declared for the packages call no functions and every ${ in them starts a reference. A package is given for every declaration, whatever its overrides and operator: also for the text of a :remove, see C60. If one blank follows another in PACKAGES_DYNAMIC the empty pattern is given, see C61."
  },
  {
   "property": "C122",
   "status": "proved",
   "theorems": [
    "Oelint.C122_plain",
    "Oelint.C122_inherited",
    "Oelint.C122_included",
    "Oelint.C122_appended"
   ],
   "note": "Restrictions of C116 (and of C118, C119, C120 for the second file); the name of the class has no separator."
  },
  {
   "property": "C123",
   "status": "proved",
   "theorems": [
    "Oelint.C123_sources",
    "Oelint.C123_inherited",
    "Oelint.C123_included",
    "Oelint.C123_appended"
   ],
   "note": "Restrictions of C116, C118, C119 and C120; the known mirrors are a dictionary of texts with names that are not empty. References other than ${PN} are left as they are, and an option ends at its second =, see C58."
  },
  {
   "property": "C124",
   "status": "proved",
   "theorems": [
    "Oelint.C124_terms",
    "Oelint.C124_values",
    "Oelint.C124_packages",
    "Oelint.C124_dynamic",
    "Oelint.C124_session",
    "Oelint.C124_unusable"
   ],
   "note": "Reading a file may fail only because it is missing or forbidden; other errors of the system are passed on. The depth of the recursion is bounded (C49), but the limit of the interpreter is not part of the claim. For GetValidNamedResources see C66."
  },
  {
   "property": "C125",
   "status": "partial",
   "theorems": [
    "Oelint.C125_values_partial",
    "Oelint.C125_references_partial",
    "Oelint.C125_inherit_values_partial",
    "Oelint.C125_inherit_references_partial",
    "Oelint.C125_include_at_end_counterexample",
    "Oelint.C125_inherit_at_end_counterexample"
   ],
   "note": "False of the code if the recipe ends with the include or the inherit: the lines of the .bbappend start after the last line of the recipe itself, so that later lines of the included file or class come after it and win. Proved if at least one line follows and the .bbappend is added after the recipe (restrictions of C118, C119 and C120)."
  },
  {
   "property": "C52",
   "status": "partial",
   "theorems": [
    "Oelint.C52_operators_partial",
    "Oelint.C52_weak_counterexample",
    "Oelint.C52_inline_counterexample"
   ],
   "note": "False of the code: ??= acts like ?= at once, and a value with inline python replaces the value whatever the operator is. Proved for ??= not followed by other operators than = and :=, values without inline python, one blank on each side of the operator, names without references."
  },
  {
   "property": "C53",
   "status": "partial",
   "theorems": [
    "Oelint.C53_modifiers_partial",
    "Oelint.C53_whole_items_partial",
    "Oelint.C53_substring_counterexample",
    "Oelint.C53_remove_first_counterexample"
   ],
   "note": "False of the code: remove deletes substrings, and a remove that comes first for an unknown variable sets its value. The order of the modifiers is proved; whole items are removed if no other item contains the removed one."
  },
  {
   "property": "C54",
   "status": "partial",
   "theorems": [
    "Oelint.C54_unset_partial",
    "Oelint.C54_flag_partial",
    "Oelint.C54_counterexample",
    "Oelint.C54_name_counterexample"
   ],
   "note": "False of the code: append, prepend and remove before the unset are kept; names of more than one character are not unset (C13). Proved for the immediate operators and for flags."
  },
  {
   "property": "C55",
   "status": "partial",
   "theorems": [
    "Oelint.C55_other_spelling_partial",
    "Oelint.C55_counterexample"
   ],
   "note": "False of the code: only one blank on each side is recognised, other spellings count as no assignment, which is proved; with one blank C52 applies."
  }
 ]
}
#!/usr/bin/env python3
"""Write MANIFEST.json. Each entry: property, status, theorems, note."""
import json, os, re
CLAIMS = [
 ("C01","proved",["C01_parsing_is_lossless"],""),
 ("C02","proved",["C02_lines"],"Line = InFileLine + offset for items with no include/inherit before them, outside .bbappend files."),
 ("C03","proved",["C03_one_item_per_chunk"],""),
 ("C04","proved",["C04_no_inline_python_left"],"Termination: the model function is total and its iteration limit never matters (inlineLoop_spec)."),
 ("C05","proved",["C05_inline_scope"],""),
 ("C06","proved",["C06_raw_from_realraw"],""),
 ("C07","partial",["C07_every_file_can_be_added_partial","C07_preprocessing_partial","C07_counterexample_continuation","C07_counterexample_function","C07_false","C07_add_file_succeeds_partial","C07_session_succeeds_partial","C07_counterexample_name"],"False of the code: StopIteration for a file ending in a continued line or a function header, regex.error for a .bbappend whose name is no pattern. Proved: under the hypotheses of C47 AddFile returns for every complete text, and leaves a usable stash."),
 ("C08","proved",["C08_chunk_boundaries"],""),
 ("C09","proved",["C09_new_syntax_is_sticky"],""),
 ("C14","proved",["C14_inline_branch","C14_inline_branch_in_raw"],"Arguments without commas, parentheses, newlines; branch values in quotes."),
 ("C15","proved",["C15_unknown_inline_code"],""),
 ("C16","partial",["C16_blocks_restored_partial","C16_unknown_code_restored_partial","C16_false","C16_counterexample_empty"],"False of the code for repeated blocks and for blocks whose replacement is empty or occurs earlier; proved for different blocks with unambiguous replacements."),
 ("C17","proved",["C17_overrides_split_off"],""),
 ("C18","proved",["C18_no_piece_is_lost"],""),
 ("C19","partial",["C19_function_names_recompose_partial","C19_counterexample"],"False when the operation word also occurs as an earlier piece of the name (list.index)."),
 ("C20","proved",["C20_modifiers_agree"],""),
 ("C21","proved",["C21_var_value_stripped"],""),
 ("C24","proved",["C24_entries","C24_empty_means_none"],""),
 ("C25","proved",["C25_words"],""),
 ("C27","proved",["C27_add_constants"],""),
 ("C28","proved",["C28_remove_constants"],""),
 ("C29","proved",["C29_override_constants"],"What was below a replaced dictionary disappears."),
 ("C30","proved",["C30_get_by_path"],"A path running through a non-dictionary raises AttributeError."),
 ("C31","partial",["C31_this_call_partial","C31_known_paths_partial","C31_out_of_reach_partial","C31_add_add","C31_override_add","C31_false"],"False in general (C31_false): the data base keeps list and dictionary objects of the caller and a later AddConstants extends them in place. Proved: one call on an unshared data base changes no object of the caller and refines the value-level merge; sequences of removals and of additions to known paths never change caller objects; objects out of reach never change."),
 ("C32","proved",["C32_filters_are_exact","C32_no_filter"],""),
 ("C33","proved",["C33_sorted_and_unique","C33_composition","C33_combined_filter"],"Equality of result lists up to the order of items with equal Line (set iteration order)."),
 ("C36","proved",["C36_append","C36_remove","C36_remove_undoes_append"],""),
 ("C37","partial",["C37_stashlist_partial","C37_extend_does_nothing","C37_false","C37_iadd_loses_the_type"],"False of the code: extend does nothing, += returns a plain list."),
 ("C12","partial",["C12_include_reports","C12_inherit_reports","C12_reported_files_are_loaded","C12_counterexample"],"False of the code for ignored classes: the whole list of names is compared with ClassIgnore."),
 ("C38","proved",["C38_class_loaded_once"],""),
 ("C39","partial",["C39_includes_linked_partial","C39_class_linked_once_partial","C39_counterexample"],"False of the code: only the first file that inherits a class is linked to it."),
 ("C40","partial",["C40_seen_again","C40_retry_partial","C40_counterexample"],"False of the code: a .bbappend or .bbclass whose loading failed is never parsed again."),
 ("C41","partial",["C41_matching_linked_partial","C41_linked_matching_partial","C41_order_independent_partial","C41_percent_whole","C41_same_stem","C41_order_counterexample","C41_stem_counterexample"],"False of the code: when the .bbappend is added first a matching beginning of the name is enough; names are used as regular expressions."),
 ("C42","proved",["C42_append_after_recipe","C42_recipe_added_later"],"For names without characters special to regular expressions (other than .)."),
 ("C43","partial",["C43_first_include_partial","C43_first_inherit_partial","C43_two_includes_counterexample","C43_nested_include_counterexample","C43_two_classes_counterexample"],"False of the code with two includes, nested includes or two classes in one inherit: the offset of a loaded file ignores the files loaded before it. Proved for the first include or inherit of a file, if what it loads loads nothing itself."),
 ("C44","partial",["C44_finalize_partial","C44_one_pass","C44_counterexample"],"False of the code: one pass over the files is not a transitive closure. What the pass computes is proved exactly."),
 ("C45","proved",["C45_included_from","C45_add_file_keeps"],"With empty caches; stale caches: C35."),
 ("C46","proved",["C46_file_lists","C46_recipes_added","C46_item_flags"],""),
 ("C48","proved",["C48_hashed","C48_fingerprint","C48_add_file","C48_other_calls"],""),
 ("C49","proved",["C49_expansion_terminates","C49_depth"],"For every stash, value, spare and seen; the bound on the depth is explicit. CPython's own recursion limit is not modelled."),
 ("C50","proved",["C50_no_reference","C50_unknown_or_spared","C50_among_others"],"References are ${NAME} and d.getVar(...)."),
 ("C51","proved",["C51_expansion_substitutes","C51_acyclic_definitions","C51_first_assignment"],"For texts in which every ${ starts a reference and no getVar/read_file is called; cyclic definitions are covered by C49 only."),
 ("C56","proved",["C56_name_and_version","C56_no_version","C56_more_parts"],""),
 ("C57","proved",["C57_base_name","C57_one_base_name","C57_all_parts"],"For names without newline."),
 ("C47","partial",["C47_add_file_terminates_partial","C47_self_include_counterexample"],"False of the code: a .inc, .bb or .conf file that includes itself is read until the recursion limit. Proved whenever the files that are read again cannot reach themselves; cycles through classes are allowed."),
 ("C58","partial",["C58_source_components","C58_raises","C58_mirrors_functional","C58_options_read_back_partial","C58_false"],"False of the code for option values that contain '='. urlparse is a parameter of the model."),
 ("C59","partial",["C59_find_local_or_layer_partial","C59_layer_root_partial","C59_nearest","C59_two_slashes_counterexample","C59_own_directory_counterexample"],"False of the code: paths starting with // loop forever; the start directory itself is never taken as layer root."),
 ("C22","partial",["C22_maximal_runs","C22_tokens_partial","C22_join_split","C22_words","C22_mark_counterexample"],"False of the code: a line-continuation mark that an x follows stays in the token. All else is proved."),
 ("C23","proved",["C23_constraints_dropped","C23_names_only"],""),
 ("C60","proved",["C60_package_names"],""),
 ("C61","partial",["C61_patterns","C61_raises","C61_answers","C61_dynamic_packages_partial","C61_false"],"False of the code when the value has adjacent, leading or trailing separators."),
 ("C62","proved",["C62_images_and_package_groups","C62_any_collection"],"For known-variable collections (lists, or dictionaries by their keys) without the empty name."),
 ("C63","partial",["C63_timeouts_contained_partial","C63_finditer_raises"],"False of the code: finditer is lazy, its TimeoutError escapes."),
 ("C64","partial",["C64_attribute_constants_partial","C64_counterexample","C64_missing_file"],"False of the code: two constants name no attribute."),
 ("C65","partial",["C65_getVar_partial","C65_false"],"False of the code for d.getVar with a second argument."),
 ("C66","proved",["C66_named_resources","C66_raises"],""),
 ("C34","partial",["C34_caching_invisible_partial","C34_false","C34_failed_remove_false","C34_failed_addFile_false","C34_failed_finalize_false"],"False of the code for GetBBClasses, GetPackagesDynamic and IsDynamicPackage, whose caches are never emptied. Also false after a call that raised half-way: a Remove (ValueError), an AddFile because of a malformed pattern in the name of an append, a Finalize because of a file known from Append only; what was changed by then is not seen (C34_failed_remove_false, C34_failed_addFile_false, C34_failed_finalize_false). Proved for all other questions after any history of successful calls, calls of AddFile that failed while reading files, and questions."),
 ("C35","partial",["C35_question_changes_nothing","C35_questions_change_nothing_partial","C35_false"],"False of the code: Finalize works with what an earlier GetItemsFor left in the caches. Proved when a call that empties the caches lies between a question and a later Finalize."),
 ("C10","proved",["C10_capital_names","C10_assignment","C10_one_item_per_assignment"],"C10_assignment covers every name the grammar allows, with its overrides."),
 ("C11","proved",["C11_comments_always_win"],""),
 ("C13","partial",["C13_unset_partial","C13_unset_flag_partial","C13_observed_partial","C13_counterexample","C13_false"],"False of the code: VarName is the first character of the name; right for names of one character."),
 ("C26","proved",["C26_addtask","C26_deltask"],""),
 ("C67","partial",["C67_flag_assignment_partial","C67_counterexample"],"False of the code for flags with other characters than [A-Za-z0-9_./@-]."),
 ("C68","partial",["C68_export_partial","C68_counterexample","C68_counterexample_operator"],"False of the code for values in single quotes and for operators other than =."),
 ("C69","partial",["C69_python_function_partial","C69_counterexample"],"False of the code for names with capital letters."),
 ("C70","partial",["C70_function_partial","C70_counterexample"],"False of the code for names that start with python or fakeroot."),
 ("C71","partial",["C71_body_partial","C71_counterexample"],"False of the code for names with { and bodies that end with }."),
 ("C72","partial",["C72_include_partial","C72_observed_partial","C72_counterexample"],"False of the code for names with characters like +, which are cut off."),
 ("C73","proved",["C73_inherit"],""),
 ("C74","proved",["C74_names_as_written"],""),
 ("C75","partial",["C75_addpylib_partial","C75_counterexample"],"False of the code for more than one blank in front of the namespace."),
 ("C76","proved",["C76_statement","C76_recipe","C76_one_line_statements"],"What may be written in each statement is part of the specification (Stmt.Ok); the forms the code gets wrong are C67 to C72 and C75."),
 ("C77","proved",["C77_read","C77_add","C77_remove","C77_override"],"For data bases whose sections are dictionaries and whose constants are lists; what happens otherwise is C27 to C31."),
 ("C78","proved",["C78_layer","C78_no_layer","C78_add_file","C78_add_file_keeps","C78_recognised"],""),
 ("C79","proved",["C79_query_returns_every_item","C79_add_file_adds","C79_failing_add_file_keeps","C79_remove_takes_out"],"Append is not among the calls, since the caller may append an item twice (C36)."),
 ("C80","partial",["C80_only_several_lines_partial","C80_several_lines_partial","C80_counterexample_blank","C80_counterexample_escape","C80_counterexample_inline"],"False of the code: blanks between the backslash and the newline, and continuations inside of inline python, are not seen; the text backslash x1b in a single line is taken for a continuation. Proved for all other texts that are not taken for the start of a function."),
 ("C81","partial",["C81_links","C81_count","C81_counterexample"],"False of the code: a file is listed once for each of its items, which is proved, as is which files are listed."),
 ("C82","proved",["C82_files"],""),
 ("C83","partial",["C83_no_placeholder","C83_own_value_partial","C83_counterexample"],"False of the code: a value with placeholders is dropped, the value of objref is expanded instead. Proved for the value of objref itself."),
 ("C84","proved",["C84_load","C84_newlines","C84_fallback","C84_constructor"],"Numbers, true, false, null, lists of other values and the escape \\\\u are outside of the modelled fragment; a file that cannot be decoded is not covered."),
 ("C85","partial",["C85_loaded","C85_usable","C85_documented_types_partial","C85_kept_partial","C85_counterexample"],"False of the code for VariablesKnown: the shipped data base has no such entry, and the property returns an empty dictionary instead of a list. Proved for the other ten properties."),
 ("C86","proved",["C86_base_set_expands","C86_standard_names","C86_images"],"The names in question contain no dollar sign."),
 ("C87","partial",["C87_not_read_partial","C87_forgotten_partial","C87_counterexample"],"False of the code: the results are remembered and the remembered object itself is returned, so a caller who empties the list of recipes makes GetRecipes return none. Proved: nothing else notices the change, the stash and all questions that do not read the object stay as they are, and the next update undoes it, except for GetBBClasses, GetScrComponents and GetPackagesDynamic, whose results are never forgotten."),
 ("C88","proved",["C88_line_ends"],"Also the stashes are equal afterwards."),
 ("C89","proved",["C89_no_inline","C89_statements"],"No inline python: the text after translation of newlines has no place where the loop of prepare_lines sees the opening sequence."),
 ("C90","proved",["C90_known_names","C90_other_stash"],"The data base must have dictionaries and lists where the documented ones have (UsableConstants, true of the shipped one by C85). The counter that names objects is the same in both runs."),
 ("C91","partial",["C91_sorted","C91_questions_partial","C91_dynamic_partial","C91_same_members","C91_add_file_partial","C91_fingerprint_partial","C91_references_partial","C91_references_fingerprint_partial","C91_finalize","C91_counterexample","C91_fingerprint_counterexample","C91_references_counterexample"],"False of the code: two appends of one recipe get the same Lines, so ExpandTerm and ExpandVar depend on the order of a set; GetConfFiles and GetLinksForFile return lists in the order of a set; IsDynamicPackage with an invalid pattern raises in one run only; FingerPrint shows the set FilePaths, so it differs between runs if an inherit loads two classes. Proved: sorted lists and yes/no answers; all others if no two items have the same Line; the same members in any case; any calls of AddFile apart from the fingerprint if the names they load are written without references or refer only to variables that nothing assigns (C91_references_counterexample: two assignments with the same Line decide which include is loaded), and with the fingerprint if no inherit loads two classes; Finalize up to the order of links."),
 ("C92","partial",["C92_items_partial","C92_plain_partial","C92_counterexample","C92_reference_counterexample"],"False of the code for Line: the lines of an inherited class count only if the class had not been loaded before; and for names of includes that refer to variables of a class that is loaded once only. Proved for all attributes except Line if both calls succeed and the names of included files and inherited classes refer only to variables that are not assigned in either stash (none, or e.g. PN, BPN, PV, variables of the base set)."),
 ("C93","partial",["C93_attributes","C93_one_object","C93_seen_partial","C93_after_update","C93_counterexample","C93_surprises"],"False of the code for questions that compare an assigned attribute, and for GetValidPackageNames and GetValidNamedResources after an assignment to VarValue or Line: the setters empty no cache, so an answer given before is given again until the next update. Proved for all other questions, and for all questions after an update. Assumed: the iteration order of a set of items depends on the identity of the items only."),
 ("C94","partial",["C94_paths","C94_extension","C94_same_file","C94_elsewhere_partial","C94_nothing_relative_partial","C94_files","C94_counterexample"],"False of the code for values that call oe.utils.read_file with a relative path: what is read depends on the working directory of the process. Proved for everything else: with equal relative files including all errors, and without any assumption on relative files as long as none is opened. The places of files that the stash remembers must be those on the disk (see C101)."),
 ("C95","proved",["C95_not_needed"],"A file that cannot be opened is one for which open raises an OSError that is not FileNotFoundError, PermissionError or NotADirectoryError, so that no caller catches it. The places of files that the stash remembers must be those on the disk (see C101)."),
 ("C96","proved",["C96_item","C96_fingerprint"],"Assumes that SHA-1 gives no collision for the two texts that are compared. Values of sets are compared as sets."),
 ("C97","proved",["C97_lines","C97_loads_nothing"],"This is the formula behind C04, C42 and C43: offsets of earlier includes are not handed on to later included files, hence the disagreement of C43."),
 ("C98","proved",["C98_values","C98_without_file","C98_one_text"],"Exact counterpart of C52 to C55, which say where this differs from bitbake. Assumes that the base set is a dictionary of strings. The order of statements with the same Line is left open (see C91)."),
 ("C99","proved",["C99_quiet","C99_add_file","C99_other_calls","C99_once","C99_origins","C99_same"],""),
 ("C100","partial",["C100_independent_partial","C100_next_reply_partial","C100_shared_constants","C100_false"],"False of the code: functools.cache keeps one table per method for all stashes, and making another stash (or loading a file with it) empties the caches of all of them; as Finalize reads stale caches (C35), whether the items of a stash report all files that include them in IncludedFrom can depend on whether another stash was made between a question and Finalize (C100_false). Proved for every interleaving, as long as the calls on that stash do not raise (the first one that does raises the same) and between a question and a later Finalize of that stash some call on it empties the caches. Items are values in the model, so no item belongs to two stashes."),
 ("C101","partial",["C101_loaded","C101_current_partial","C101_addFile_partial","C101_reloaded_partial","C101_edited","C101_false"],"False of the code: the caches of GetLayerRoot and FindLocalOrLayer are never emptied, so an include, class or configuration that was looked for in vain once is never found by the same stash, even if the recipe is added again after the file was created; and GetFiles and GetValidPackageNames go on giving what they found until a call empties their caches (C101_false). Proved: everything if no remembered place of a file has become wrong, in particular if only what is in the files changes (C101_edited); GetFiles and GetValidPackageNames after the next call that empties the caches; without the three questions of C34."),
 ("C102","proved",["C102_edit","C102_fix"],"Line and the identity of the objects are left out (C97, C03). Of the new text C102_fix asks that it consists of single lines, continued lines or closed functions that start with a letter or digit; C102_edit covers any two versions of a file whose statements agree outside the edited place. The names of what the file loads may refer to variables that are not assigned in either stash."),
 ("C103","proved",["C103_match","C103_search","C103_kind","C103_same_text","C103_shipped"],"The patterns are the texts of the source; what they describe is stated without a matching strategy (Spec/Regex.lean) and the backtracking matcher of the model is proved to find a beginning if and only if there is one (sound and complete), so the property does not depend on the matcher. Possessive repetitions are excluded; no pattern of the parser uses them."),
 ("C104","partial",["C104_order_partial","C104_plain_partial","C104_counterexample"],"False of the code for names written with references: a class is loaded for the first recipe only and the second recipe does not know its variables while it is read, so `include ${X}.inc` finds its file or not depending on the order (C104_counterexample). Proved if the names of includes and classes refer only to variables that nothing in the resulting stash assigns (none, or e.g. PN, BPN, PV, variables of the base set); Line is left out (C92_counterexample)."),
 ("C105","partial",["C105_undisturbed_partial","C105_files_partial","C105_shared_include_counterexample","C105_shared_append_counterexample"],"False of the code for two reasons. An include is read again for every recipe that requires it and its items are entered once more, so after adding a second recipe `A += \"x\"` of the shared include counts twice for the first one (C105_shared_include_counterexample). An append of two versions of a recipe is moved behind the longer one, so adding another version changes which of two appends of the first version comes last, and with it the values (C105_shared_append_counterexample). Proved otherwise: if no file that is read is the recipe or linked to it, the links of the recipe are the same, and no append of it is linked to a file that is read, all answers stay the same, exceptions included."),
 ("C106","partial",["C106_nothing_left_partial","C106_settled_partial","C106_stray_dollar_counterexample","C106_left_counterexample"],"False of the code when a definition ends in a stray `$`: with `A = \"$\"` and `B = \"1\"` the text `${A}{B}` expands to `${B}` and that to `1` (C106_stray_dollar_counterexample). Proved otherwise: if each `${` in the text and in the definitions starts a reference, each `$` is followed by something other than `$`, and there are no calls of getVar and read_file, the result refers to unknown and spared names only, and expanding it again returns it; cyclic definitions included."),
 ("C107","partial",["C107_order_only","C107_edit_partial","C107_comments_partial","C107_includes_negation"],"False of the code with two includes: their items interleave, as the Line of the second does not account for the lines of the first (C43), and four comment lines between the two `require` statements change which assignment of V comes first, so `${V}` changes from b to a (C107_includes_negation). Proved for any two stashes: the same Variable, Unset and Inherit items in the same order of Line, with the same links and settings, give the same answers (C107_order_only). Proved for a file that loads no other file, read into a fresh stash: an edit of statements that assign, unset and inherit nothing changes no answer, if it does not change whether the new override syntax is in use (C107_edit_partial); for comments that proviso holds (C107_comments_partial). Missing: files that load exactly one other file, stashes that hold other files."),
 ("C108","partial",["C108_negation","C108_remove_takes_more","C108_last_call_partial","C108_add_order_partial"],"False of the code if a dictionary is passed twice: AddConstants(d1), AddConstants(d2), RemoveConstants(d1) with d1 = {\"a\": [\"x\"]} and d2 = {\"a\": [\"y\"]} leaves the list empty, though nothing the caller wrote removes \"y\": the data base kept the list object of d1 and extended it in place (C108_negation, C108_remove_takes_more). Proved for any sequence of calls, on the heap of objects, if each dictionary passed is made of objects of its own and the shapes (dictionary or list at a path) of the data base and all dictionaries agree: no call raises and the last call decides (C108_last_call_partial); the order of AddConstants calls does not matter for the elements (C108_add_order_partial)."),
 ("C109","partial",["C109_piecewise_partial","C109_negation"],"False of the code for definitions that depend on themselves: with `A = \"${B}x\"` and `B = \"${A}y\"`, `${A}` expands to `yx`, `${B}` to `xy`, but `${A}${B}` to `yxy`, as what B stands for is remembered as it was found inside A (C109_negation). Proved otherwise, without calls of getVar and read_file in the text."),
 ("C110","proved",["C110_only_referred","C110_whatever_else","C110_edit"],"Exceptions included. Calls of getVar count as references, and the texts may call read_file. C110_edit is for files that load no other file: with two includes Lines of different files may collide, see C107."),
 ("C111","proved",["C111_own_statements","C111_edit"],"If a name contains a reference it is expanded like a value, and its items are added to those of the variable it becomes; such stashes are excluded. C111_edit is for files that load no other file: with two includes Lines of different files may collide, see C107."),
 ("C112","partial",["C112_assignment_partial","C112_as_on_one_line_partial","C112_inherit_partial","C112_negation","C112_negation_word"],"False of the code: a continuation line that starts with the letter x (for example x86) keeps the control character in its first item, and a word that is broken becomes two items. Proved for lines that are broken at blanks and do not start with x."),
 ("C113","proved",["C113_same_variable","C113_expandTerm","C113_expandVar","C113_file"],"Old spelling only with OverrideDelimiter _: once a stash has seen the new syntax, A_append is a variable of that name."),
 ("C114","partial",["C114_same_text_partial","C114_one_assignment_partial","C114_base_set_partial","C114_negation"],"False of the code: a reference is replaced by the first assignment of the variable, whatever follows; ExpandVar takes all statements in order, with append, prepend and remove (A = 1, then A = 2: ${A} is 1, ExpandVar gives 2). Proved for a variable with one assignment, for one from the base set, and in general where the statements give the text of the first assignment; no definition depends on itself."),
 ("C115","proved",["C115_operators","C115_modifiers"],"For statements of the recipe and one .bbappend; two .bbappend files of one recipe share their lines (C91). References in other texts do not follow the .bbappend (C114)."),
 ("C116","proved",["C116_recipe","C116_one_line_entries"],"For names in capital letters with overrides in the new syntax, no both append and prepend on one name, no inline python, no file loaded. A variable with only append, prepend and remove is excluded as far as remove goes (C53)."),
 ("C117","proved",["C117_references","C117_unique","C117_values"],"Restrictions of C116; texts call neither getVar nor read_file. That the first declaration counts, with whatever overrides it has, is how the code works and not what bitbake does (C114)."),
 ("C118","proved",["C118_values","C118_references","C118_order"],"Restrictions of C116 and C117; one .bbappend; the recipe is not empty; names as in C41."),
 ("C119","proved",["C119_values","C119_references","C119_in_place"],"Restrictions of C116 and C117; one include, whose file (.inc or .conf) is found, loads nothing, and is not to be ignored; the name has no references. With two includes the order of the lines can be wrong, see C43. The same values in place: if no declaration depends on itself."),
 ("C120","proved",["C120_values","C120_references","C120_in_place"],"Restrictions of C116 and C117; one class, which is found in one of the three directories, loads nothing, and is not to be ignored; its name has no references. A second inherit is left out, see C43. The same values in place: if no declaration depends on itself."),
 ("C121","proved",["C121_packages","C121_dynamic","C121_inherited","C121_included","C121_appended","C121_dynamic_inherited","C121_dynamic_included","C121_dynamic_appended"],"Restrictions of C117 (and of C118, C119, C120 for the second file); the texts declared for the packages call no functions and every ${ in them starts a reference. A package is given for every declaration, whatever its overrides and operator: also for the text of a :remove, see C60. If one blank follows another in PACKAGES_DYNAMIC the empty pattern is given, see C61."),
 ("C122","proved",["C122_plain","C122_inherited","C122_included","C122_appended"],"Restrictions of C116 (and of C118, C119, C120 for the second file); the name of the class has no separator."),
 ("C123","proved",["C123_sources","C123_inherited","C123_included","C123_appended"],"Restrictions of C116, C118, C119 and C120; the known mirrors are a dictionary of texts with names that are not empty. References other than ${PN} are left as they are, and an option ends at its second =, see C58."),
 ("C124","proved",["C124_terms","C124_values","C124_packages","C124_dynamic","C124_session","C124_unusable"],"Reading a file may fail only because it is missing or forbidden; other errors of the system are passed on. The depth of the recursion is bounded (C49), but the limit of the interpreter is not part of the claim. For GetValidNamedResources see C66."),
 ("C125","partial",["C125_values_partial","C125_references_partial","C125_inherit_values_partial","C125_inherit_references_partial","C125_include_at_end_counterexample","C125_inherit_at_end_counterexample"],"False of the code if the recipe ends with the include or the inherit: the lines of the .bbappend start after the last line of the recipe itself, so that later lines of the included file or class come after it and win. Proved if at least one line follows and the .bbappend is added after the recipe (restrictions of C118, C119 and C120)."),
 ("C52","partial",["C52_operators_partial","C52_weak_counterexample","C52_inline_counterexample"],"False of the code: ??= acts like ?= at once, and a value with inline python replaces the value whatever the operator is. Proved for ??= not followed by other operators than = and :=, values without inline python, one blank on each side of the operator, names without references."),
 ("C53","partial",["C53_modifiers_partial","C53_whole_items_partial","C53_substring_counterexample","C53_remove_first_counterexample"],"False of the code: remove deletes substrings, and a remove that comes first for an unknown variable sets its value. The order of the modifiers is proved; whole items are removed if no other item contains the removed one."),
 ("C54","partial",["C54_unset_partial","C54_flag_partial","C54_counterexample","C54_name_counterexample"],"False of the code: append, prepend and remove before the unset are kept; names of more than one character are not unset (C13). Proved for the immediate operators and for flags."),
 ("C55","partial",["C55_other_spelling_partial","C55_counterexample"],"False of the code: only one blank on each side is recognised, other spellings count as no assignment, which is proved; with one blank C52 applies."),
]
here = os.path.dirname(os.path.abspath(__file__))
names = set()
for d, _, fs in os.walk(os.path.join(here, "..", "lean", "Verif", "Props")):
    for f in fs:
        names |= set(re.findall(r"^theorem (\S+)", open(os.path.join(d, f)).read(), re.M))
ids = [json.loads(l)["id"] for l in open(os.path.join(here, "..", "properties.jsonl"))]
seen = {c[0] for c in CLAIMS}
for c in CLAIMS:
    assert c[0] in ids, c
    for t in c[2]:
        assert t in names, t
used = {t for c in CLAIMS for t in c[2]}
for n in sorted(names - used):
    print("not claimed:", n)
print("missing:", [i for i in ids if i not in seen])
json.dump({"claims": [{"property": a, "status": b, "theorems": ["Oelint." + t for t in c], "note": d} for a, b, c, d in CLAIMS]},
          open(os.path.join(here, "..", "MANIFEST.json"), "w"), indent=1)

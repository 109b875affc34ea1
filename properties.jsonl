{"id": "C01", "title": "Parsing is lossless", "statement": "When a file parses, the RealRaw texts of the items returned for it, concatenated in order, are exactly the text of the file.", "quantifier": "every file text (any length, any mix of statements, comments, functions, continuation lines)", "why_tests_cant": "a test fixes a handful of texts; the claim is about every text and every way its lines can be grouped", "anchors": ["oelint_parser/parser.py:prepare_lines", "oelint_parser/parser.py:prepare_lines_subparser", "oelint_parser/parser.py:get_items"]}
{"id": "C02", "title": "InFileLine is the physical line", "statement": "InFileLine of every returned item is 1 plus the number of newlines of the file that precede its text; Line, for a file other than a .bbappend without include and inherit statements, is InFileLine plus the line offset the caller passed; both strictly increase along the file.", "quantifier": "every file text and every line offset", "why_tests_cant": "needs every grouping of lines into items, not a sample", "anchors": ["oelint_parser/parser.py:prepare_lines", "oelint_parser/parser.py:get_items", "oelint_parser/cls_item.py:Item"]}
{"id": "C03", "title": "One item per chunk, right provenance", "statement": "AddFile returns exactly one item per chunk of the file, in file order, each with Origin equal to the absolute path of the file; a file that does not exist yields no items.", "quantifier": "every file text, every file system, every stash state", "why_tests_cant": "depends on all combinations of chunk kinds, including statements that load other files recursively", "anchors": ["oelint_parser/parser.py:get_items", "oelint_parser/cls_stash.py:Stash.AddFile"]}
{"id": "C04", "title": "Raw never contains inline python", "statement": "Preprocessing of inline python terminates on every text, and the Raw of every item contains no '${@'.", "quantifier": "every text, both values of negative_inline", "why_tests_cant": "a loop whose replacement text can itself contain '${@': termination and the final state must hold for every text", "anchors": ["oelint_parser/parser.py:prepare_lines_subparser", "oelint_parser/inlinerep.py:inlinerep"]}
{"id": "C05", "title": "Inline block scope", "statement": "The text taken as an inline block is the shortest prefix whose closing braces exceed its opening braces (counting after the '${@'), or the whole remaining text when there is none.", "quantifier": "every string, every offset", "why_tests_cant": "infinite domain of nested braces", "anchors": ["oelint_parser/parser.py:get_full_scope"]}
{"id": "C06", "title": "Text without inline python is untouched", "statement": "If the text of a chunk contains no '${@', its item's Raw equals its RealRaw and InlineBlocks is empty; in general Raw is obtained from RealRaw by substituting the listed InlineBlocks in order, each replacing every occurrence.", "quantifier": "every chunk text, both values of negative_inline", "why_tests_cant": "quantifies over all texts and all sequences of replacements", "anchors": ["oelint_parser/parser.py:prepare_lines_subparser"]}
{"id": "C07", "title": "Every text file can be added", "statement": "AddFile does not raise on any readable text file.", "quantifier": "every file text", "why_tests_cant": "the failing texts are a thin set (files that end inside a continuation or right after a function header) that samples miss", "anchors": ["oelint_parser/parser.py:prepare_lines_subparser", "oelint_parser/parser.py:prepare_lines"]}
{"id": "C08", "title": "Chunk boundaries", "statement": "A chunk is exactly: a first line ending in backslash-newline plus all following lines up to and including the first one that does not; or a run of lines starting with '#'; or a def line plus the following lines up to the next line starting with an ASCII letter, digit or '#'; or a function header plus lines up to the one whose closing braces outnumber the opening ones; or a single line.", "quantifier": "every list of lines", "why_tests_cant": "all interleavings of the five grouping rules", "anchors": ["oelint_parser/parser.py:prepare_lines_subparser"]}
{"id": "C09", "title": "New override syntax is sticky", "statement": "Once one item of a file uses the new override syntax (':' as delimiter), every later item of that file reports OverrideDelimiter ':'; with new_style_override_syntax=True every item does.", "quantifier": "every file text and every position in it", "why_tests_cant": "history property along the whole file", "anchors": ["oelint_parser/parser.py:get_items", "oelint_parser/cls_item.py:Item.extract_sub", "oelint_parser/cls_item.py:Item.extract_sub_func"]}
{"id": "C10", "title": "Variable assignments parse to what was written", "statement": "A line NAME OP \"VALUE\" with NAME of capital letters, digits and '_' in which every piece between '_' starts with a letter (not INHERIT or EXPORT_FUNCTIONS), OP one of the eight operators with any blanks around it and VALUE without newline, backslash, '${@', a quote at either end or text that looks like a function header '() {' yields one Variable with VarName NAME, that operator, and VarValueStripped VALUE.", "quantifier": "every NAME, every operator, every VALUE", "why_tests_cant": "the line passes 16 other regular expressions first; each must be shown not to match for every name and value", "anchors": ["oelint_parser/parser.py:get_items", "oelint_parser/parser.py:__regex_var", "oelint_parser/cls_item.py:Variable"]}
{"id": "C11", "title": "Comments always win", "statement": "A chunk whose first non-blank character is '#' becomes a Comment whatever follows the '#'.", "quantifier": "every text after the '#'", "why_tests_cant": "the rest of the line can look like any other statement", "anchors": ["oelint_parser/parser.py:get_items", "oelint_parser/parser.py:__regex_comments"]}
{"id": "C12", "title": "Includes and inherits load what exists", "statement": "For an include/require (inherit) statement whose file (class) is found next to the file or in the layer, that file is parsed into the stash and reported in FileIncluded (FilePaths); ignored names are not parsed.", "quantifier": "every file system, every name, every stash state", "why_tests_cant": "depends on file system and constants", "anchors": ["oelint_parser/parser.py:get_items", "oelint_parser/cls_stash.py:Stash.FindLocalOrLayer"]}
{"id": "C13", "title": "unset names the whole variable", "statement": "The Unset item for a line 'unset NAME' has VarName NAME.", "quantifier": "every variable name", "why_tests_cant": "tests only use one-letter names, for which the lazy regular expression happens to be right", "anchors": ["oelint_parser/parser.py:__regex_unset", "oelint_parser/parser.py:get_items"]}
{"id": "C14", "title": "Inline branch selection", "statement": "For each of the known helper calls with plain quoted arguments, the inline block is replaced by its true argument, or by its false argument (empty for filter and both_contain) when negative_inline is set.", "quantifier": "every text of the arguments, both values of negative_inline, all eleven helpers", "why_tests_cant": "argument texts are unbounded and the patterns backtrack", "anchors": ["oelint_parser/inlinerep.py:inlinerep", "oelint_parser/inlinerep.py:bb_utils_contains"]}
{"id": "C15", "title": "Unknown inline code becomes the placeholder", "statement": "An inline block that names none of the known helpers is replaced by the fixed placeholder; the block text itself is kept in InlineBlocks.", "quantifier": "every block text", "why_tests_cant": "quantifies over all python expressions", "anchors": ["oelint_parser/inlinerep.py:inlinerep", "oelint_parser/parser.py:prepare_lines_subparser"]}
{"id": "C16", "title": "Inline blocks can be restored", "statement": "When ExpandVar or ExpandTerm puts inline blocks back into a value, the original text of the value reappears.", "quantifier": "every value and every list of inline blocks", "why_tests_cant": "repeated, empty or overlapping replacement texts break it; they are hard to hit by chance", "anchors": ["oelint_parser/cls_stash.py:Stash._ReverseInlineBlock"]}
{"id": "C17", "title": "Overrides split off", "statement": "For a name BASE:o1:...:on (BASE without ':', each oi non-empty and starting with [a-z0-9{}$]) VarName is BASE, SubItems is [o1..on] and VarNameComplete is the name; OverrideDelimiter is ':'.", "quantifier": "every BASE, every list of overrides", "why_tests_cant": "lists of any length, names of any content", "anchors": ["oelint_parser/cls_item.py:Item.extract_sub", "oelint_parser/cls_item.py:Variable"]}
{"id": "C18", "title": "No piece of a name is lost", "statement": "For every variable name, the non-empty pieces between delimiters are distributed, each keeping its text and relative order, between VarName and SubItems; a piece after the first goes to SubItems exactly if the first piece is not 'pkg' and the part of the piece before its first '-' starts with [a-z0-9{}$] (this includes the piece '${PN}').", "quantifier": "every name, both syntaxes", "why_tests_cant": "all interleavings of upper- and lower-case pieces", "anchors": ["oelint_parser/cls_item.py:Item.extract_sub"]}
{"id": "C19", "title": "Function names recompose", "statement": "FuncNameComplete of a function is the name it was defined with (up to empty pieces).", "quantifier": "every function name and every set of known functions", "why_tests_cant": "fails only when the first modifier piece also occurs earlier in the name", "anchors": ["oelint_parser/cls_item.py:Item.extract_sub_func", "oelint_parser/cls_item.py:Function"]}
{"id": "C20", "title": "Modifier predicates agree", "statement": "IsAppend, AppendOperation, IsImmediateModify and VarNameCompleteNoModifiers of a variable agree: IsAppend iff AppendOperation lists something other than 'remove'; IsImmediateModify iff none of append/prepend/remove is a SubItem; VarNameCompleteNoModifiers is VarNameComplete without exactly those pieces.", "quantifier": "every operator text, every list of overrides", "why_tests_cant": "cross-consistency of four functions over all inputs", "anchors": ["oelint_parser/cls_item.py:Variable.IsAppend", "oelint_parser/cls_item.py:Variable.AppendOperation", "oelint_parser/cls_item.py:Variable.IsImmediateModify", "oelint_parser/cls_item.py:Variable.VarNameCompleteNoModifiers"]}
{"id": "C21", "title": "VarValueStripped removes exactly the quoting", "statement": "VarValueStripped of blanks + '\"' + v + '\"' + blanks is v for every v not starting or ending in '\"'; it never starts or ends in '\"'.", "quantifier": "every value", "why_tests_cant": "all whitespace and quote combinations", "anchors": ["oelint_parser/cls_item.py:Variable.VarValueStripped"]}
{"id": "C22", "title": "Value tokenisation", "statement": "safe_linesplit returns, in order, the maximal runs of non-separator characters, all non-empty; joining tokens with blanks and splitting again gives the same tokens; no token contains a blank or a line-continuation mark.", "quantifier": "every string", "why_tests_cant": "all strings; the continuation mark rule has a look-ahead special case", "anchors": ["oelint_parser/cls_item.py:Item.safe_linesplit", "oelint_parser/cls_item.py:Variable.get_items"]}
{"id": "C23", "title": "Version constraints are dropped", "statement": "get_items(versioned=True) removes every parenthesised constraint with the blanks before it and returns the names only.", "quantifier": "every list of names and constraints", "why_tests_cant": "unbounded lists of names and version texts", "anchors": ["oelint_parser/cls_item.py:Variable.get_items"]}
{"id": "C24", "title": "Machine, distro and class entries", "statement": "GetMachineEntry/GetClassOverride/GetDistroEntry return the first SubItem of their kind or '' exactly when there is none; for GetMachineEntry the kind is: none of the words append, prepend, remove, machine, class-native, class-cross, class-target (for variables also class-nativesdk).", "quantifier": "every list of overrides, every set of known distros", "why_tests_cant": "all lists", "anchors": ["oelint_parser/cls_item.py:Variable.GetMachineEntry", "oelint_parser/cls_item.py:Variable.GetClassOverride", "oelint_parser/cls_item.py:Variable.GetDistroEntry", "oelint_parser/cls_item.py:Function.GetMachineEntry"]}
{"id": "C25", "title": "Task and export lists", "statement": "TaskAdd Before/After and FunctionExports items are exactly the blank-separated words; get_items_unaliased prefixes each with the class name.", "quantifier": "every text", "why_tests_cant": "all texts", "anchors": ["oelint_parser/cls_item.py:TaskAdd", "oelint_parser/cls_item.py:FunctionExports"]}
{"id": "C26", "title": "Addtask parses to what was written", "statement": "A line 'addtask F before B.. after A..' (either clause optional, either order, names separated by blanks and not containing the words before/after, F not starting with pkg_preinst/pkg_postinst/pkg_prerm/pkg_postrm) yields a TaskAdd with exactly those names; deltask likewise.", "quantifier": "every task name and every list of names in the clauses", "why_tests_cant": "the regular expression backtracks over both clauses", "anchors": ["oelint_parser/parser.py:__regex_addtask", "oelint_parser/parser.py:__regex_deltask", "oelint_parser/parser.py:get_items"]}
{"id": "C27", "title": "AddConstants adds and keeps", "statement": "After AddConstants(d), every list of the database is its old value followed by the list d has at the same path (new paths get d's value) and nothing else changes.", "quantifier": "every database, every dictionary of compatible shape, every path", "why_tests_cant": "arbitrarily nested dictionaries", "anchors": ["oelint_parser/constants.py:Constants.AddConstants", "oelint_parser/constants.py:Constants.GetByPath"]}
{"id": "C28", "title": "RemoveConstants removes exactly", "statement": "After RemoveConstants(d), every list of the database has lost exactly the entries d lists at the same path, in order, and nothing else changes.", "quantifier": "every database, every dictionary of compatible shape, every path", "why_tests_cant": "arbitrarily nested dictionaries", "anchors": ["oelint_parser/constants.py:Constants.RemoveConstants"]}
{"id": "C29", "title": "OverrideConstants replaces exactly", "statement": "After OverrideConstants(d), every non-dictionary path of d reads back d's value, all other paths except those below a replaced value are unchanged, and applying it twice is the same as once.", "quantifier": "every database, every dictionary of compatible shape, every path", "why_tests_cant": "arbitrarily nested dictionaries", "anchors": ["oelint_parser/constants.py:Constants.OverrideConstants"]}
{"id": "C30", "title": "GetByPath", "statement": "GetByPath walks the '/'-separated path, ignores trailing '/', and returns the empty dictionary when a key is missing; a path that goes on below a value that is no dictionary raises AttributeError.", "quantifier": "every database and path", "why_tests_cant": "all nestings", "anchors": ["oelint_parser/constants.py:Constants.GetByPath"]}
{"id": "C31", "title": "Constants do not leak into caller data", "statement": "AddConstants/OverrideConstants never change the dictionary the caller passed in, now or in later calls.", "quantifier": "every sequence of calls", "why_tests_cant": "aliasing shows up only in particular call sequences", "anchors": ["oelint_parser/constants.py:Constants.AddConstants", "oelint_parser/constants.py:Constants.OverrideConstants"]}
{"id": "C32", "title": "Filters are exact", "statement": "Reduce/GetItemsFor return exactly the items that satisfy every given filter (linked to the file or from it; classifier in the list; one of the attributes present with one of the values); filters not given or empty do not restrict.", "quantifier": "every list of items, every combination of filters, every link state", "why_tests_cant": "product of all filter combinations and states", "anchors": ["oelint_parser/cls_stash.py:Stash.Reduce", "oelint_parser/cls_stash.py:Stash.GetItemsFor"]}
{"id": "C33", "title": "Results are sorted, unique and composable", "statement": "The result of Reduce is ordered by Line and contains no item twice; reducing a result further equals, up to the order of items with the same Line, reducing once with both filters; reducing twice with the same filter changes nothing.", "quantifier": "every list, every pair of filters, every iteration order of Python sets", "why_tests_cant": "set iteration order is not controllable in a test", "anchors": ["oelint_parser/cls_stash.py:Stash.Reduce", "oelint_parser/cls_stash.py:Stash.StashList.reduce"]}
{"id": "C34", "title": "Caching is invisible", "statement": "Each cached query returns what a fresh computation on the current stash would return, after any sequence of AddFile, Append, Remove, Finalize and queries.", "quantifier": "every history of operations", "why_tests_cant": "staleness needs particular interleavings of queries and updates", "anchors": ["oelint_parser/cls_stash.py:Stash._clear_cached", "oelint_parser/cls_stash.py:Stash.GetItemsFor", "oelint_parser/cls_stash.py:Stash.GetBBClasses", "oelint_parser/cls_stash.py:Stash.Finalize"]}
{"id": "C35", "title": "Queries do not change results", "statement": "Asking a question never changes what later operations produce; in particular IncludedFrom after Finalize does not depend on queries made before it.", "quantifier": "every history", "why_tests_cant": "interleavings of queries and Finalize", "anchors": ["oelint_parser/cls_stash.py:Stash.Finalize", "oelint_parser/cls_stash.py:Stash.GetItemsFor"]}
{"id": "C36", "title": "Append and Remove", "statement": "Append adds the given items at the end; Remove removes one occurrence of each given item and raises if one is missing; Remove undoes Append of items that were not present.", "quantifier": "every stash state, every list of items", "why_tests_cant": "all histories", "anchors": ["oelint_parser/cls_stash.py:Stash.Append", "oelint_parser/cls_stash.py:Stash.Remove"]}
{"id": "C37", "title": "StashList behaves like a list", "statement": "append, insert, remove, extend, += and reduce on a result list have list semantics and do not touch the stash.", "quantifier": "every list", "why_tests_cant": "all lists", "anchors": ["oelint_parser/cls_stash.py:Stash.StashList"]}
{"id": "C38", "title": "A class is loaded at most once", "statement": "Over any history of AddFile calls the items of a .bbclass file enter the stash at most once.", "quantifier": "every file system, every history of AddFile calls", "why_tests_cant": "needs all inherit graphs and histories", "anchors": ["oelint_parser/cls_stash.py:Stash.AddFile"]}
{"id": "C39", "title": "Every loaded class is linked", "statement": "Each file is linked to every class it inherits and every file it includes, so that GetItemsFor(filename) after Finalize contains their items.", "quantifier": "every file system and history", "why_tests_cant": "fails only when a second file inherits an already loaded class", "anchors": ["oelint_parser/cls_stash.py:Stash.AddFile", "oelint_parser/cls_stash.py:Stash.Finalize"]}
{"id": "C40", "title": "Re-adding and retrying", "statement": "Adding an already seen .bbappend or .bbclass changes nothing and returns []; adding a file again after a failed attempt parses it.", "quantifier": "every history including failures", "why_tests_cant": "needs a failure in the middle of a history", "anchors": ["oelint_parser/cls_stash.py:Stash.AddFile"]}
{"id": "C41", "title": "bbappend matching is order independent", "statement": "Whether a .bbappend is linked to a .bb depends on their names only, not on which of the two is added first; a .bbappend with the same stem as the .bb (or with % for a suffix) is linked.", "quantifier": "every pair of file names, both orders", "why_tests_cant": "the two orders run different regular expressions built from the file name", "anchors": ["oelint_parser/cls_stash.py:Stash.AddFile"]}
{"id": "C42", "title": "bbappend items come after the recipe", "statement": "When the name of a .bbappend matches that of a .bb, each of its items has a Line greater than every item of the recipe, whichever of the two files is added first.", "quantifier": "every pair of files, both orders", "why_tests_cant": "line arithmetic for all files", "anchors": ["oelint_parser/cls_stash.py:Stash.AddFile"]}
{"id": "C43", "title": "Line order is reading order", "statement": "Ordering the items of a recipe and its includes by Line gives the order in which bitbake reads them.", "quantifier": "every include structure", "why_tests_cant": "needs two includes or nested includes of particular lengths", "anchors": ["oelint_parser/parser.py:get_items"]}
{"id": "C44", "title": "Finalize closes the links", "statement": "After Finalize, a file is linked to exactly the files reachable from it over include/inherit/bbappend links, and to itself.", "quantifier": "every link map in every insertion order", "why_tests_cant": "order dependent single pass; needs particular shapes", "anchors": ["oelint_parser/cls_stash.py:Stash.Finalize"]}
{"id": "C45", "title": "IncludedFrom", "statement": "After Finalize every item linked to a file k has all files linked to k in IncludedFrom, and IncludedFrom never shrinks.", "quantifier": "every state and history", "why_tests_cant": "all link graphs", "anchors": ["oelint_parser/cls_stash.py:Stash.Finalize", "oelint_parser/cls_item.py:Item.IncludedFrom"]}
{"id": "C46", "title": "File lists", "statement": "GetRecipes, GetLoneAppends, GetConfFiles and GetBBClasses return exactly the .bb files added, the .bbappend files with items that no .bb links to, and the .conf/.bbclass origins, without duplicates.", "quantifier": "every state", "why_tests_cant": "all states", "anchors": ["oelint_parser/cls_stash.py:Stash.GetRecipes", "oelint_parser/cls_stash.py:Stash.GetLoneAppends", "oelint_parser/cls_stash.py:Stash.GetConfFiles", "oelint_parser/cls_stash.py:Stash.GetBBClasses"]}
{"id": "C47", "title": "Adding a file terminates", "statement": "AddFile terminates for every file system, including files that include each other.", "quantifier": "every file system", "why_tests_cant": "cyclic include graphs", "anchors": ["oelint_parser/cls_stash.py:Stash.AddFile", "oelint_parser/parser.py:get_items"]}
{"id": "C48", "title": "Fingerprint identifies the content", "statement": "FingerPrint is a function of the two flags and of the sequence of items added with AddFile; Append, Remove, Finalize and queries do not change it.", "quantifier": "every history", "why_tests_cant": "all histories", "anchors": ["oelint_parser/cls_stash.py:Stash.FingerPrint", "oelint_parser/cls_stash.py:Stash.AddFile"]}
{"id": "C49", "title": "Variable expansion terminates", "statement": "ExpandTerm terminates for every stash and every value, including cyclic variable definitions.", "quantifier": "every stash, value, spare and seen list", "why_tests_cant": "cyclic definitions of any length", "anchors": ["oelint_parser/cls_stash.py:Stash.ExpandTerm"]}
{"id": "C50", "title": "Expansion leaves the rest alone", "statement": "A value with no reference is returned unchanged; references in the value to unknown variables and to names in spare stay as written (text pulled in through another reference is expanded without spare).", "quantifier": "every value, every stash", "why_tests_cant": "all values", "anchors": ["oelint_parser/cls_stash.py:Stash.ExpandTerm"]}
{"id": "C51", "title": "Expansion substitutes", "statement": "A reference ${NAME} to a variable that the file (or a linked file) assigns is replaced, when its definition does not refer back to itself, by the expansion of its first assignment; otherwise by the base set, otherwise PN, BPN, PV, FILE and THISDIR come from the file name.", "quantifier": "every file name, every stash, every surrounding text", "why_tests_cant": "all texts", "anchors": ["oelint_parser/cls_stash.py:Stash.ExpandTerm"]}
{"id": "C52", "title": "ExpandVar follows the operators", "statement": "For each variable the immediate operators =, :=, ?=, ??=, +=, =+, .=, =. act in Line order on the previous value as bitbake defines them.", "quantifier": "every sequence of assignments", "why_tests_cant": "all sequences of operators", "anchors": ["oelint_parser/cls_stash.py:Stash.ExpandVar"]}
{"id": "C53", "title": "ExpandVar applies overrides last", "statement": "append, prepend and remove are applied after all immediate operators, in Line order, remove last; remove deletes whole items.", "quantifier": "every sequence of assignments", "why_tests_cant": "all sequences", "anchors": ["oelint_parser/cls_stash.py:Stash.ExpandVar"]}
{"id": "C54", "title": "unset in ExpandVar", "statement": "An unset without flag discards everything assigned before it; an unset of a flag changes nothing.", "quantifier": "every sequence of assignments and unsets", "why_tests_cant": "all sequences", "anchors": ["oelint_parser/cls_stash.py:Stash.ExpandVar"]}
{"id": "C55", "title": "Operator spelling does not matter", "statement": "ExpandVar gives the same value for A=\"1\" and A = \"1\", whatever blanks surround the operator.", "quantifier": "every amount of white space around every operator", "why_tests_cant": "all spellings", "anchors": ["oelint_parser/cls_stash.py:Stash.ExpandVar", "oelint_parser/parser.py:__regex_var"]}
{"id": "C56", "title": "Recipe name and version from the file name", "statement": "For DIR/NAME_VERSION.EXT GuessRecipeName is NAME and GuessRecipeVersion is VERSION; without '_' the version is None.", "quantifier": "every directory, name, version and extension", "why_tests_cant": "all names", "anchors": ["oelint_parser/cls_stash.py:Stash.GuessRecipeName", "oelint_parser/cls_stash.py:Stash.GuessRecipeVersion"]}
{"id": "C57", "title": "Base name", "statement": "GuessBaseRecipeName strips leading nativesdk- prefixes, then one trailing -native, then one trailing -cross, each as long as something is left.", "quantifier": "every name", "why_tests_cant": "all names; three backtracking patterns", "anchors": ["oelint_parser/cls_stash.py:Stash.GuessBaseRecipeName"]}
{"id": "C58", "title": "SRC_URI options", "statement": "GetScrComponents returns for url;k1=v1;...;kn=vn exactly the options given (last one wins) and the src without them.", "quantifier": "every url, every list of options", "why_tests_cant": "lists of any length", "anchors": ["oelint_parser/cls_stash.py:Stash.GetScrComponents"]}
{"id": "C59", "title": "Layer lookup", "statement": "FindLocalOrLayer prefers the local directory, otherwise the nearest enclosing layer root, and returns '' otherwise; GetLayerRoot returns the nearest enclosing layer root; both terminate.", "quantifier": "every file system and path", "why_tests_cant": "all directory trees; termination", "anchors": ["oelint_parser/cls_stash.py:Stash.FindLocalOrLayer", "oelint_parser/cls_stash.py:Stash.GetLayerRoot"]}
{"id": "C60", "title": "Package names", "statement": "GetValidPackageNames returns exactly PN and its standard sub-packages in both spellings, and every word of PACKAGES and PACKAGE_BEFORE_PN of the file and its linked files after ExpandTerm (sparing PN) with ${PN} replaced by both spellings (removed with strippn).", "quantifier": "every stash and file", "why_tests_cant": "all states", "anchors": ["oelint_parser/cls_stash.py:Stash.GetValidPackageNames"]}
{"id": "C61", "title": "Dynamic packages", "statement": "IsDynamicPackage(f, n) is true only if some pattern written in PACKAGES_DYNAMIC matches n.", "quantifier": "every stash, file and name", "why_tests_cant": "an empty word in the value acts as a pattern", "anchors": ["oelint_parser/cls_stash.py:Stash.IsDynamicPackage", "oelint_parser/cls_stash.py:Stash.GetPackagesDynamic"]}
{"id": "C62", "title": "Images and package groups", "statement": "IsImage/IsPackageGroup are true exactly if a linked item inherits a known class or sets a known variable (the list of known variables holds no empty name).", "quantifier": "every stash and file", "why_tests_cant": "all states", "anchors": ["oelint_parser/cls_stash.py:Stash.IsImage", "oelint_parser/cls_stash.py:Stash.IsPackageGroup"]}
{"id": "C63", "title": "Regular expression time-outs are contained", "statement": "A pattern that exceeds the time limit never raises out of RegexRpl; the default is returned.", "quantifier": "every pattern, text and time-out behaviour of the engine", "why_tests_cant": "time-outs are not reproducible in tests", "anchors": ["oelint_parser/rpl_regex.py:RegexRpl"]}
{"id": "C64", "title": "Attribute constants name attributes", "statement": "For every item class each ATTR_ constant is a key of GetAttributes of its items, so filtering by it can find them.", "quantifier": "every item class and item", "why_tests_cant": "the claim ranges over every item of every class, not over the few a test builds", "anchors": ["oelint_parser/cls_item.py:Item.GetAttributes", "oelint_parser/cls_item.py:FunctionExports"]}
{"id": "C65", "title": "Inline d.getVar becomes a reference", "statement": "An inline block that is a call of d.getVar for a quoted variable name, with or without the expand argument, is replaced by the reference ${NAME}.", "quantifier": "every variable name, every amount of blanks", "why_tests_cant": "all names; the pattern is lazy and takes the text up to the closing parenthesis", "anchors": ["oelint_parser/inlinerep.py:d_getvar", "oelint_parser/inlinerep.py:inlinerep"]}
{"id": "C66", "title": "Named resources", "statement": "GetValidNamedResources(f) returns exactly the recipe name and the values of the option name of the entries of SRC_URI of f and its linked files, with ${PN} replaced by the recipe name.", "quantifier": "every stash and file, every list of entries", "why_tests_cant": "all states", "anchors": ["oelint_parser/cls_stash.py:Stash.GetValidNamedResources", "oelint_parser/cls_stash.py:Stash.GetScrComponents"]}
{"id": "C67", "title": "Flag assignments parse to what was written", "statement": "A line NAME[FLAG] OP VALUE yields a FlagAssignment with that name, flag, operator and value; its items are these four with the quotes around the value removed.", "quantifier": "every name, flag, operator, amount of blanks and value", "why_tests_cant": "all texts; fifteen other patterns are tried as well and flags with characters like '+' are rare", "anchors": ["oelint_parser/parser.py:__regex_flagass", "oelint_parser/parser.py:get_items", "oelint_parser/cls_item.py:FlagAssignment"]}
{"id": "C68", "title": "Exports parse to what was written", "statement": "A line export NAME = VALUE yields an Export with that name and value, a line export NAME one with an empty value.", "quantifier": "every name, value and amount of blanks", "why_tests_cant": "all texts; the pattern has two greedy parts", "anchors": ["oelint_parser/parser.py:__regex_export_wval", "oelint_parser/parser.py:__regex_export_woval", "oelint_parser/cls_item.py:Export"]}
{"id": "C69", "title": "Python functions are recognised", "statement": "def NAME(...): yields a PythonBlock with that name, and its items are its lines.", "quantifier": "every name and every text behind it", "why_tests_cant": "all names; tests use small letters", "anchors": ["oelint_parser/parser.py:__regex_python", "oelint_parser/cls_item.py:PythonBlock"]}
{"id": "C70", "title": "Functions parse to what was written", "statement": "A function definition, with any of the words python and fakeroot in front of it, yields a Function with exactly these flags, FuncNameComplete equal to the name, FuncBody the text between the braces, and IsAppend exactly if append or prepend is among the overrides of the name; anonymous functions keep their name (none or __anonymous) and have no overrides.", "quantifier": "every name, body and choice of flags", "why_tests_cant": "all names and bodies; names that start with a flag word are rare in tests", "anchors": ["oelint_parser/parser.py:__regex_func", "oelint_parser/cls_item.py:Function"]}
{"id": "C71", "title": "FuncBodyRaw is the body without its indentation", "statement": "FuncBodyRaw is the text between the braces with the longest common indentation of its lines removed and lines of blanks emptied; the items of a function are the lines of that text.", "quantifier": "every name and body", "why_tests_cant": "all bodies", "anchors": ["oelint_parser/cls_item.py:Function.__init__", "oelint_parser/cls_item.py:Function.get_items"]}
{"id": "C72", "title": "Includes parse to what was written", "statement": "include NAME and require NAME yield an Include with that name and statement, unless the name is to be ignored.", "quantifier": "every name", "why_tests_cant": "all names; names with '+' are rare in tests", "anchors": ["oelint_parser/parser.py:__regex_include", "oelint_parser/cls_item.py:Include"]}
{"id": "C73", "title": "Inherits parse to what was written", "statement": "inherit NAMES, inherit_defer NAMES and assignments of quoted NAMES to INHERIT yield an Inherit with that statement and these names; its items are the words of NAMES.", "quantifier": "every text of the names, every operator", "why_tests_cant": "all texts", "anchors": ["oelint_parser/parser.py:__regex_inherit", "oelint_parser/parser.py:__regex_inherit_glob", "oelint_parser/cls_item.py:Inherit"]}
{"id": "C74", "title": "Function exports, include_all, addfragments parse to what was written", "statement": "EXPORT_FUNCTIONS NAMES, include_all FILE and addfragments A B C yield items with exactly these names; get_items_unaliased puts the name of the class in front of each function.", "quantifier": "every name", "why_tests_cant": "all texts", "anchors": ["oelint_parser/parser.py:__regex_export_func", "oelint_parser/parser.py:__regex_includeall", "oelint_parser/parser.py:__regex_addfragments", "oelint_parser/cls_item.py:FunctionExports"]}
{"id": "C75", "title": "addpylib parses to what was written", "statement": "addpylib PATH NAMESPACE with a path below ${LAYERDIR} yields an AddPylib with that path and namespace, however many blanks are between them.", "quantifier": "every path, namespace and amount of blanks", "why_tests_cant": "all texts", "anchors": ["oelint_parser/parser.py:__regex_addpylib", "oelint_parser/cls_item.py:AddPylib"]}
{"id": "C76", "title": "A recipe reads back as the statements it was written from", "statement": "For a file whose groups of lines are statements (blank lines, comments, assignments, flags, addtask, deltask, export, functions, python functions, EXPORT_FUNCTIONS, include_all, addfragments, addpylib, inherit, INHERIT), AddFile returns one item per statement, in order, and each has the documented CLASSIFIER, the attributes and the get_items of what was written.", "quantifier": "every list of statements, every name, value and amount of blanks in them", "why_tests_cant": "lists of any length and all texts; every statement is tried against seventeen patterns in order", "anchors": ["oelint_parser/parser.py:get_items", "oelint_parser/parser.py:prepare_lines", "oelint_parser/cls_item.py:Item.GetAttributes", "oelint_parser/cls_stash.py:Stash.AddFile"]}
{"id": "C77", "title": "The documented constants read what was put there", "statement": "Each of the documented properties of Constants (FunctionsKnown, FunctionsOrder, MirrorsKnown, VariablesKnown, DistrosKnown, MachinesKnown, ImagesClasses, ImagesVariables, SetsBase, ClassIgnore, IncludeIgnore) returns the value at its documented path; AddConstants appends to it, RemoveConstants removes from it, OverrideConstants replaces it, and no other property changes.", "quantifier": "every data base, every property, every list of entries", "why_tests_cant": "all data bases; a wrong path shows only if two properties are compared", "anchors": ["oelint_parser/constants.py:Constants"]}
{"id": "C78", "title": "The names of a layer become known", "statement": "AddDistroMachineFromLayer, and so AddFile, adds exactly the names of conf/distro/*.conf and conf/machine/*.conf of the layer of the file to the known distros and machines; nothing that was known is lost, whatever files are added, and no other constant changes.", "quantifier": "every layer, every tree of files, every data base", "why_tests_cant": "all file systems, nested loading, failing calls", "anchors": ["oelint_parser/cls_stash.py:Stash.AddDistroMachineFromLayer", "oelint_parser/cls_stash.py:Stash.AddFile"]}
{"id": "C79", "title": "No item is lost", "statement": "After any calls of AddFile, Remove and Finalize, GetItemsFor() returns every item exactly once: AddFile adds one item per statement to what was returned before (also for equal statements), a failing AddFile loses nothing, Remove takes out exactly the given items.", "quantifier": "every sequence of calls, every text, every order in which sets are iterated", "why_tests_cant": "queries go through sets, so that equal items would be merged; all texts", "anchors": ["oelint_parser/cls_stash.py:Stash.GetItemsFor", "oelint_parser/cls_stash.py:Stash.Reduce", "oelint_parser/cls_stash.py:Stash.AddFile", "oelint_parser/cls_stash.py:Stash.Remove"]}
{"id": "C80", "title": "IsMultiLine tells whether an assignment takes several lines", "statement": "For every variable item of a file, IsMultiLine() is true exactly if its text (RealRaw) takes more than one line of the file.", "quantifier": "every text", "why_tests_cant": "all texts; blanks behind the backslash, escape sequences and inline python are rare in tests", "anchors": ["oelint_parser/cls_item.py:Variable.IsMultiLine", "oelint_parser/parser.py:prepare_lines"]}
{"id": "C81", "title": "Links of a file", "statement": "GetLinksForFile(f) lists exactly the other files that f is linked to and that have items, each of them once.", "quantifier": "every stash and file", "why_tests_cant": "all states", "anchors": ["oelint_parser/cls_stash.py:Stash.GetLinksForFile"]}
{"id": "C82", "title": "Files next to SRC_URI", "statement": "GetFiles(f, pattern) returns, sorted and without duplicates, exactly the files matching DIR/*/pattern, where DIR is the directory of a file with a SRC_URI assignment that is f or linked to f, or of a file linked to such a file.", "quantifier": "every stash, file, pattern and file system", "why_tests_cant": "all states and file systems", "anchors": ["oelint_parser/cls_stash.py:Stash.GetFiles"]}
{"id": "C83", "title": "Expansion for a given variable", "statement": "ExpandTerm(f, value, objref=v) expands value with each placeholder for inline python replaced by the code of v in order; without placeholders objref makes no difference.", "quantifier": "every stash, file, value and variable", "why_tests_cant": "all values", "anchors": ["oelint_parser/cls_stash.py:Stash.ExpandTerm", "oelint_parser/cls_stash.py:Stash._ReverseInlineBlock"]}
{"id": "C84", "title": "Constants are loaded as written", "statement": "Constants(file) holds exactly the value that the JSON text of the file denotes (of several equal keys the last one counts, escapes are resolved, newlines are translated); any other text and a file that cannot be opened give an empty data base.", "quantifier": "every JSON text of dictionaries, lists of strings and strings, with any white space; every other text", "why_tests_cant": "infinitely many texts", "anchors": ["oelint_parser/constants.py:Constants.__init__", "oelint_parser/constants.py:Constants.__load_db"]}
{"id": "C85", "title": "The shipped constants are usable", "statement": "The data base shipped with the package loads without loss, every documented property returns a value of its documented type on it, and no calls on a stash that was created with it change that or any constant other than the known distros and machines.", "quantifier": "every documented property, every world, every sequence of calls", "why_tests_cant": "all sequences of calls", "anchors": ["oelint_parser/data/const-default.json", "oelint_parser/constants.py:Constants"]}
{"id": "C86", "title": "Standard names in expansions", "statement": "With the shipped constants and for a file DIR/NAME_VERSION.EXT, ExpandTerm turns ${P} into NAME-VERSION, ${BP} into the base name and the version, and ${PACKAGES} into the standard list of packages, unless these names are assigned; every text has exactly one full expansion if nothing is assigned; IsImage tells exactly whether one of the shipped classes is inherited or one of the shipped variables is set.", "quantifier": "every file name, every stash after any calls, every text", "why_tests_cant": "all names, states and texts", "anchors": ["oelint_parser/cls_stash.py:Stash.ExpandTerm", "oelint_parser/cls_stash.py:Stash.IsImage", "oelint_parser/data/const-default.json"]}
{"id": "C87", "title": "Returned collections belong to the caller", "statement": "Changing a list, set or dictionary that GetRecipes, GetLoneAppends, GetConfFiles, GetBBClasses, GetLinksForFile, GetFiles, GetScrComponents or one of the package queries returned changes nothing the user sees later: neither the answers of queries, the results of other calls, nor the items in the stash.", "quantifier": "every stash after any calls and queries, every change of the returned object, every later sequence of calls and queries", "why_tests_cant": "all interleavings of calls, queries and changes", "anchors": ["oelint_parser/cls_stash.py:Stash.GetRecipes", "oelint_parser/cls_stash.py:Stash.GetBBClasses", "oelint_parser/cls_stash.py:Stash.GetFiles"]}
{"id": "C88", "title": "Line ends do not matter", "statement": "Files that differ only in how their lines end (\\n, \\r\\n or \\r, mixed in any way) give the same results and exceptions of every call and query, in every sequence, and the same stash.", "quantifier": "every world, every sequence of calls and queries, every two ways to end the lines", "why_tests_cant": "all texts and sequences", "anchors": ["oelint_parser/parser.py:prepare_lines", "oelint_parser/cls_stash.py:Stash.AddFile", "oelint_parser/cls_stash.py:Stash.ExpandTerm"]}
{"id": "C89", "title": "negative_inline concerns inline python only", "statement": "If no file contains inline python, Stash(negative_inline=True) and Stash(negative_inline=False) give the same results and exceptions of every call and query. In any case both give statements with the same original text and line numbers, which depend on the text of the file only.", "quantifier": "every world, every sequence of calls and queries, every file", "why_tests_cant": "all texts and sequences", "anchors": ["oelint_parser/parser.py:prepare_lines", "oelint_parser/inlinerep.py:inlinerep", "oelint_parser/cls_stash.py:Stash.__init__"]}
{"id": "C90", "title": "Known distros and machines are output only", "statement": "Which distros and machines are known does not influence the result of any call or query; so a stash gives the same results whatever has been done before with other stashes that use the same constants.", "quantifier": "every usable data base, every world, every sequence of calls and queries, every history of other stashes", "why_tests_cant": "all sequences on several objects", "anchors": ["oelint_parser/cls_stash.py:Stash.AddDistroMachineFromLayer", "oelint_parser/constants.py:Constants.AddConstants", "oelint_parser/cls_stash.py:Stash.AddFile"]}
{"id": "C91", "title": "Results are reproducible", "statement": "The same calls on the same files give the same results in every run of the interpreter: nothing the user sees depends on the order in which sets are iterated.", "quantifier": "every world, stash, query, two orders of every set", "why_tests_cant": "every hash seed and address layout", "anchors": ["oelint_parser/cls_stash.py:Stash.GetItemsFor", "oelint_parser/cls_stash.py:Stash.ExpandTerm", "oelint_parser/cls_stash.py:Stash.GetConfFiles", "oelint_parser/cls_stash.py:Stash.AddFile", "oelint_parser/cls_stash.py:Stash.Finalize"]}
{"id": "C92", "title": "The items of a file depend on the file alone", "statement": "Adding a file returns the same items whatever has been added to the stash before, and whatever lineOffset and forcedLink are (apart from Line).", "quantifier": "every two histories of calls on stashes with the same settings, every file", "why_tests_cant": "all histories", "anchors": ["oelint_parser/cls_stash.py:Stash.AddFile", "oelint_parser/parser.py:get_items"]}
{"id": "C93", "title": "Assigning an attribute is seen by every later question", "statement": "After item.ATTRIBUTE = value (Line, Raw, RealRaw, IncludedFrom, VarValue, FuncBody) the item has the value, derived attributes follow, nothing else changes, and every later question is answered from the present attributes.", "quantifier": "every item and value, every sequence of calls, questions and assignments", "why_tests_cant": "all interleavings of calls, questions and assignments", "anchors": ["oelint_parser/cls_item.py:Item.Line", "oelint_parser/cls_item.py:Item.IncludedFrom", "oelint_parser/cls_item.py:Variable.VarValue", "oelint_parser/cls_item.py:Function.FuncBody", "oelint_parser/cls_stash.py:Stash.GetItemsFor", "oelint_parser/cls_stash.py:Stash.GetValidPackageNames"]}
{"id": "C94", "title": "The working directory does not matter", "statement": "Paths mean what they mean to the system: AddFile with a relative path does the same as with the absolute path it stands for, and a process that adds files by absolute paths gets the same results, answers and errors in every working directory.", "quantifier": "every path and working directory, every sequence of calls and questions, every state", "why_tests_cant": "all directories, all paths, all sequences of calls", "anchors": ["oelint_parser/cls_stash.py:Stash.AddFile", "oelint_parser/cls_stash.py:Stash.FindLocalOrLayer", "oelint_parser/cls_stash.py:Stash.ExpandTerm", "oelint_parser/parser.py:get_items"]}
{"id": "C95", "title": "Files that are not needed do not matter", "statement": "If everything a user does succeeds although some files cannot be opened, then everything gives the same results and answers whatever these files hold: results depend only on files that have to be opened.", "quantifier": "every set of files and contents, every sequence of calls and questions, every state", "why_tests_cant": "all contents of all other files", "anchors": ["oelint_parser/cls_stash.py:Stash.AddFile", "oelint_parser/cls_stash.py:Stash.ExpandTerm", "oelint_parser/cls_stash.py:Stash.ExpandVar", "oelint_parser/parser.py:prepare_lines"]}
{"id": "C96", "title": "Different contents have different fingerprints", "statement": "If two stashes, of one process or of two, have the same FingerPrint then they were created with the same flags and hold the same items: in the same order, of the same classes and with the same values of all attributes at the time they were added.", "quantifier": "every two stashes, worlds and histories of AddFile and Finalize, every text of the files (quotes, backslashes, control characters and text that looks like another item included)", "why_tests_cant": "an ambiguous text representation would need two specific stashes to be seen", "anchors": ["oelint_parser/cls_stash.py:Stash.FingerPrint", "oelint_parser/cls_stash.py:Stash.AddFile", "oelint_parser/cls_item.py:Item.__repr__", "oelint_parser/cls_item.py:Item.GetAttributes"]}
{"id": "C97", "title": "Line accounts for the loaded files", "statement": "After AddFile every item of the file has as Line its InFileLine plus the line offset the file was added with, plus, for every file loaded by an earlier statement of the same file, the InFileLine of the last item of that loaded file; items of a .bbappend are moved by one further number, the same for all. The same holds for the loaded files at any depth, with the InFileLine of the loading statement plus the offset of its file as offset. An include loads exactly one file unless it is not found; a file is only skipped if it is read just once.", "quantifier": "every file, offset, depth of includes and inherits and every history of calls", "why_tests_cant": "positions depend on all files that are loaded, in their order and at any depth", "anchors": ["oelint_parser/cls_stash.py:Stash.AddFile", "oelint_parser/parser.py:get_items"]}
{"id": "C98", "title": "What ExpandVar gives exactly", "statement": "ExpandVar gives for every variable the value that follows from its statements in the order of Line: PN, PV, BPN and the base set come first; assignments act as in bitbake, but ??= like ?=, a value with inline python replaces the value whatever the operator is, and an operator not written with one blank on each side does nothing; unset takes the variable away; then append and prepend, then remove, which deletes texts; a remove that comes first for a variable that is not there sets the text. Names and texts are expanded; names that become equal share one entry. The keys come in the order in which the variables come up. It raises nothing unless an expansion does. Without a file, all statements count and the file is the one of the first of them.", "quantifier": "every stash, file, filter and every set of statements, names with references, spellings and inline python included", "why_tests_cant": "all sets of statements and their orders", "anchors": ["oelint_parser/cls_stash.py:Stash.ExpandVar"]}
{"id": "C99", "title": "Progress output", "statement": "A stash made with quiet=True prints nothing. Otherwise a call of AddFile prints 'Parsing <absolute path>' first and then such lines for the files it loads - unless the file is neither a recipe nor an include nor a conf file and has been announced before: then it prints nothing, returns nothing and does nothing. No other call prints. Apart from recipes, includes and conf files no file is announced twice, and the file of every item has been announced. Apart from the output, quiet changes nothing: results, exceptions, fingerprint and every later answer are the same.", "quantifier": "every history of calls, succeeding or raising, from a new stash; for the last part every sequence of calls and questions on any stash", "why_tests_cant": "all histories of calls", "anchors": ["oelint_parser/cls_stash.py:Stash.AddFile", "oelint_parser/cls_stash.py:Stash.__init__"]}
{"id": "C100", "title": "Stashes of one process are independent", "statement": "A process may make several Stash objects and work with them in any order. All a user sees of one of them - what its calls return or raise and the answers to its questions - and what ends up in it is what it would be had the process made that stash only. What the stashes share are the constants, of which only the lists of known distros and machines change.", "quantifier": "every process that starts without stashes and makes and uses any number of them in any interleaving, with usable constants; for each stash", "why_tests_cant": "all interleavings of operations on several objects", "anchors": ["oelint_parser/cls_stash.py:Stash.__init__", "oelint_parser/cls_stash.py:Stash._clear_cached", "oelint_parser/cls_stash.py:Stash.Finalize"]}
{"id": "C101", "title": "Files that change while a stash is used", "statement": "What is in a stash does not change when files on the disk do: Append, Remove, Finalize and the questions about items, links and names give the same whatever happens to the disk. AddFile sees the files as they are when it is called, and after it every question is answered as if computed anew with the disk of now.", "quantifier": "every sequence of calls and questions, every change of the disk between any two of them", "why_tests_cant": "all interleavings of changes of files with calls on a long-lived object", "anchors": ["oelint_parser/cls_stash.py:Stash._clear_cached", "oelint_parser/cls_stash.py:Stash.AddFile", "oelint_parser/cls_stash.py:Stash.FindLocalOrLayer", "oelint_parser/cls_stash.py:Stash.GetLayerRoot", "oelint_parser/cls_stash.py:Stash.GetFiles"]}
{"id": "C102", "title": "Editing a statement changes the items of that statement only", "statement": "If a tool replaces the text (RealRaw) of some items of a file by other complete statements and the file is read again with the same settings, the items before the place say the same as before, the items behind it say the same with InFileLine shifted by the change in the number of lines, and in between are exactly the new statements - unless the edit changes whether the new override syntax is in use from there on.", "quantifier": "every file, every split of its statements, every replacement, every two histories of the stashes (names of loaded files refer only to variables that are not assigned, like PN and BPN)", "why_tests_cant": "unboundedly many files, edits and histories", "anchors": ["oelint_parser/parser.py:prepare_lines", "oelint_parser/parser.py:get_items", "oelint_parser/cls_stash.py:Stash.AddFile"]}
{"id": "C103", "title": "The kind of an item is decided by its own text", "statement": "Which class an item is of is decided by the text of the statement alone: the lines put together are compared with the list of statement forms in a fixed order, and the first form whose pattern, read as a regular expression, describes the beginning of the text gives the class; Item if there is none. The only exceptions are addtask of package scripts and an include of an ignored file, which fall through to the following forms. Two statements with the same text are of the same class, wherever they stand.", "quantifier": "every file, state, configuration and statement; every text and pattern for the meaning of patterns", "why_tests_cant": "unboundedly many texts; what a regular expression describes is a set of texts, not a sample", "anchors": ["oelint_parser/parser.py:get_items"]}
{"id": "C104", "title": "The order of AddFile calls does not matter", "statement": "Adding the same files to a stash in a different order gives the same items - each as often -, the same known distros and machines and the same progress lines, up to their order and up to Line.", "quantifier": "every file system, every stash reached by any calls, every two orders of the same files (paths may be spelled differently), any lineOffset and forcedLink, calls that succeed", "why_tests_cant": "the number of orders grows with the factorial of the number of files, and files load each other in unboundedly many ways", "anchors": ["oelint_parser/cls_stash.py:AddFile", "oelint_parser/parser.py:get_items"]}
{"id": "C105", "title": "Files added later do not change what is known about a file", "statement": "After adding further files that are not loaded by a recipe and do not append to it, every question about the recipe - GetItemsFor, ExpandTerm, ExpandVar, GetFiles, package names, IsImage, ... - has the same answer as before.", "quantifier": "every file system, every stash, any further calls of AddFile (with any paths, offsets and forced links, successful or not), every file and every question about it", "why_tests_cant": "a test adds one or two neighbours; that no neighbour disturbs a recipe is about all of them", "anchors": ["oelint_parser/cls_stash.py:AddFile", "oelint_parser/cls_stash.py:GetItemsFor", "oelint_parser/cls_stash.py:ExpandVar"]}
{"id": "C106", "title": "Expanding twice is the same as expanding once", "statement": "ExpandTerm leaves no reference to a name it could have expanded, and applying ExpandTerm to its own result returns it unchanged.", "quantifier": "every file system, every stash (definitions may refer to each other in cycles), every file, text and list of spared names", "why_tests_cant": "a test expands a handful of texts; a reference left behind depends on how definitions nest, on cycles and on what was expanded before", "anchors": ["oelint_parser/cls_stash.py:ExpandTerm"]}
{"id": "C107", "title": "Comments, blank lines, functions and tasks change no value", "statement": "Adding, changing or removing comments, blank lines, functions, tasks or flags of a file changes neither the value of a variable nor any other answer about values and names: these depend on the assignments, the unset statements and the inherited classes, and on the order they stand in, not on their line numbers.", "quantifier": "every file and every edit of statements that assign and inherit nothing; every question about values and names on every disk", "why_tests_cant": "a test compares two versions of one file; whether a line number or a comment leaks into an answer depends on all queries and on how items of several files interleave", "anchors": ["oelint_parser/cls_stash.py:ExpandVar", "oelint_parser/cls_stash.py:ExpandTerm", "oelint_parser/cls_stash.py:GetItemsFor"]}
{"id": "C108", "title": "The last call decides about each constant", "statement": "After any sequence of AddConstants, RemoveConstants and OverrideConstants calls an element is in the list at a path if and only if the last call that says something about this element at this path puts it there, or no call does and it was there before; calls about other paths or elements do not matter, so the order of AddConstants calls does not matter for what the lists contain, and removing what was added gives it back.", "quantifier": "every sequence of calls with dictionaries of lists of any depth, every data base", "why_tests_cant": "a test runs one sequence of calls; lists kept by reference make the effect of a call depend on all earlier calls and on what their arguments share", "anchors": ["oelint_parser/constants.py:Constants.AddConstants", "oelint_parser/constants.py:Constants.RemoveConstants", "oelint_parser/constants.py:Constants.OverrideConstants"]}
{"id": "C109", "title": "Text is expanded piece by piece", "statement": "Expanding a text that is put together from two pieces gives the expansion of the first piece followed by the expansion of the second.", "quantifier": "every file system, every stash, every file, every two texts in which each `${` starts a reference, every list of spared names", "why_tests_cant": "a test expands a handful of texts; what is remembered while the first piece is expanded is used for the second one", "anchors": ["oelint_parser/cls_stash.py:ExpandTerm"]}
{"id": "C110", "title": "Only what a text refers to matters", "statement": "What ExpandTerm makes of a text depends only on the statements about the variables that the text refers to, directly or through what these variables stand for; all else in the stash may be different.", "quantifier": "every file system, every two stashes that agree on the statements about a set of names, every set of names that contains what its members' definitions refer to (cycles included), every file, text and list of spared names; every two versions of a file that differ in other statements", "why_tests_cant": "a test looks at a few stashes; the claim compares any two stashes that agree on some names", "anchors": ["oelint_parser/cls_stash.py:ExpandTerm", "oelint_parser/cls_stash.py:GetItemsFor"]}
{"id": "C111", "title": "Statements about other variables do not change a variable", "statement": "What ExpandVar gives for a variable depends only on the statements that assign, extend, reduce or unset it, and on what its text refers to; statements about other variables may be added, changed and removed.", "quantifier": "every file system, every two stashes that agree on the statements about the variable and on what its text refers to, every filter and file, variables whose names contain no references; every two versions of a file that differ in statements about other variables", "why_tests_cant": "a test has a few recipes; the values of all variables are computed in one dictionary in three passes, with `unset` between, so another statement could interfere anywhere", "anchors": ["oelint_parser/cls_stash.py:ExpandVar", "oelint_parser/cls_stash.py:ExpandTerm"]}
{"id": "C112", "title": "An assignment over several lines reads as on one line", "statement": "The value of an assignment, and the classes of an inherit, may be written over several lines, each but the last ending in a backslash: get_items() gives the words of the text with every backslash and newline taken out, as bitbake reads it, and name, modifiers and operator are those of the same statement on one line.", "quantifier": "every file, every name, operator and value, every way to break the lines", "why_tests_cant": "a test has a few recipes with their line breaks; the parser puts a control character where the backslash was and relies on a pattern to treat it as a blank", "anchors": ["oelint_parser/parser.py:113-187", "oelint_parser/cls_item.py:10", "oelint_parser/cls_item.py:165-166", "oelint_parser/cls_item.py:405-418"]}
{"id": "C113", "title": "Both spellings of overrides say the same", "statement": "A = .. with the overrides appended as A_o1_o2 and the same statement written A:o1:o2 give variables with the same name, modifiers, operator, value and items, and the same answers to every question about them (append, immediate, machine, distro, class). A file of assignments converted from one spelling to the other expands every text to the same, and ExpandVar gives the same items for every variable. (Names of capital letters; overrides that start with a lower case letter, a digit or a reference and contain neither _ nor :; the old file is read in the old syntax.)", "quantifier": "every file, every base name and list of overrides, every operator and value, every text to expand", "why_tests_cant": "a test converts one recipe; the claim is about every name, and the delimiter is guessed anew for each statement from the name and from what was read before", "anchors": ["oelint_parser/cls_item.py:183-239", "oelint_parser/cls_item.py:295-418", "oelint_parser/cls_stash.py:ExpandTerm", "oelint_parser/cls_stash.py:ExpandVar"]}
{"id": "C114", "title": "A reference stands for the value of the variable", "statement": "Asking for a variable and referring to it agree: the items that ExpandVar gives for A in a file are the items of what ExpandTerm makes of ${A} in the same file.", "quantifier": "every stash, file and variable", "why_tests_cant": "a test compares the two for one recipe with one assignment; the two functions select and combine statements in different ways", "anchors": ["oelint_parser/cls_stash.py:ExpandTerm", "oelint_parser/cls_stash.py:ExpandVar"]}
{"id": "C115", "title": "What a .bbappend says comes last", "statement": "After any calls of AddFile and Finalize in any order, the last statement of a .bbappend about a variable acts on what the recipe has made of it: for the recipe ExpandVar gives what the .bbappend assigns with = or :=, and with +=, =+, .=, =., append or prepend the value of the recipe with that text at its end or its beginning.", "quantifier": "every history of the stash, every recipe and .bbappend whose name fits, every variable the two files have statements about", "why_tests_cant": "a test adds one recipe and one .bbappend in one order; the result depends on links and line numbers that every later call may change", "anchors": ["oelint_parser/cls_stash.py:AddFile", "oelint_parser/cls_stash.py:ExpandVar", "oelint_parser/cls_stash.py:193-217"]}
{"id": "C116", "title": "The values of a recipe follow from its text", "statement": "A recipe of declarations BASE:o1:..:on OP \"text\", with comments, tasks, functions and other statements between them, is read into a fresh stash. ExpandVar then has an entry for exactly the variables that are given a value, and the entry holds the items of one text: the operators applied in the order of the file, what is prepended and appended around it, and every removed text taken out. Without references in the texts this is the final value, whatever the path, the disk and the settings of the stash are.", "quantifier": "every recipe of this form of any length, every variable, every path, every disk, every usable set of constants", "why_tests_cant": "a test has one recipe with one expected value; here the whole way from the characters of the file to the values is fixed for all recipes", "anchors": ["oelint_parser/cls_stash.py:AddFile", "oelint_parser/cls_stash.py:ExpandVar", "oelint_parser/parser.py:get_items", "oelint_parser/cls_item.py:Variable"]}
{"id": "C117", "title": "What the references of a recipe become follows from its text", "statement": "A recipe of declarations (as in C116) is read into a fresh stash. ExpandTerm for this recipe replaces each ${NAME} by what the declarations say: the text of the first declaration of NAME that neither extends it nor appends, prepends or removes, else the entry of the constants, else what the file name says, each with its own references replaced; an unknown ${NAME} stays. If no declaration depends on itself there is exactly one such text. The values ExpandVar gives are the texts of C116 with their references replaced this way.", "quantifier": "every recipe of this form of any length, every text, every depth of references, every path, every disk, every usable set of constants", "why_tests_cant": "references may be nested to any depth and in any order; a test fixes one recipe", "anchors": ["oelint_parser/cls_stash.py:ExpandTerm", "oelint_parser/cls_stash.py:ExpandVar", "oelint_parser/cls_stash.py:AddFile"]}
{"id": "C118", "title": "The values of a recipe and its .bbappend follow from the two texts", "statement": "A recipe and a .bbappend whose name fits, both made of declarations (as in C116), are added to a fresh stash, in either order. ExpandVar for the recipe gives the values that follow from the declarations of the recipe followed by those of the .bbappend, and ExpandTerm replaces references as these declarations say. Which file is added first does not matter.", "quantifier": "every such recipe and .bbappend of any length, both orders, every path, every disk, every usable set of constants, every variable, every text", "why_tests_cant": "the order of the calls, the lines of the items and the operators interact; a test fixes two files and one order", "anchors": ["oelint_parser/cls_stash.py:AddFile", "oelint_parser/cls_stash.py:ExpandVar", "oelint_parser/cls_stash.py:ExpandTerm", "oelint_parser/cls_stash.py:193-217"]}
{"id": "C119", "title": "Including a file is like writing its text in place of the line", "statement": "A recipe of declarations with one include or require of a file of declarations is read into a fresh stash. ExpandVar and ExpandTerm for the recipe give what follows from the declarations before the line, those of the included file and those after the line, in this order. On a disk where the recipe has the text of the file in place of the line, they give the same.", "quantifier": "every such recipe and file of any length, the line at any place, every path, every disk, every usable set of constants, every variable, every text", "why_tests_cant": "the offset of the lines depends on the length of the included file and on the place of the line; a test fixes both", "anchors": ["oelint_parser/cls_stash.py:AddFile", "oelint_parser/cls_stash.py:ExpandVar", "oelint_parser/cls_stash.py:ExpandTerm", "oelint_parser/cls_stash.py:FindLocalOrLayer", "oelint_parser/parser.py:431-447"]}
{"id": "C120", "title": "Inheriting a class is like writing its text in place of the line", "statement": "A recipe of declarations with one inherit or inherit_defer of one class, whose file consists of declarations, is read into a fresh stash. ExpandVar and ExpandTerm for the recipe give what follows from the declarations before the line, those of the class and those after the line, in this order. On a disk where the recipe has the text of the class in place of the line, they give the same.", "quantifier": "every such recipe and class of any length, the line at any place, every path, every disk, every usable set of constants, every variable, every text", "why_tests_cant": "where the class is found, the offset of the lines and the links between files interact; a test fixes two files", "anchors": ["oelint_parser/cls_stash.py:AddFile", "oelint_parser/cls_stash.py:ExpandVar", "oelint_parser/cls_stash.py:ExpandTerm", "oelint_parser/cls_stash.py:FindLocalOrLayer", "oelint_parser/parser.py:330-355"]}
{"id": "C121", "title": "The packages of a recipe follow from its text", "statement": "A recipe of declarations, alone, with one inherited class, with one included file or with its .bbappend, is read into a fresh stash, and no declaration depends on itself. GetValidPackageNames then succeeds and gives, each once, exactly the standard packages of the recipe and the words of all texts declared for PACKAGES and PACKAGE_BEFORE_PN, with the references replaced as the declarations say, for the name of the recipe and for ${PN}. GetPackagesDynamic succeeds and gives exactly what stands between the blanks of the texts declared for PACKAGES_DYNAMIC.", "quantifier": "every such recipe of any length, every path, every disk, every usable set of constants, every nesting of references, with and without the name of the recipe stripped", "why_tests_cant": "the reading of the file, the splitting of names and values, the expansion and the collecting of packages interact; a test fixes one recipe", "anchors": ["oelint_parser/cls_stash.py:AddFile", "oelint_parser/cls_stash.py:GetValidPackageNames", "oelint_parser/cls_stash.py:GetPackagesDynamic", "oelint_parser/cls_stash.py:ExpandTerm"]}
{"id": "C122", "title": "Whether a recipe is an image or a package group follows from its text", "statement": "A recipe of declarations, alone, with one inherited class, with one included file or with its .bbappend, is read into a fresh stash. IsImage is true exactly if the inherited class is one of the known classes of images or one of the declarations of the two files is for one of the known variables of images. IsPackageGroup is true exactly if the inherited class is packagegroup.", "quantifier": "every such recipe of any length, every path, every disk, every usable set of constants with any collection of known names", "why_tests_cant": "the splitting of names, the links between files and the constants interact; a test fixes one recipe and the constants", "anchors": ["oelint_parser/cls_stash.py:AddFile", "oelint_parser/cls_stash.py:IsImage", "oelint_parser/cls_stash.py:IsPackageGroup", "oelint_parser/parser.py:325-355"]}
{"id": "C123", "title": "The named sources of a recipe follow from its text", "statement": "A recipe of declarations, alone, with one inherited class, with one included file or with its .bbappend, is read into a fresh stash. GetValidNamedResources succeeds and gives exactly the name of the recipe and, for every source among the words declared for SRC_URI that has the option name, the last value of this option after the known mirrors are replaced, with ${PN} replaced by the name of the recipe.", "quantifier": "every such recipe of any length, every path, every disk, every usable set of constants, every set of mirrors, every behaviour of urlparse", "why_tests_cant": "the reading of the files, the splitting of the value into sources and of a source into options, and the mirrors interact; a test fixes one recipe", "anchors": ["oelint_parser/cls_stash.py:AddFile", "oelint_parser/cls_stash.py:GetValidNamedResources", "oelint_parser/cls_stash.py:GetScrComponents"]}
{"id": "C124", "title": "Asking for values raises for no contents of the files", "statement": "ExpandTerm, ExpandVar, GetValidPackageNames and GetPackagesDynamic return for every contents of the stash, every file, filter and text: also for references that are nested, unknown, cut off or depend on themselves, and for calls that read missing or forbidden files. IsDynamicPackage raises only if a pattern is not a regular expression. This holds after any calls of AddFile, Append, Remove and Finalize, also such that raised. If the preset variables in the constants are no dictionary of texts, ExpandVar raises for every file.", "quantifier": "every stash, every session, every text, every file, filter and disk, every usable set of constants", "why_tests_cant": "a test tries a few texts; the texts that make a recursive expansion fail are not known in advance", "anchors": ["oelint_parser/cls_stash.py:ExpandTerm", "oelint_parser/cls_stash.py:ExpandVar", "oelint_parser/cls_stash.py:GetValidPackageNames", "oelint_parser/cls_stash.py:GetPackagesDynamic", "oelint_parser/cls_stash.py:IsDynamicPackage"]}
{"id": "C125", "title": "A .bbappend acts after the recipe and all the recipe includes or inherits", "statement": "A recipe that includes one file or inherits one class of declarations is read into a fresh stash, then its .bbappend. ExpandVar and ExpandTerm for the recipe give what follows from the declarations before the line, those of the included file or class, those after the line and those of the .bbappend, in this order.", "quantifier": "every recipe, included file and .bbappend of declarations of any length, every position of the line, every disk, every usable set of constants", "why_tests_cant": "depends on the position of the include in the recipe and on the numbers of lines of all three files; the lines of the .bbappend are counted from the last line of the recipe alone", "anchors": ["oelint_parser/cls_stash.py:AddFile", "oelint_parser/cls_stash.py:ExpandVar", "oelint_parser/cls_stash.py:193-217"]}

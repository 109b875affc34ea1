# Generates /verif/properties.jsonl (kept in the repo so that the list is easy to edit).
import json
P=[]
def p(id,title,statement,quantifier,why,anchors): P.append(dict(id=id,title=title,statement=statement,quantifier=quantifier,why_tests_cant=why,anchors=anchors))
PA="oelint_parser/parser.py"; IT="oelint_parser/cls_item.py"; ST="oelint_parser/cls_stash.py"; CO="oelint_parser/constants.py"; IN="oelint_parser/inlinerep.py"; RX="oelint_parser/rpl_regex.py"
p("C01","Parsing is lossless","When a file parses, the RealRaw texts of the items returned for it, concatenated in order, are exactly the text of the file.","every file text (any length, any mix of statements, comments, functions, continuation lines)","a test fixes a handful of texts; the claim is about every text and every way its lines can be grouped",[PA+":prepare_lines",PA+":prepare_lines_subparser",PA+":get_items"])
p("C02","InFileLine is the physical line","InFileLine of every returned item is 1 plus the number of newlines of the file that precede its text; Line, for a file other than a .bbappend without include and inherit statements, is InFileLine plus the line offset the caller passed; both strictly increase along the file.","every file text and every line offset","needs every grouping of lines into items, not a sample",[PA+":prepare_lines",PA+":get_items",IT+":Item"])
p("C03","One item per chunk, right provenance","AddFile returns exactly one item per chunk of the file, in file order, each with Origin equal to the absolute path of the file; a file that does not exist yields no items.","every file text, every file system, every stash state","depends on all combinations of chunk kinds, including statements that load other files recursively",[PA+":get_items",ST+":Stash.AddFile"])
p("C04","Raw never contains inline python","Preprocessing of inline python terminates on every text, and the Raw of every item contains no '${@'.","every text, both values of negative_inline","a loop whose replacement text can itself contain '${@': termination and the final state must hold for every text",[PA+":prepare_lines_subparser",IN+":inlinerep"])
p("C05","Inline block scope","The text taken as an inline block is the shortest prefix whose closing braces exceed its opening braces (counting after the '${@'), or the whole remaining text when there is none.","every string, every offset","infinite domain of nested braces",[PA+":get_full_scope"])
p("C06","Text without inline python is untouched","If the text of a chunk contains no '${@', its item's Raw equals its RealRaw and InlineBlocks is empty; in general Raw is obtained from RealRaw by substituting the listed InlineBlocks in order, each replacing every occurrence.","every chunk text, both values of negative_inline","quantifies over all texts and all sequences of replacements",[PA+":prepare_lines_subparser"])
p("C07","Every text file can be added","AddFile does not raise on any readable text file.","every file text","the failing texts are a thin set (files that end inside a continuation or right after a function header) that samples miss",[PA+":prepare_lines_subparser",PA+":prepare_lines"])
p("C08","Chunk boundaries","A chunk is exactly: a first line ending in backslash-newline plus all following lines up to and including the first one that does not; or a run of lines starting with '#'; or a def line plus the following lines up to the next line starting with an ASCII letter, digit or '#'; or a function header plus lines up to the one whose closing braces outnumber the opening ones; or a single line.","every list of lines","all interleavings of the five grouping rules",[PA+":prepare_lines_subparser"])
p("C09","New override syntax is sticky","Once one item of a file uses the new override syntax (':' as delimiter), every later item of that file reports OverrideDelimiter ':'; with new_style_override_syntax=True every item does.","every file text and every position in it","history property along the whole file",[PA+":get_items",IT+":Item.extract_sub",IT+":Item.extract_sub_func"])
p("C10","Variable assignments parse to what was written","A line NAME OP \"VALUE\" with NAME of capital letters, digits and '_' in which every piece between '_' starts with a letter (not INHERIT or EXPORT_FUNCTIONS), OP one of the eight operators with any blanks around it and VALUE without newline, backslash, '${@', a quote at either end or text that looks like a function header '() {' yields one Variable with VarName NAME, that operator, and VarValueStripped VALUE.","every NAME, every operator, every VALUE","the line passes 16 other regular expressions first; each must be shown not to match for every name and value",[PA+":get_items",PA+":__regex_var",IT+":Variable"])
p("C11","Comments always win","A chunk whose first non-blank character is '#' becomes a Comment whatever follows the '#'.","every text after the '#'","the rest of the line can look like any other statement",[PA+":get_items",PA+":__regex_comments"])
p("C12","Includes and inherits load what exists","For an include/require (inherit) statement whose file (class) is found next to the file or in the layer, that file is parsed into the stash and reported in FileIncluded (FilePaths); ignored names are not parsed.","every file system, every name, every stash state","depends on file system and constants",[PA+":get_items",ST+":Stash.FindLocalOrLayer"])
p("C13","unset names the whole variable","The Unset item for a line 'unset NAME' has VarName NAME.","every variable name","tests only use one-letter names, for which the lazy regular expression happens to be right",[PA+":__regex_unset",PA+":get_items"])
p("C14","Inline branch selection","For each of the known helper calls with plain quoted arguments, the inline block is replaced by its true argument, or by its false argument (empty for filter and both_contain) when negative_inline is set.","every text of the arguments, both values of negative_inline, all eleven helpers","argument texts are unbounded and the patterns backtrack",[IN+":inlinerep",IN+":bb_utils_contains"])
p("C15","Unknown inline code becomes the placeholder","An inline block that names none of the known helpers is replaced by the fixed placeholder; the block text itself is kept in InlineBlocks.","every block text","quantifies over all python expressions",[IN+":inlinerep",PA+":prepare_lines_subparser"])
p("C16","Inline blocks can be restored","When ExpandVar or ExpandTerm puts inline blocks back into a value, the original text of the value reappears.","every value and every list of inline blocks","repeated, empty or overlapping replacement texts break it; they are hard to hit by chance",[ST+":Stash._ReverseInlineBlock"])
p("C17","Overrides split off","For a name BASE:o1:...:on (BASE without ':', each oi non-empty and starting with [a-z0-9{}$]) VarName is BASE, SubItems is [o1..on] and VarNameComplete is the name; OverrideDelimiter is ':'.","every BASE, every list of overrides","lists of any length, names of any content",[IT+":Item.extract_sub",IT+":Variable"])
p("C18","No piece of a name is lost","For every variable name, the non-empty pieces between delimiters are distributed, each keeping its text and relative order, between VarName and SubItems; a piece after the first goes to SubItems exactly if the first piece is not 'pkg' and the part of the piece before its first '-' starts with [a-z0-9{}$] (this includes the piece '${PN}').","every name, both syntaxes","all interleavings of upper- and lower-case pieces",[IT+":Item.extract_sub"])
p("C19","Function names recompose","FuncNameComplete of a function is the name it was defined with (up to empty pieces).","every function name and every set of known functions","fails only when the first modifier piece also occurs earlier in the name",[IT+":Item.extract_sub_func",IT+":Function"])
p("C20","Modifier predicates agree","IsAppend, AppendOperation, IsImmediateModify and VarNameCompleteNoModifiers of a variable agree: IsAppend iff AppendOperation lists something other than 'remove'; IsImmediateModify iff none of append/prepend/remove is a SubItem; VarNameCompleteNoModifiers is VarNameComplete without exactly those pieces.","every operator text, every list of overrides","cross-consistency of four functions over all inputs",[IT+":Variable.IsAppend",IT+":Variable.AppendOperation",IT+":Variable.IsImmediateModify",IT+":Variable.VarNameCompleteNoModifiers"])
p("C21","VarValueStripped removes exactly the quoting","VarValueStripped of blanks + '\"' + v + '\"' + blanks is v for every v not starting or ending in '\"'; it never starts or ends in '\"'.","every value","all whitespace and quote combinations",[IT+":Variable.VarValueStripped"])
p("C22","Value tokenisation","safe_linesplit returns, in order, the maximal runs of non-separator characters, all non-empty; joining tokens with blanks and splitting again gives the same tokens; no token contains a blank or a line-continuation mark.","every string","all strings; the continuation mark rule has a look-ahead special case",[IT+":Item.safe_linesplit",IT+":Variable.get_items"])
p("C23","Version constraints are dropped","get_items(versioned=True) removes every parenthesised constraint with the blanks before it and returns the names only.","every list of names and constraints","unbounded lists of names and version texts",[IT+":Variable.get_items"])
p("C24","Machine, distro and class entries","GetMachineEntry/GetClassOverride/GetDistroEntry return the first SubItem of their kind or '' exactly when there is none; for GetMachineEntry the kind is: none of the words append, prepend, remove, machine, class-native, class-cross, class-target (for variables also class-nativesdk).","every list of overrides, every set of known distros","all lists",[IT+":Variable.GetMachineEntry",IT+":Variable.GetClassOverride",IT+":Variable.GetDistroEntry",IT+":Function.GetMachineEntry"])
p("C25","Task and export lists","TaskAdd Before/After and FunctionExports items are exactly the blank-separated words; get_items_unaliased prefixes each with the class name.","every text","all texts",[IT+":TaskAdd",IT+":FunctionExports"])
p("C26","Addtask parses to what was written","A line 'addtask F before B.. after A..' (either clause optional, either order, names separated by blanks and not containing the words before/after, F not starting with pkg_preinst/pkg_postinst/pkg_prerm/pkg_postrm) yields a TaskAdd with exactly those names; deltask likewise.","every task name and every list of names in the clauses","the regular expression backtracks over both clauses",[PA+":__regex_addtask",PA+":__regex_deltask",PA+":get_items"])
p("C27","AddConstants adds and keeps","After AddConstants(d), every list of the database is its old value followed by the list d has at the same path (new paths get d's value) and nothing else changes.","every database, every dictionary of compatible shape, every path","arbitrarily nested dictionaries",[CO+":Constants.AddConstants",CO+":Constants.GetByPath"])
p("C28","RemoveConstants removes exactly","After RemoveConstants(d), every list of the database has lost exactly the entries d lists at the same path, in order, and nothing else changes.","every database, every dictionary of compatible shape, every path","arbitrarily nested dictionaries",[CO+":Constants.RemoveConstants"])
p("C29","OverrideConstants replaces exactly","After OverrideConstants(d), every non-dictionary path of d reads back d's value, all other paths except those below a replaced value are unchanged, and applying it twice is the same as once.","every database, every dictionary of compatible shape, every path","arbitrarily nested dictionaries",[CO+":Constants.OverrideConstants"])
p("C30","GetByPath","GetByPath walks the '/'-separated path, ignores trailing '/', and returns the empty dictionary when a key is missing; a path that goes on below a value that is no dictionary raises AttributeError.","every database and path","all nestings",[CO+":Constants.GetByPath"])
p("C31","Constants do not leak into caller data","AddConstants/OverrideConstants never change the dictionary the caller passed in, now or in later calls.","every sequence of calls","aliasing shows up only in particular call sequences",[CO+":Constants.AddConstants",CO+":Constants.OverrideConstants"])
p("C32","Filters are exact","Reduce/GetItemsFor return exactly the items that satisfy every given filter (linked to the file or from it; classifier in the list; one of the attributes present with one of the values); filters not given or empty do not restrict.","every list of items, every combination of filters, every link state","product of all filter combinations and states",[ST+":Stash.Reduce",ST+":Stash.GetItemsFor"])
p("C33","Results are sorted, unique and composable","The result of Reduce is ordered by Line and contains no item twice; reducing a result further equals, up to the order of items with the same Line, reducing once with both filters; reducing twice with the same filter changes nothing.","every list, every pair of filters, every iteration order of Python sets","set iteration order is not controllable in a test",[ST+":Stash.Reduce",ST+":Stash.StashList.reduce"])
p("C34","Caching is invisible","Each cached query returns what a fresh computation on the current stash would return, after any sequence of AddFile, Append, Remove, Finalize and queries.","every history of operations","staleness needs particular interleavings of queries and updates",[ST+":Stash._clear_cached",ST+":Stash.GetItemsFor",ST+":Stash.GetBBClasses",ST+":Stash.Finalize"])
p("C35","Queries do not change results","Asking a question never changes what later operations produce; in particular IncludedFrom after Finalize does not depend on queries made before it.","every history","interleavings of queries and Finalize",[ST+":Stash.Finalize",ST+":Stash.GetItemsFor"])
p("C36","Append and Remove","Append adds the given items at the end; Remove removes one occurrence of each given item and raises if one is missing; Remove undoes Append of items that were not present.","every stash state, every list of items","all histories",[ST+":Stash.Append",ST+":Stash.Remove"])
p("C37","StashList behaves like a list","append, insert, remove, extend, += and reduce on a result list have list semantics and do not touch the stash.","every list","all lists",[ST+":Stash.StashList"])
p("C38","A class is loaded at most once","Over any history of AddFile calls the items of a .bbclass file enter the stash at most once.","every file system, every history of AddFile calls","needs all inherit graphs and histories",[ST+":Stash.AddFile"])
p("C39","Every loaded class is linked","Each file is linked to every class it inherits and every file it includes, so that GetItemsFor(filename) after Finalize contains their items.","every file system and history","fails only when a second file inherits an already loaded class",[ST+":Stash.AddFile",ST+":Stash.Finalize"])
p("C40","Re-adding and retrying","Adding an already seen .bbappend or .bbclass changes nothing and returns []; adding a file again after a failed attempt parses it.","every history including failures","needs a failure in the middle of a history",[ST+":Stash.AddFile"])
p("C41","bbappend matching is order independent","Whether a .bbappend is linked to a .bb depends on their names only, not on which of the two is added first; a .bbappend with the same stem as the .bb (or with % for a suffix) is linked.","every pair of file names, both orders","the two orders run different regular expressions built from the file name",[ST+":Stash.AddFile"])
p("C42","bbappend items come after the recipe","When the name of a .bbappend matches that of a .bb, each of its items has a Line greater than every item of the recipe, whichever of the two files is added first.","every pair of files, both orders","line arithmetic for all files",[ST+":Stash.AddFile"])
p("C43","Line order is reading order","Ordering the items of a recipe and its includes by Line gives the order in which bitbake reads them.","every include structure","needs two includes or nested includes of particular lengths",[PA+":get_items"])
p("C44","Finalize closes the links","After Finalize, a file is linked to exactly the files reachable from it over include/inherit/bbappend links, and to itself.","every link map in every insertion order","order dependent single pass; needs particular shapes",[ST+":Stash.Finalize"])
p("C45","IncludedFrom","After Finalize every item linked to a file k has all files linked to k in IncludedFrom, and IncludedFrom never shrinks.","every state and history","all link graphs",[ST+":Stash.Finalize",IT+":Item.IncludedFrom"])
p("C46","File lists","GetRecipes, GetLoneAppends, GetConfFiles and GetBBClasses return exactly the .bb files added, the .bbappend files with items that no .bb links to, and the .conf/.bbclass origins, without duplicates.","every state","all states",[ST+":Stash.GetRecipes",ST+":Stash.GetLoneAppends",ST+":Stash.GetConfFiles",ST+":Stash.GetBBClasses"])
p("C47","Adding a file terminates","AddFile terminates for every file system, including files that include each other.","every file system","cyclic include graphs",[ST+":Stash.AddFile",PA+":get_items"])
p("C48","Fingerprint identifies the content","FingerPrint is a function of the two flags and of the sequence of items added with AddFile; Append, Remove, Finalize and queries do not change it.","every history","all histories",[ST+":Stash.FingerPrint",ST+":Stash.AddFile"])
p("C49","Variable expansion terminates","ExpandTerm terminates for every stash and every value, including cyclic variable definitions.","every stash, value, spare and seen list","cyclic definitions of any length",[ST+":Stash.ExpandTerm"])
p("C50","Expansion leaves the rest alone","A value with no reference is returned unchanged; references in the value to unknown variables and to names in spare stay as written (text pulled in through another reference is expanded without spare).","every value, every stash","all values",[ST+":Stash.ExpandTerm"])
p("C51","Expansion substitutes","A reference ${NAME} to a variable that the file (or a linked file) assigns is replaced, when its definition does not refer back to itself, by the expansion of its first assignment; otherwise by the base set, otherwise PN, BPN, PV, FILE and THISDIR come from the file name.","every file name, every stash, every surrounding text","all texts",[ST+":Stash.ExpandTerm"])
p("C52","ExpandVar follows the operators","For each variable the immediate operators =, :=, ?=, ??=, +=, =+, .=, =. act in Line order on the previous value as bitbake defines them.","every sequence of assignments","all sequences of operators",[ST+":Stash.ExpandVar"])
p("C53","ExpandVar applies overrides last","append, prepend and remove are applied after all immediate operators, in Line order, remove last; remove deletes whole items.","every sequence of assignments","all sequences",[ST+":Stash.ExpandVar"])
p("C54","unset in ExpandVar","An unset without flag discards everything assigned before it; an unset of a flag changes nothing.","every sequence of assignments and unsets","all sequences",[ST+":Stash.ExpandVar"])
p("C55","Operator spelling does not matter","ExpandVar gives the same value for A=\"1\" and A = \"1\", whatever blanks surround the operator.","every amount of white space around every operator","all spellings",[ST+":Stash.ExpandVar",PA+":__regex_var"])
p("C56","Recipe name and version from the file name","For DIR/NAME_VERSION.EXT GuessRecipeName is NAME and GuessRecipeVersion is VERSION; without '_' the version is None.","every directory, name, version and extension","all names",[ST+":Stash.GuessRecipeName",ST+":Stash.GuessRecipeVersion"])
p("C57","Base name","GuessBaseRecipeName strips leading nativesdk- prefixes, then one trailing -native, then one trailing -cross, each as long as something is left.","every name","all names; three backtracking patterns",[ST+":Stash.GuessBaseRecipeName"])
p("C58","SRC_URI options","GetScrComponents returns for url;k1=v1;...;kn=vn exactly the options given (last one wins) and the src without them.","every url, every list of options","lists of any length",[ST+":Stash.GetScrComponents"])
p("C59","Layer lookup","FindLocalOrLayer prefers the local directory, otherwise the nearest enclosing layer root, and returns '' otherwise; GetLayerRoot returns the nearest enclosing layer root; both terminate.","every file system and path","all directory trees; termination",[ST+":Stash.FindLocalOrLayer",ST+":Stash.GetLayerRoot"])
p("C60","Package names","GetValidPackageNames returns exactly PN and its standard sub-packages in both spellings, and every word of PACKAGES and PACKAGE_BEFORE_PN of the file and its linked files after ExpandTerm (sparing PN) with ${PN} replaced by both spellings (removed with strippn).","every stash and file","all states",[ST+":Stash.GetValidPackageNames"])
p("C61","Dynamic packages","IsDynamicPackage(f, n) is true only if some pattern written in PACKAGES_DYNAMIC matches n.","every stash, file and name","an empty word in the value acts as a pattern",[ST+":Stash.IsDynamicPackage",ST+":Stash.GetPackagesDynamic"])
p("C62","Images and package groups","IsImage/IsPackageGroup are true exactly if a linked item inherits a known class or sets a known variable (the list of known variables holds no empty name).","every stash and file","all states",[ST+":Stash.IsImage",ST+":Stash.IsPackageGroup"])
p("C63","Regular expression time-outs are contained","A pattern that exceeds the time limit never raises out of RegexRpl; the default is returned.","every pattern, text and time-out behaviour of the engine","time-outs are not reproducible in tests",[RX+":RegexRpl"])
p("C64","Attribute constants name attributes","For every item class each ATTR_ constant is a key of GetAttributes of its items, so filtering by it can find them.","every item class and item","",[IT+":Item.GetAttributes",IT+":FunctionExports"])
P[-1]["why_tests_cant"]="the claim ranges over every item of every class, not over the few a test builds"
p("C65","Inline d.getVar becomes a reference","An inline block that is a call of d.getVar for a quoted variable name, with or without the expand argument, is replaced by the reference ${NAME}.","every variable name, every amount of blanks","all names; the pattern is lazy and takes the text up to the closing parenthesis",[IN+":d_getvar",IN+":inlinerep"])
p("C66","Named resources","GetValidNamedResources(f) returns exactly the recipe name and the values of the option name of the entries of SRC_URI of f and its linked files, with ${PN} replaced by the recipe name.","every stash and file, every list of entries","all states",[ST+":Stash.GetValidNamedResources",ST+":Stash.GetScrComponents"])
p("C67","Flag assignments parse to what was written","A line NAME[FLAG] OP VALUE yields a FlagAssignment with that name, flag, operator and value; its items are these four with the quotes around the value removed.","every name, flag, operator, amount of blanks and value","all texts; fifteen other patterns are tried as well and flags with characters like '+' are rare",[PA+":__regex_flagass",PA+":get_items",IT+":FlagAssignment"])
p("C68","Exports parse to what was written","A line export NAME = VALUE yields an Export with that name and value, a line export NAME one with an empty value.","every name, value and amount of blanks","all texts; the pattern has two greedy parts",[PA+":__regex_export_wval",PA+":__regex_export_woval",IT+":Export"])
p("C69","Python functions are recognised","def NAME(...): yields a PythonBlock with that name, and its items are its lines.","every name and every text behind it","all names; tests use small letters",[PA+":__regex_python",IT+":PythonBlock"])
p("C70","Functions parse to what was written","A function definition, with any of the words python and fakeroot in front of it, yields a Function with exactly these flags, FuncNameComplete equal to the name, FuncBody the text between the braces, and IsAppend exactly if append or prepend is among the overrides of the name; anonymous functions keep their name (none or __anonymous) and have no overrides.","every name, body and choice of flags","all names and bodies; names that start with a flag word are rare in tests",[PA+":__regex_func",IT+":Function"])
p("C71","FuncBodyRaw is the body without its indentation","FuncBodyRaw is the text between the braces with the longest common indentation of its lines removed and lines of blanks emptied; the items of a function are the lines of that text.","every name and body","all bodies",[IT+":Function.__init__",IT+":Function.get_items"])
p("C72","Includes parse to what was written","include NAME and require NAME yield an Include with that name and statement, unless the name is to be ignored.","every name","all names; names with '+' are rare in tests",[PA+":__regex_include",IT+":Include"])
p("C73","Inherits parse to what was written","inherit NAMES, inherit_defer NAMES and assignments of quoted NAMES to INHERIT yield an Inherit with that statement and these names; its items are the words of NAMES.","every text of the names, every operator","all texts",[PA+":__regex_inherit",PA+":__regex_inherit_glob",IT+":Inherit"])
p("C74","Function exports, include_all, addfragments parse to what was written","EXPORT_FUNCTIONS NAMES, include_all FILE and addfragments A B C yield items with exactly these names; get_items_unaliased puts the name of the class in front of each function.","every name","all texts",[PA+":__regex_export_func",PA+":__regex_includeall",PA+":__regex_addfragments",IT+":FunctionExports"])
p("C75","addpylib parses to what was written","addpylib PATH NAMESPACE with a path below ${LAYERDIR} yields an AddPylib with that path and namespace, however many blanks are between them.","every path, namespace and amount of blanks","all texts",[PA+":__regex_addpylib",IT+":AddPylib"])
p("C76","A recipe reads back as the statements it was written from","For a file whose groups of lines are statements (blank lines, comments, assignments, flags, addtask, deltask, export, functions, python functions, EXPORT_FUNCTIONS, include_all, addfragments, addpylib, inherit, INHERIT), AddFile returns one item per statement, in order, and each has the documented CLASSIFIER, the attributes and the get_items of what was written.","every list of statements, every name, value and amount of blanks in them","lists of any length and all texts; every statement is tried against seventeen patterns in order",[PA+":get_items",PA+":prepare_lines",IT+":Item.GetAttributes",ST+":Stash.AddFile"])
p("C77","The documented constants read what was put there","Each of the documented properties of Constants (FunctionsKnown, FunctionsOrder, MirrorsKnown, VariablesKnown, DistrosKnown, MachinesKnown, ImagesClasses, ImagesVariables, SetsBase, ClassIgnore, IncludeIgnore) returns the value at its documented path; AddConstants appends to it, RemoveConstants removes from it, OverrideConstants replaces it, and no other property changes.","every data base, every property, every list of entries","all data bases; a wrong path shows only if two properties are compared",["oelint_parser/constants.py:Constants"])
p("C78","The names of a layer become known","AddDistroMachineFromLayer, and so AddFile, adds exactly the names of conf/distro/*.conf and conf/machine/*.conf of the layer of the file to the known distros and machines; nothing that was known is lost, whatever files are added, and no other constant changes.","every layer, every tree of files, every data base","all file systems, nested loading, failing calls",[ST+":Stash.AddDistroMachineFromLayer",ST+":Stash.AddFile"])
p("C79","No item is lost","After any calls of AddFile, Remove and Finalize, GetItemsFor() returns every item exactly once: AddFile adds one item per statement to what was returned before (also for equal statements), a failing AddFile loses nothing, Remove takes out exactly the given items.","every sequence of calls, every text, every order in which sets are iterated","queries go through sets, so that equal items would be merged; all texts",[ST+":Stash.GetItemsFor",ST+":Stash.Reduce",ST+":Stash.AddFile",ST+":Stash.Remove"])
p("C80","IsMultiLine tells whether an assignment takes several lines","For every variable item of a file, IsMultiLine() is true exactly if its text (RealRaw) takes more than one line of the file.","every text","all texts; blanks behind the backslash, escape sequences and inline python are rare in tests",[IT+":Variable.IsMultiLine",PA+":prepare_lines"])
p("C81","Links of a file","GetLinksForFile(f) lists exactly the other files that f is linked to and that have items, each of them once.","every stash and file","all states",[ST+":Stash.GetLinksForFile"])
p("C82","Files next to SRC_URI","GetFiles(f, pattern) returns, sorted and without duplicates, exactly the files matching DIR/*/pattern, where DIR is the directory of a file with a SRC_URI assignment that is f or linked to f, or of a file linked to such a file.","every stash, file, pattern and file system","all states and file systems",[ST+":Stash.GetFiles"])
p("C83","Expansion for a given variable","ExpandTerm(f, value, objref=v) expands value with each placeholder for inline python replaced by the code of v in order; without placeholders objref makes no difference.","every stash, file, value and variable","all values",[ST+":Stash.ExpandTerm",ST+":Stash._ReverseInlineBlock"])
p("C84","Constants are loaded as written","Constants(file) holds exactly the value that the JSON text of the file denotes (of several equal keys the last one counts, escapes are resolved, newlines are translated); any other text and a file that cannot be opened give an empty data base.","every JSON text of dictionaries, lists of strings and strings, with any white space; every other text","infinitely many texts",["oelint_parser/constants.py:Constants.__init__","oelint_parser/constants.py:Constants.__load_db"])
p("C85","The shipped constants are usable","The data base shipped with the package loads without loss, every documented property returns a value of its documented type on it, and no calls on a stash that was created with it change that or any constant other than the known distros and machines.","every documented property, every world, every sequence of calls","all sequences of calls",["oelint_parser/data/const-default.json","oelint_parser/constants.py:Constants"])
p("C86","Standard names in expansions","With the shipped constants and for a file DIR/NAME_VERSION.EXT, ExpandTerm turns ${P} into NAME-VERSION, ${BP} into the base name and the version, and ${PACKAGES} into the standard list of packages, unless these names are assigned; every text has exactly one full expansion if nothing is assigned; IsImage tells exactly whether one of the shipped classes is inherited or one of the shipped variables is set.","every file name, every stash after any calls, every text","all names, states and texts",[ST+":Stash.ExpandTerm",ST+":Stash.IsImage","oelint_parser/data/const-default.json"])
p("C87","Returned collections belong to the caller","Changing a list, set or dictionary that GetRecipes, GetLoneAppends, GetConfFiles, GetBBClasses, GetLinksForFile, GetFiles, GetScrComponents or one of the package queries returned changes nothing the user sees later: neither the answers of queries, the results of other calls, nor the items in the stash.","every stash after any calls and queries, every change of the returned object, every later sequence of calls and queries","all interleavings of calls, queries and changes",[ST+":Stash.GetRecipes",ST+":Stash.GetBBClasses",ST+":Stash.GetFiles"])
p("C88","Line ends do not matter","Files that differ only in how their lines end (\\n, \\r\\n or \\r, mixed in any way) give the same results and exceptions of every call and query, in every sequence, and the same stash.","every world, every sequence of calls and queries, every two ways to end the lines","all texts and sequences",["oelint_parser/parser.py:prepare_lines",ST+":Stash.AddFile",ST+":Stash.ExpandTerm"])
p("C89","negative_inline concerns inline python only","If no file contains inline python, Stash(negative_inline=True) and Stash(negative_inline=False) give the same results and exceptions of every call and query. In any case both give statements with the same original text and line numbers, which depend on the text of the file only.","every world, every sequence of calls and queries, every file","all texts and sequences",["oelint_parser/parser.py:prepare_lines","oelint_parser/inlinerep.py:inlinerep",ST+":Stash.__init__"])
p("C90","Known distros and machines are output only","Which distros and machines are known does not influence the result of any call or query; so a stash gives the same results whatever has been done before with other stashes that use the same constants.","every usable data base, every world, every sequence of calls and queries, every history of other stashes","all sequences on several objects",[ST+":Stash.AddDistroMachineFromLayer","oelint_parser/constants.py:Constants.AddConstants",ST+":Stash.AddFile"])
p("C91","Results are reproducible","The same calls on the same files give the same results in every run of the interpreter: nothing the user sees depends on the order in which sets are iterated.","every world, stash, query, two orders of every set","every hash seed and address layout",[ST+":Stash.GetItemsFor",ST+":Stash.ExpandTerm",ST+":Stash.GetConfFiles",ST+":Stash.AddFile",ST+":Stash.Finalize"])
p("C92","The items of a file depend on the file alone","Adding a file returns the same items whatever has been added to the stash before, and whatever lineOffset and forcedLink are (apart from Line).","every two histories of calls on stashes with the same settings, every file","all histories",[ST+":Stash.AddFile","oelint_parser/parser.py:get_items"])
p("C93","Assigning an attribute is seen by every later question","After item.ATTRIBUTE = value (Line, Raw, RealRaw, IncludedFrom, VarValue, FuncBody) the item has the value, derived attributes follow, nothing else changes, and every later question is answered from the present attributes.","every item and value, every sequence of calls, questions and assignments","all interleavings of calls, questions and assignments",["oelint_parser/cls_item.py:Item.Line","oelint_parser/cls_item.py:Item.IncludedFrom","oelint_parser/cls_item.py:Variable.VarValue","oelint_parser/cls_item.py:Function.FuncBody",ST+":Stash.GetItemsFor",ST+":Stash.GetValidPackageNames"])
p("C94","The working directory does not matter","Paths mean what they mean to the system: AddFile with a relative path does the same as with the absolute path it stands for, and a process that adds files by absolute paths gets the same results, answers and errors in every working directory.","every path and working directory, every sequence of calls and questions, every state","all directories, all paths, all sequences of calls",[ST+":Stash.AddFile",ST+":Stash.FindLocalOrLayer",ST+":Stash.ExpandTerm","oelint_parser/parser.py:get_items"])
p("C95","Files that are not needed do not matter","If everything a user does succeeds although some files cannot be opened, then everything gives the same results and answers whatever these files hold: results depend only on files that have to be opened.","every set of files and contents, every sequence of calls and questions, every state","all contents of all other files",[ST+":Stash.AddFile",ST+":Stash.ExpandTerm",ST+":Stash.ExpandVar","oelint_parser/parser.py:prepare_lines"])
p("C96","Different contents have different fingerprints","If two stashes, of one process or of two, have the same FingerPrint then they were created with the same flags and hold the same items: in the same order, of the same classes and with the same values of all attributes at the time they were added.","every two stashes, worlds and histories of AddFile and Finalize, every text of the files (quotes, backslashes, control characters and text that looks like another item included)","an ambiguous text representation would need two specific stashes to be seen",[ST+":Stash.FingerPrint",ST+":Stash.AddFile","oelint_parser/cls_item.py:Item.__repr__","oelint_parser/cls_item.py:Item.GetAttributes"])
p("C97","Line accounts for the loaded files","After AddFile every item of the file has as Line its InFileLine plus the line offset the file was added with, plus, for every file loaded by an earlier statement of the same file, the InFileLine of the last item of that loaded file; items of a .bbappend are moved by one further number, the same for all. The same holds for the loaded files at any depth, with the InFileLine of the loading statement plus the offset of its file as offset. An include loads exactly one file unless it is not found; a file is only skipped if it is read just once.","every file, offset, depth of includes and inherits and every history of calls","positions depend on all files that are loaded, in their order and at any depth",[ST+":Stash.AddFile","oelint_parser/parser.py:get_items"])
p("C98","What ExpandVar gives exactly","ExpandVar gives for every variable the value that follows from its statements in the order of Line: PN, PV, BPN and the base set come first; assignments act as in bitbake, but ??= like ?=, a value with inline python replaces the value whatever the operator is, and an operator not written with one blank on each side does nothing; unset takes the variable away; then append and prepend, then remove, which deletes texts; a remove that comes first for a variable that is not there sets the text. Names and texts are expanded; names that become equal share one entry. The keys come in the order in which the variables come up. It raises nothing unless an expansion does. Without a file, all statements count and the file is the one of the first of them.","every stash, file, filter and every set of statements, names with references, spellings and inline python included","all sets of statements and their orders",[ST+":Stash.ExpandVar"])
p("C99","Progress output","A stash made with quiet=True prints nothing. Otherwise a call of AddFile prints 'Parsing <absolute path>' first and then such lines for the files it loads - unless the file is neither a recipe nor an include nor a conf file and has been announced before: then it prints nothing, returns nothing and does nothing. No other call prints. Apart from recipes, includes and conf files no file is announced twice, and the file of every item has been announced. Apart from the output, quiet changes nothing: results, exceptions, fingerprint and every later answer are the same.","every history of calls, succeeding or raising, from a new stash; for the last part every sequence of calls and questions on any stash","all histories of calls",[ST+":Stash.AddFile",ST+":Stash.__init__"])
p("C100","Stashes of one process are independent","A process may make several Stash objects and work with them in any order. All a user sees of one of them - what its calls return or raise and the answers to its questions - and what ends up in it is what it would be had the process made that stash only. What the stashes share are the constants, of which only the lists of known distros and machines change.","every process that starts without stashes and makes and uses any number of them in any interleaving, with usable constants; for each stash","all interleavings of operations on several objects",[ST+":Stash.__init__",ST+":Stash._clear_cached",ST+":Stash.Finalize"])
p("C101","Files that change while a stash is used","What is in a stash does not change when files on the disk do: Append, Remove, Finalize and the questions about items, links and names give the same whatever happens to the disk. AddFile sees the files as they are when it is called, and after it every question is answered as if computed anew with the disk of now.","every sequence of calls and questions, every change of the disk between any two of them","all interleavings of changes of files with calls on a long-lived object",[ST+":Stash._clear_cached",ST+":Stash.AddFile",ST+":Stash.FindLocalOrLayer",ST+":Stash.GetLayerRoot",ST+":Stash.GetFiles"])
p("C102","Editing a statement changes the items of that statement only","If a tool replaces the text (RealRaw) of some items of a file by other complete statements and the file is read again with the same settings, the items before the place say the same as before, the items behind it say the same with InFileLine shifted by the change in the number of lines, and in between are exactly the new statements - unless the edit changes whether the new override syntax is in use from there on.","every file, every split of its statements, every replacement, every two histories of the stashes (names of loaded files refer only to variables that are not assigned, like PN and BPN)","unboundedly many files, edits and histories",["oelint_parser/parser.py:prepare_lines","oelint_parser/parser.py:get_items",ST+":Stash.AddFile"])
p("C103","The kind of an item is decided by its own text","Which class an item is of is decided by the text of the statement alone: the lines put together are compared with the list of statement forms in a fixed order, and the first form whose pattern, read as a regular expression, describes the beginning of the text gives the class; Item if there is none. The only exceptions are addtask of package scripts and an include of an ignored file, which fall through to the following forms. Two statements with the same text are of the same class, wherever they stand.","every file, state, configuration and statement; every text and pattern for the meaning of patterns","unboundedly many texts; what a regular expression describes is a set of texts, not a sample",["oelint_parser/parser.py:get_items"])
p("C104","The order of AddFile calls does not matter","Adding the same files to a stash in a different order gives the same items - each as often -, the same known distros and machines and the same progress lines, up to their order and up to Line.","every file system, every stash reached by any calls, every two orders of the same files (paths may be spelled differently), any lineOffset and forcedLink, calls that succeed","the number of orders grows with the factorial of the number of files, and files load each other in unboundedly many ways",[ST+":AddFile","oelint_parser/parser.py:get_items"])
p("C105","Files added later do not change what is known about a file","After adding further files that are not loaded by a recipe and do not append to it, every question about the recipe - GetItemsFor, ExpandTerm, ExpandVar, GetFiles, package names, IsImage, ... - has the same answer as before.","every file system, every stash, any further calls of AddFile (with any paths, offsets and forced links, successful or not), every file and every question about it","a test adds one or two neighbours; that no neighbour disturbs a recipe is about all of them",[ST+":AddFile",ST+":GetItemsFor",ST+":ExpandVar"])
p("C106","Expanding twice is the same as expanding once","ExpandTerm leaves no reference to a name it could have expanded, and applying ExpandTerm to its own result returns it unchanged.","every file system, every stash (definitions may refer to each other in cycles), every file, text and list of spared names","a test expands a handful of texts; a reference left behind depends on how definitions nest, on cycles and on what was expanded before",[ST+":ExpandTerm"])
p("C107","Comments, blank lines, functions and tasks change no value","Adding, changing or removing comments, blank lines, functions, tasks or flags of a file changes neither the value of a variable nor any other answer about values and names: these depend on the assignments, the unset statements and the inherited classes, and on the order they stand in, not on their line numbers.","every file and every edit of statements that assign and inherit nothing; every question about values and names on every disk","a test compares two versions of one file; whether a line number or a comment leaks into an answer depends on all queries and on how items of several files interleave",[ST+":ExpandVar",ST+":ExpandTerm",ST+":GetItemsFor"])
p("C108","The last call decides about each constant","After any sequence of AddConstants, RemoveConstants and OverrideConstants calls an element is in the list at a path if and only if the last call that says something about this element at this path puts it there, or no call does and it was there before; calls about other paths or elements do not matter, so the order of AddConstants calls does not matter for what the lists contain, and removing what was added gives it back.","every sequence of calls with dictionaries of lists of any depth, every data base","a test runs one sequence of calls; lists kept by reference make the effect of a call depend on all earlier calls and on what their arguments share",[CO+":Constants.AddConstants",CO+":Constants.RemoveConstants",CO+":Constants.OverrideConstants"])
p("C109","Text is expanded piece by piece","Expanding a text that is put together from two pieces gives the expansion of the first piece followed by the expansion of the second.","every file system, every stash, every file, every two texts in which each `${` starts a reference, every list of spared names","a test expands a handful of texts; what is remembered while the first piece is expanded is used for the second one",[ST+":ExpandTerm"])
p("C110","Only what a text refers to matters","What ExpandTerm makes of a text depends only on the statements about the variables that the text refers to, directly or through what these variables stand for; all else in the stash may be different.","every file system, every two stashes that agree on the statements about a set of names, every set of names that contains what its members' definitions refer to (cycles included), every file, text and list of spared names; every two versions of a file that differ in other statements","a test looks at a few stashes; the claim compares any two stashes that agree on some names",[ST+":ExpandTerm",ST+":GetItemsFor"])
p("C111","Statements about other variables do not change a variable","What ExpandVar gives for a variable depends only on the statements that assign, extend, reduce or unset it, and on what its text refers to; statements about other variables may be added, changed and removed.","every file system, every two stashes that agree on the statements about the variable and on what its text refers to, every filter and file, variables whose names contain no references; every two versions of a file that differ in statements about other variables","a test has a few recipes; the values of all variables are computed in one dictionary in three passes, with `unset` between, so another statement could interfere anywhere",[ST+":ExpandVar",ST+":ExpandTerm"])
p("C112","An assignment over several lines reads as on one line","The value of an assignment, and the classes of an inherit, may be written over several lines, each but the last ending in a backslash: get_items() gives the words of the text with every backslash and newline taken out, as bitbake reads it, and name, modifiers and operator are those of the same statement on one line.","every file, every name, operator and value, every way to break the lines","a test has a few recipes with their line breaks; the parser puts a control character where the backslash was and relies on a pattern to treat it as a blank",["oelint_parser/parser.py:113-187","oelint_parser/cls_item.py:10","oelint_parser/cls_item.py:165-166","oelint_parser/cls_item.py:405-418"])
p("C113","Both spellings of overrides say the same","A = .. with the overrides appended as A_o1_o2 and the same statement written A:o1:o2 give variables with the same name, modifiers, operator, value and items, and the same answers to every question about them (append, immediate, machine, distro, class). A file of assignments converted from one spelling to the other expands every text to the same, and ExpandVar gives the same items for every variable. (Names of capital letters; overrides that start with a lower case letter, a digit or a reference and contain neither _ nor :; the old file is read in the old syntax.)","every file, every base name and list of overrides, every operator and value, every text to expand","a test converts one recipe; the claim is about every name, and the delimiter is guessed anew for each statement from the name and from what was read before",["oelint_parser/cls_item.py:183-239","oelint_parser/cls_item.py:295-418",ST+":ExpandTerm",ST+":ExpandVar"])
p("C114","A reference stands for the value of the variable","Asking for a variable and referring to it agree: the items that ExpandVar gives for A in a file are the items of what ExpandTerm makes of ${A} in the same file.","every stash, file and variable","a test compares the two for one recipe with one assignment; the two functions select and combine statements in different ways",[ST+":ExpandTerm",ST+":ExpandVar"])
p("C115","What a .bbappend says comes last","After any calls of AddFile and Finalize in any order, the last statement of a .bbappend about a variable acts on what the recipe has made of it: for the recipe ExpandVar gives what the .bbappend assigns with = or :=, and with +=, =+, .=, =., append or prepend the value of the recipe with that text at its end or its beginning.","every history of the stash, every recipe and .bbappend whose name fits, every variable the two files have statements about","a test adds one recipe and one .bbappend in one order; the result depends on links and line numbers that every later call may change",[ST+":AddFile",ST+":ExpandVar","oelint_parser/cls_stash.py:193-217"])
p("C116","The values of a recipe follow from its text","A recipe of declarations BASE:o1:..:on OP \"text\", with comments, tasks, functions and other statements between them, is read into a fresh stash. ExpandVar then has an entry for exactly the variables that are given a value, and the entry holds the items of one text: the operators applied in the order of the file, what is prepended and appended around it, and every removed text taken out. Without references in the texts this is the final value, whatever the path, the disk and the settings of the stash are.","every recipe of this form of any length, every variable, every path, every disk, every usable set of constants","a test has one recipe with one expected value; here the whole way from the characters of the file to the values is fixed for all recipes",[ST+":AddFile",ST+":ExpandVar","oelint_parser/parser.py:get_items","oelint_parser/cls_item.py:Variable"])
p("C117","What the references of a recipe become follows from its text","A recipe of declarations (as in C116) is read into a fresh stash. ExpandTerm for this recipe replaces each ${NAME} by what the declarations say: the text of the first declaration of NAME that neither extends it nor appends, prepends or removes, else the entry of the constants, else what the file name says, each with its own references replaced; an unknown ${NAME} stays. If no declaration depends on itself there is exactly one such text. The values ExpandVar gives are the texts of C116 with their references replaced this way.","every recipe of this form of any length, every text, every depth of references, every path, every disk, every usable set of constants","references may be nested to any depth and in any order; a test fixes one recipe",[ST+":ExpandTerm",ST+":ExpandVar",ST+":AddFile"])
p("C118","The values of a recipe and its .bbappend follow from the two texts","A recipe and a .bbappend whose name fits, both made of declarations (as in C116), are added to a fresh stash, in either order. ExpandVar for the recipe gives the values that follow from the declarations of the recipe followed by those of the .bbappend, and ExpandTerm replaces references as these declarations say. Which file is added first does not matter.","every such recipe and .bbappend of any length, both orders, every path, every disk, every usable set of constants, every variable, every text","the order of the calls, the lines of the items and the operators interact; a test fixes two files and one order",[ST+":AddFile",ST+":ExpandVar",ST+":ExpandTerm","oelint_parser/cls_stash.py:193-217"])
p("C119","Including a file is like writing its text in place of the line","A recipe of declarations with one include or require of a file of declarations is read into a fresh stash. ExpandVar and ExpandTerm for the recipe give what follows from the declarations before the line, those of the included file and those after the line, in this order. On a disk where the recipe has the text of the file in place of the line, they give the same.","every such recipe and file of any length, the line at any place, every path, every disk, every usable set of constants, every variable, every text","the offset of the lines depends on the length of the included file and on the place of the line; a test fixes both",[ST+":AddFile",ST+":ExpandVar",ST+":ExpandTerm",ST+":FindLocalOrLayer","oelint_parser/parser.py:431-447"])
p("C120","Inheriting a class is like writing its text in place of the line","A recipe of declarations with one inherit or inherit_defer of one class, whose file consists of declarations, is read into a fresh stash. ExpandVar and ExpandTerm for the recipe give what follows from the declarations before the line, those of the class and those after the line, in this order. On a disk where the recipe has the text of the class in place of the line, they give the same.","every such recipe and class of any length, the line at any place, every path, every disk, every usable set of constants, every variable, every text","where the class is found, the offset of the lines and the links between files interact; a test fixes two files",[ST+":AddFile",ST+":ExpandVar",ST+":ExpandTerm",ST+":FindLocalOrLayer","oelint_parser/parser.py:330-355"])
p("C121","The packages of a recipe follow from its text","A recipe of declarations, alone, with one inherited class, with one included file or with its .bbappend, is read into a fresh stash, and no declaration depends on itself. GetValidPackageNames then succeeds and gives, each once, exactly the standard packages of the recipe and the words of all texts declared for PACKAGES and PACKAGE_BEFORE_PN, with the references replaced as the declarations say, for the name of the recipe and for ${PN}. GetPackagesDynamic succeeds and gives exactly what stands between the blanks of the texts declared for PACKAGES_DYNAMIC.","every such recipe of any length, every path, every disk, every usable set of constants, every nesting of references, with and without the name of the recipe stripped","the reading of the file, the splitting of names and values, the expansion and the collecting of packages interact; a test fixes one recipe",[ST+":AddFile",ST+":GetValidPackageNames",ST+":GetPackagesDynamic",ST+":ExpandTerm"])
p("C122","Whether a recipe is an image or a package group follows from its text","A recipe of declarations, alone, with one inherited class, with one included file or with its .bbappend, is read into a fresh stash. IsImage is true exactly if the inherited class is one of the known classes of images or one of the declarations of the two files is for one of the known variables of images. IsPackageGroup is true exactly if the inherited class is packagegroup.","every such recipe of any length, every path, every disk, every usable set of constants with any collection of known names","the splitting of names, the links between files and the constants interact; a test fixes one recipe and the constants",[ST+":AddFile",ST+":IsImage",ST+":IsPackageGroup","oelint_parser/parser.py:325-355"])
p("C123","The named sources of a recipe follow from its text","A recipe of declarations, alone, with one inherited class, with one included file or with its .bbappend, is read into a fresh stash. GetValidNamedResources succeeds and gives exactly the name of the recipe and, for every source among the words declared for SRC_URI that has the option name, the last value of this option after the known mirrors are replaced, with ${PN} replaced by the name of the recipe.","every such recipe of any length, every path, every disk, every usable set of constants, every set of mirrors, every behaviour of urlparse","the reading of the files, the splitting of the value into sources and of a source into options, and the mirrors interact; a test fixes one recipe",[ST+":AddFile",ST+":GetValidNamedResources",ST+":GetScrComponents"])
p("C124","Asking for values raises for no contents of the files","ExpandTerm, ExpandVar, GetValidPackageNames and GetPackagesDynamic return for every contents of the stash, every file, filter and text: also for references that are nested, unknown, cut off or depend on themselves, and for calls that read missing or forbidden files. IsDynamicPackage raises only if a pattern is not a regular expression. This holds after any calls of AddFile, Append, Remove and Finalize, also such that raised. If the preset variables in the constants are no dictionary of texts, ExpandVar raises for every file.","every stash, every session, every text, every file, filter and disk, every usable set of constants","a test tries a few texts; the texts that make a recursive expansion fail are not known in advance",[ST+":ExpandTerm",ST+":ExpandVar",ST+":GetValidPackageNames",ST+":GetPackagesDynamic",ST+":IsDynamicPackage"])
p("C125","A .bbappend acts after the recipe and all the recipe includes or inherits","A recipe that includes one file or inherits one class of declarations is read into a fresh stash, then its .bbappend. ExpandVar and ExpandTerm for the recipe give what follows from the declarations before the line, those of the included file or class, those after the line and those of the .bbappend, in this order.","every recipe, included file and .bbappend of declarations of any length, every position of the line, every disk, every usable set of constants","depends on the position of the include in the recipe and on the numbers of lines of all three files; the lines of the .bbappend are counted from the last line of the recipe alone",[ST+":AddFile",ST+":ExpandVar","oelint_parser/cls_stash.py:193-217"])
open('/verif/properties.jsonl','w').write("".join(json.dumps(x)+"\n" for x in P))
print(len(P))

# A Lean 4 model of oelint-parser

(The plan table was written before the proofs. The table of results is generated from MANIFEST.json by tools/gen_design.py.)

## Approach

Everything is written as total, computable Lean functions over `List Char` (Python `str`), `Nat`/`Int`,
association lists (Python `dict`, insertion ordered) and plain structures. Exceptions are values.

* `Verif/Model/Str.lean` – the Python `str` and `os.path` functions the code calls.
* `Verif/Model/Regex.lean` – a backtracking regular-expression semantics (list of successes in priority order)
  covering everything the patterns of the code base use: classes, greedy/lazy/possessive loops, groups,
  look-ahead, anchors; plus a parser for pattern texts, so that the *verbatim* pattern strings of the sources are
  the input of the model and patterns built at run time from file names are modelled as well.
* `Verif/Model/Patterns.lean` – the patterns of the code base (generated by tools/gen_patterns.py) with, for each, a
  kernel-checked proof that the verbatim source text parses to the syntax tree used.
* `Verif/Model/Inlinerep.lean`, `Constants.lean`, `Item.lean`, `Chunks.lean`, `Stash.lean`, `Parser.lean`,
  `ExpandTerm.lean`, `StashOps.lean`, `RegexRpl.lean` – one module per part of the code, function by function. Every definition
  cites the lines it models and says where it simplifies.
* `Verif/Model/Cache.lean` – the stash again, with the `functools.cache` tables as part of the state (C34, C35).
* `Verif/Model/ConstHeap.lean` – the constants again, on a heap of objects with identities (C31).
* `Verif/Spec/*.lean` – small independent specifications used in theorem statements.
* `Verif/Props/*.lean` – the property theorems, with an `example` beside each one that its hypotheses are met.
* `Verif/Lemmas/*.lean` – helper lemmas.

Nondeterminism of the runtime that is observable (iteration order of Python sets) is a parameter of the model with
only the permutation law assumed; theorems quantify over it. The file system is a parameter (`World`).

## Trusted base

* Lean's kernel (4.33.0). No axioms are added, there is no `sorry`, `native_decide` or `bv_decide`. `decide +kernel` is evaluated by
  the kernel. AXIOMS.md (tools/gen_axioms.py) lists for each claimed theorem the axioms it depends on; they are at most `propext`,
  `Classical.choice` and `Quot.sound`.
* That the model says what the code does. The code was read, not run. COVERAGE.md (tools/gen_coverage.py) lists for each function of
  `/repo/oelint_parser` the definitions that model it. The correspondence of the patterns is checked further: their texts
  are copied from the sources by a script and parsed inside Lean.
* That the semantics of the Python functions in `Model/Str.lean` (`split`, `strip`, `replace`, `find`, `os.path.*`,
  `textwrap.dedent`) and of the module `regex` in `Model/Regex.lean` is right for the inputs that occur. Whether a pattern matches does
  not depend on the matching strategy of the model: C103_match and C103_search prove the matcher sound and complete for the declarative
  meaning in `Spec/Regex.lean`. Which of several possible matches is taken (greedy and lazy repetition, leftmost alternative) is
  trusted to be that of Python.
* That the statements in `Verif/Props` and `Verif/Spec` express the English of properties.jsonl.

### What is modelled

All functions of `parser.py`, `inlinerep.py`, `rpl_regex.py`, `cls_item.py`, `cls_stash.py` and `constants.py` except the ones below,
see COVERAGE.md.

### What is not modelled, or modelled in a simplified way

* `hashlib.sha1` is a parameter (`World.sha1`): C48 and C96 are about the data that is hashed. `repr` of built-in types is modelled
  (`Model/Repr.lean`); which characters beyond ASCII are printable is a parameter (`World.printable`).
* `Constants.__init__` and `Constants.__load_db`: the data base is an arbitrary JSON tree. Lists in it hold strings.
* Type hints, documentation strings; the progress output of `AddFile` is modelled as the list of the lines printed (`Stash.printed`).
* `urllib.parse.urlparse` is a parameter (`World.urlparse`).
* The file system does not change while one call runs; between calls it may (C101). `open` gives a text, "not found", "no permission" or another error.
  Decoding of bytes is not modelled; translation of newlines is.
* Unicode: which characters above ASCII count as `\w` is a parameter (class `Uni`); `\s`, `str.strip` and `str.isspace` use the fixed
  Unicode list.
* The time limit of `RegexRpl` is a parameter of `Model/RegexRpl.lean` (C63); elsewhere patterns are evaluated without a limit.
* Patterns made at run time from file names may use syntax that `Model/Regex.lean` does not cover (back references, `\p{..}`, …);
  compiling them is an error value in the model.
* Recursion: CPython's recursion limit is not modelled. `AddFile` and `ExpandTerm` run with a depth as argument; theorems hold for
  every depth, C47 and C49 say which depth is enough.
* Objects: an item is a value with an identity number; two items are equal in the model exactly if they are the same object.
  Lists returned to the caller are values; callers who change what a question returned are the subject of C87 only.
* Caches of functions that depend on their arguments only (`SafeLineSplit`, `Guess*`) are left out. Those of `GetLayerRoot` and
  `FindLocalOrLayer` are modelled where `AddFile` uses them; asked directly by a user (C59) they are computed anew. Except in C101
  the disk stays as it is. In C34 and C35 calls that raise are excluded from the histories, but for calls of `AddFile` that fail
  while reading files.
* Hypotheses about the environment: `os.path.isdir("")` is false where the theorems say so (`W.isDir [] = false`); the current
  directory is an absolute path.

## Plan per property

| id | modelled | proof method |
|----|----------|--------------|
| C01, C02, C03, C08 | `prepare_lines`, `iterate`, `get_items` | induction over the list of lines with a loop invariant (consumed text = file prefix) |
| C04, C05, C06, C15 | inline loop, `get_full_scope`, `inlinerep` | the number of `@` strictly decreases; induction |
| C07 | `StopIteration` as an error value | counterexample, plus `_partial`: no error if the last line is neither a continuation nor a function header |
| C09 | `get_items` loop | invariant |
| C10, C11, C13, C14, C26 | the regular expressions themselves | symbolic evaluation of the matcher on parametric text, induction over runs |
| C12, C38, C39, C40, C47 | mutual recursion AddFile/get_items with fuel | invariants over the state; counterexamples |
| C16 | `_ReverseInlineBlock` | counterexample + partial |
| C17–C25 | item classes | induction over pieces |
| C27–C31 | JSON trees, merges; heap version for aliasing | mutual induction over trees; refinement to a map from paths |
| C32, C33, C36, C37, C46 | Reduce, lists | permutation / sortedness lemmas |
| C34, C35 | explicit cache tables | coherence invariant; counterexamples for uncleared caches |
| C41, C42, C43 | bbappend matching with run-time patterns, line arithmetic | literal pattern lemma, counterexamples |
| C44, C45 | `Finalize` | soundness by induction; completeness for topologically ordered maps; counterexample |
| C48 | hash input as a list, sha1 a parameter | invariant over histories |
| C49–C55, C60–C62 | ExpandTerm with fuel, ExpandVar | measure (unseen names, length); fold refinement |
| C56–C59 | name functions, url options, layer search | list lemmas; C59 includes a non-termination witness |
| C63 | engine result with a time-out case | case analysis |
| C64 | attribute tables | finite case analysis over classes, for all field values |
| C65, C66 | `d.getVar` pattern; `GetScrComponents`, `GetValidNamedResources` | symbolic evaluation of the matcher; set equality |
| C67–C75 | the remaining statement patterns, `Function`, `textwrap.dedent` | the first way each pattern matches a parametric text; no earlier pattern matches it; longest common prefix |
| C76 | all of the above together: lines, groups, patterns, item classes, attributes | composition of the theorems for single statements with C06 and C08, for a list of statements of any length |
| C77, C78 | `Constants` properties, `AddDistroMachineFromLayer` inside `AddFile` | value at a path after merging one entry; invariant over nested loading |
| C79 | identities of items in `AddFile`, `Remove`, `Finalize`, queries | identities are never used twice (induction over the nested loading), so sets merge nothing |
| C80 | `IsMultiLine` on the items of a file | the groups of C08: which groups of lines a variable can come from |
| C81–C83 | `GetLinksForFile`, `GetFiles`, `ExpandTerm` with `objref` | membership and counting; restoring of blocks as in C16 |
| C84 | `Constants.__init__`, `__load_db` with `json.load` on texts of dictionaries, lists of strings and strings | the reader accepts exactly the texts of a grammar and returns their value; both directions by induction on the length |
| C85, C86 | the shipped data base, generated from the file by `tools/gen_db.py` | the reader is run on the text by the kernel; then C77, C78, C51, C56, C57 and C62 are instantiated |
| C87 | a caller's change of the object that a question returned, `CStash.change` on the cache table | every decorated function commutes with the change of an entry it does not read (`Frames`), by composition; updates empty the table |
| C88 | universal newlines of `open`, all calls and queries | two-run simulation (`Twin`): related states, equal results; every file is read through the translation of newlines, whose images are equal |
| C89 | the flag `negative_inline` in `prepare_lines` | same simulation with states that differ in the flag; without an opening sequence the loop does nothing; second part from uniqueness of the partition into statements |
| C90 | `AddDistroMachineFromLayer`, `AddConstants` | same simulation with states that differ in the two lists; every other constant is read at another path |
| C91 | every query, `AddFile`, `Finalize` with an arbitrary order of sets | two worlds that differ in `itemOrder`/`strOrder` only; sorting a permutation without ties gives one list; simulation for AddFile |
| C92 | `AddFile`, `get_items` on two stashes | relation between two runs that may differ in state, offset and depth; chunks agree up to the offset, items up to `Line`; what is not assigned in the end was not assigned while the file was read, so names that refer to such variables only are expanded alike |
| C93 | the setters of items (`Model/Setters`), with the caches | a remembered result that does not compare an assigned attribute stays correct; programs that read no other results do not notice that these are dropped; negation by a witness |
| C94 | `AddFile` and all questions with caches, in two worlds that agree on absolute paths | every path that is looked at is absolute; simulation of the two runs; component form of paths as specification; negation by a witness |
| C95 | `AddFile` and all questions with caches, in two worlds that differ in the contents of files | simulation of successful runs: a run that opens an unreadable file raises |
| C96 | `Item.__repr__` with `repr` of strings, numbers, lists, sets and dictionaries | unique readability of the text: strings by reading escapes back, collections and dictionaries by induction, kinds of values by class |
| C97 | runs of `AddFile` inside `get_items` with the items they return | induction on the depth, for each file over the statements; InFileLine is strictly increasing, so the maximum is the last one |
| C98 | the four loops of `ExpandVar` | each loop projected to one variable, keys of the dictionaries as a function of the statements, the result by induction over the dictionary |
| C99 | the lines printed are part of the state (`Stash.printed`) | trace of announced files by induction over nested loads and histories; `quiet` by the two-run relation |
| C100 | a process with several stashes, shared constants, and emptying of all caches by any stash (`Spec/Process.lean`) | two relations: a stash whose caches may lose entries at any time against one whose caches do not (`Near`), and one with other known names (C90); every program with caches leaves the never-emptied entries and all constants but the known names alone (`Lemmas/Still.lean`) |
| C101 | the never-emptied caches of `GetLayerRoot` and `FindLocalOrLayer` (`Model/Cache.lean`); histories in which every call and question finds its own disk (`Spec/Disk.lean`) | programs that do not read the results that depend on the disk commute with forgetting them (`Lemmas/Deaf.lean`); what is left is right for every disk (`Lemmas/Disk.lean`) |
| C102 | two versions of a file with the groups `a ++ m ++ b` and `a ++ m' ++ b` (`Spec/Edit.lean`) | the relational proof of C92, with a shift of lines and two worlds that differ in what is in the files (`Lemmas/Context.lean`, `Lemmas/Edit.lean`); statements can be exchanged without changing the groups around them |
| C103 | relation `Spells` for the meaning of regular expressions, list of forms `rules` with the patterns copied from the source (`Spec/Regex.lean`) | soundness and completeness of the backtracking matcher by induction on the expression, inner induction on the rest of the text for repetitions (`Lemmas/Lang.lean`); loop over the forms, constants tracked through nested files (`Lemmas/Kinds.lean`) |
| C104 | relation `AddedAll` (successful calls one after the other, `Spec/AnyOrder.lean`) | every successful AddFile is an instance of an abstract walk through files that load each other (`Lemmas/Visits.lean`); two walks over permuted lists read the same files equally often, by splitting the files read into trees of repeated files and files read once (`Lemmas/Walk.lean`); the items of a file are a function of the file (C92) |
| C105 | structure `Elsewhere` (the files read, as announced by the progress output, have nothing to do with `f`) and `Question.asksAbout` (`Spec/Undisturbed.lean`) | relation `Far` for every step of AddFile, raising or not: links only grow at the end; the items linked to `f` stay, because new items come from a file that is read and `Line`s move only together with a new link; then all questions are functions of the items linked to `f` (`Lemmas/Undisturbed.lean`) |
| C106 | `Refers`, `Unknown`, `Defined`, `Written` (`Spec/Expand.lean`) | texts as lists of pieces; invariant: everything remembered in `seen` refers to unknown names only, so each substitution removes all references to the name and adds references to unknown names only; then the result is made of pieces that C50 keeps (`Lemmas/Settled.lean`) |
| C107 | `said`, `Counts`, `Lined`, `Question.aboutValues` (`Spec/Layout.lean`) | each query sees a filtered list sorted by Line, which is the same list up to places; relational lemmas through ExpandTerm, ExpandVar and the package queries (`Lemmas/Layout.lean`); the edit by C102, links of a file that loads nothing (`Lemmas/LayoutFile.lean`) |
| C108 | `Puts`, `Takes`, `LastSays`, `OwnObjects`, `ShapesAgree` (`Spec/ConstCalls.lean`) on the heap of C31 | the footprint of the data base stays free of repetitions when the argument's is (`Merged.stores`, `Lemmas/ConstHeap.lean`), each call has the effect of C27-C29, shapes stay compatible (`Lemmas/ConstCalls.lean`) |
| C109 | `Written`, `Acyclic` (`Spec/Expand.lean`) | both pieces have a full expansion (C51), full expansions can be put together, and ExpandTerm returns the full expansion if there is one |
| C110 | `DependsWithin`, `ClosedNames`, `LinedNames` (`Spec/Depends.lean`) | the two runs do the same, by induction on the recursion depth, for all texts that depend on the names only; the path of read_file is part of the text (`Lemmas/Depends.lean`); for an edited file with C102 |
| C111 | `Concerns`, `StatementsAbout` (`Props/DependsVar.lean`), `TextOf` (`Spec/ExpandVarExact.lean`), `DependsWithin`, `ClosedNames` (`Spec/Depends.lean`) | each of the three passes acts on one key of the dictionary by the statements about it alone; the text is then expanded alike by C110 |
| C112 | `broken`, `AtBlanks`, `PlainPart` (`Spec/Breaks.lean`), `Words` (`Spec/Names.lean`) | induction over the lines: each mark separates, the words of the lines are the words of the joined text |
| C113 | `Overridden`, `Spellings`, `Respelled` (`Spec/Spelling.lean`) | the pieces of a name are unique and distributed to name and overrides in one way (C18); values: the statements that concern a name agree one by one, induction over the three loops |
| C114 | `Defined`, `Acyclic` (`Spec/Expand.lean`), `TextOf` (`Spec/ExpandVarExact.lean`), `StatementsAbout` (`Props/DependsVar.lean`) | both sides reduce to the expansion of one text: C51 for the reference, C98 for the value |
| C115 | `History`, `Glob` (`Spec/Appends.lean`), `StatementsAbout`, `TextOf`, `Combined` | C41 links the .bbappend, C42 puts its lines behind, then one step of the statements |
| C116 | `Decl`, `Entry`, `byOperators`, `texts`, `Given` (`Spec/Meaning.lean`, which mentions no function of the code) | C76 gives the items, C113's spelling the names, C31/C53's fold the text |
| C117 | `stands`, `Filled`, `Ranked` (`Spec/MeaningRefs.lean`, which mentions no stash) | C116's items; the first assignment of the stash is the first declaration; then C51 |
| C118 | `EntryFile`, `BothAdded` (`Spec/MeaningAppend.lean`) | each file gives the items of its entries; C41 links them, C42 puts those of the .bbappend last; then as C116, C117 |
| C119 | `IncludingFile` (`Spec/MeaningInclude.lean`) | the loop over the chunks up to the line changes nothing, the file is read into an empty stash, its items lie between the line and the next one, C39 links them; then as C116, C117 |
| C120 | `InheritingFile`, `ClassFound` (`Spec/MeaningInherit.lean`), `FindsClass` (`Spec/Paths.lean`) | as C119; the line of the inherit loads exactly the class that is found, and the forced link connects it with the recipe |
| C121 | `FilledBut`, `declared` (`Spec/MeaningPackages.lean`), `Words`, `Replaced` | reading the recipe gives exactly the declared texts as values of the variables (`RecipeRead.assigned_text`); the reference expansion of C51 is determined by the declarations; C60 and C61 on top |
| C122 | `Entry`, `InheritingFile`, `NamesIn` | reading the recipe gives exactly the declared variables and at most one inherit with the name that is written; C62 on top; adding files does not change the known names |
| C123 | `SourceOption` (`Spec/MeaningPackages.lean`), `Mirrored`, `LastOption` (`Spec/Uri.lean`) | reading gives exactly the declared texts as values of SRC_URI (`RecipeRead.assigned_texts`); C58 and C66 on top; adding files does not change the mirrors |
| C124 | error branches of the model; `History` (`Spec/History.lean`), `UsableConstants` (`Spec/Succeeds.lean`) | induction over the recursion shows that the only errors are the recursion limit and failing reads; C49 excludes the first; sessions keep the constants usable |
| C125 | `byOperators`, `texts` (`Spec/Meaning.lean`), `Filled` (`Spec/MeaningRefs.lean`) on the declarations of the three files | the last item of the recipe has the greatest line of the recipe and the included file (`loading_read`), and the .bbappend comes after it (C42); with an include at the end the negation is computed |

## Results

| id | title | status | remarks |
|----|-------|--------|---------|
| C01 | Parsing is lossless | proved |  |
| C02 | InFileLine is the physical line | proved | Line = InFileLine + offset for items with no include/inherit before them, outside .bbappend files. |
| C03 | One item per chunk, right provenance | proved |  |
| C04 | Raw never contains inline python | proved | Termination: the model function is total and its iteration limit never matters (inlineLoop_spec). |
| C05 | Inline block scope | proved |  |
| C06 | Text without inline python is untouched | proved |  |
| C07 | Every text file can be added | partial | False of the code: StopIteration for a file ending in a continued line or a function header, regex.error for a .bbappend whose name is no pattern. Proved: under the hypotheses of C47 AddFile returns for every complete text, and leaves a usable stash. |
| C08 | Chunk boundaries | proved |  |
| C09 | New override syntax is sticky | proved |  |
| C10 | Variable assignments parse to what was written | proved | C10_assignment covers every name the grammar allows, with its overrides. |
| C11 | Comments always win | proved |  |
| C12 | Includes and inherits load what exists | partial | False of the code for ignored classes: the whole list of names is compared with ClassIgnore. |
| C13 | unset names the whole variable | partial | False of the code: VarName is the first character of the name; right for names of one character. |
| C14 | Inline branch selection | proved | Arguments without commas, parentheses, newlines; branch values in quotes. |
| C15 | Unknown inline code becomes the placeholder | proved |  |
| C16 | Inline blocks can be restored | partial | False of the code for repeated blocks and for blocks whose replacement is empty or occurs earlier; proved for different blocks with unambiguous replacements. |
| C17 | Overrides split off | proved |  |
| C18 | No piece of a name is lost | proved |  |
| C19 | Function names recompose | partial | False when the operation word also occurs as an earlier piece of the name (list.index). |
| C20 | Modifier predicates agree | proved |  |
| C21 | VarValueStripped removes exactly the quoting | proved |  |
| C22 | Value tokenisation | partial | False of the code: a line-continuation mark that an x follows stays in the token. All else is proved. |
| C23 | Version constraints are dropped | proved |  |
| C24 | Machine, distro and class entries | proved |  |
| C25 | Task and export lists | proved |  |
| C26 | Addtask parses to what was written | proved |  |
| C27 | AddConstants adds and keeps | proved |  |
| C28 | RemoveConstants removes exactly | proved |  |
| C29 | OverrideConstants replaces exactly | proved | What was below a replaced dictionary disappears. |
| C30 | GetByPath | proved | A path running through a non-dictionary raises AttributeError. |
| C31 | Constants do not leak into caller data | partial | False in general (C31_false): the data base keeps list and dictionary objects of the caller and a later AddConstants extends them in place. Proved: one call on an unshared data base changes no object of the caller and refines the value-level merge; sequences of removals and of additions to known paths never change caller objects; objects out of reach never change. |
| C32 | Filters are exact | proved |  |
| C33 | Results are sorted, unique and composable | proved | Equality of result lists up to the order of items with equal Line (set iteration order). |
| C34 | Caching is invisible | partial | False of the code for GetBBClasses, GetPackagesDynamic and IsDynamicPackage, whose caches are never emptied. Also false after a call that raised half-way: a Remove (ValueError), an AddFile because of a malformed pattern in the name of an append, a Finalize because of a file known from Append only; what was changed by then is not seen (C34_failed_remove_false, C34_failed_addFile_false, C34_failed_finalize_false). Proved for all other questions after any history of successful calls, calls of AddFile that failed while reading files, and questions. |
| C35 | Queries do not change results | partial | False of the code: Finalize works with what an earlier GetItemsFor left in the caches. Proved when a call that empties the caches lies between a question and a later Finalize. |
| C36 | Append and Remove | proved |  |
| C37 | StashList behaves like a list | partial | False of the code: extend does nothing, += returns a plain list. |
| C38 | A class is loaded at most once | proved |  |
| C39 | Every loaded class is linked | partial | False of the code: only the first file that inherits a class is linked to it. |
| C40 | Re-adding and retrying | partial | False of the code: a .bbappend or .bbclass whose loading failed is never parsed again. |
| C41 | bbappend matching is order independent | partial | False of the code: when the .bbappend is added first a matching beginning of the name is enough; names are used as regular expressions. |
| C42 | bbappend items come after the recipe | proved | For names without characters special to regular expressions (other than .). |
| C43 | Line order is reading order | partial | False of the code with two includes, nested includes or two classes in one inherit: the offset of a loaded file ignores the files loaded before it. Proved for the first include or inherit of a file, if what it loads loads nothing itself. |
| C44 | Finalize closes the links | partial | False of the code: one pass over the files is not a transitive closure. What the pass computes is proved exactly. |
| C45 | IncludedFrom | proved | With empty caches; stale caches: C35. |
| C46 | File lists | proved |  |
| C47 | Adding a file terminates | partial | False of the code: a .inc, .bb or .conf file that includes itself is read until the recursion limit. Proved whenever the files that are read again cannot reach themselves; cycles through classes are allowed. |
| C48 | Fingerprint identifies the content | proved |  |
| C49 | Variable expansion terminates | proved | For every stash, value, spare and seen; the bound on the depth is explicit. CPython's own recursion limit is not modelled. |
| C50 | Expansion leaves the rest alone | proved | References are ${NAME} and d.getVar(...). |
| C51 | Expansion substitutes | proved | For texts in which every ${ starts a reference and no getVar/read_file is called; cyclic definitions are covered by C49 only. |
| C52 | ExpandVar follows the operators | partial | False of the code: ??= acts like ?= at once, and a value with inline python replaces the value whatever the operator is. Proved for ??= not followed by other operators than = and :=, values without inline python, one blank on each side of the operator, names without references. |
| C53 | ExpandVar applies overrides last | partial | False of the code: remove deletes substrings, and a remove that comes first for an unknown variable sets its value. The order of the modifiers is proved; whole items are removed if no other item contains the removed one. |
| C54 | unset in ExpandVar | partial | False of the code: append, prepend and remove before the unset are kept; names of more than one character are not unset (C13). Proved for the immediate operators and for flags. |
| C55 | Operator spelling does not matter | partial | False of the code: only one blank on each side is recognised, other spellings count as no assignment, which is proved; with one blank C52 applies. |
| C56 | Recipe name and version from the file name | proved |  |
| C57 | Base name | proved | For names without newline. |
| C58 | SRC_URI options | partial | False of the code for option values that contain '='. urlparse is a parameter of the model. |
| C59 | Layer lookup | partial | False of the code: paths starting with // loop forever; the start directory itself is never taken as layer root. |
| C60 | Package names | proved |  |
| C61 | Dynamic packages | partial | False of the code when the value has adjacent, leading or trailing separators. |
| C62 | Images and package groups | proved | For known-variable collections (lists, or dictionaries by their keys) without the empty name. |
| C63 | Regular expression time-outs are contained | partial | False of the code: finditer is lazy, its TimeoutError escapes. |
| C64 | Attribute constants name attributes | partial | False of the code: two constants name no attribute. |
| C65 | Inline d.getVar becomes a reference | partial | False of the code for d.getVar with a second argument. |
| C66 | Named resources | proved |  |
| C67 | Flag assignments parse to what was written | partial | False of the code for flags with other characters than [A-Za-z0-9_./@-]. |
| C68 | Exports parse to what was written | partial | False of the code for values in single quotes and for operators other than =. |
| C69 | Python functions are recognised | partial | False of the code for names with capital letters. |
| C70 | Functions parse to what was written | partial | False of the code for names that start with python or fakeroot. |
| C71 | FuncBodyRaw is the body without its indentation | partial | False of the code for names with { and bodies that end with }. |
| C72 | Includes parse to what was written | partial | False of the code for names with characters like +, which are cut off. |
| C73 | Inherits parse to what was written | proved |  |
| C74 | Function exports, include_all, addfragments parse to what was written | proved |  |
| C75 | addpylib parses to what was written | partial | False of the code for more than one blank in front of the namespace. |
| C76 | A recipe reads back as the statements it was written from | proved | What may be written in each statement is part of the specification (Stmt.Ok); the forms the code gets wrong are C67 to C72 and C75. |
| C77 | The documented constants read what was put there | proved | For data bases whose sections are dictionaries and whose constants are lists; what happens otherwise is C27 to C31. |
| C78 | The names of a layer become known | proved |  |
| C79 | No item is lost | proved | Append is not among the calls, since the caller may append an item twice (C36). |
| C80 | IsMultiLine tells whether an assignment takes several lines | partial | False of the code: blanks between the backslash and the newline, and continuations inside of inline python, are not seen; the text backslash x1b in a single line is taken for a continuation. Proved for all other texts that are not taken for the start of a function. |
| C81 | Links of a file | partial | False of the code: a file is listed once for each of its items, which is proved, as is which files are listed. |
| C82 | Files next to SRC_URI | proved |  |
| C83 | Expansion for a given variable | partial | False of the code: a value with placeholders is dropped, the value of objref is expanded instead. Proved for the value of objref itself. |
| C84 | Constants are loaded as written | proved | Numbers, true, false, null, lists of other values and the escape \\u are outside of the modelled fragment; a file that cannot be decoded is not covered. |
| C85 | The shipped constants are usable | partial | False of the code for VariablesKnown: the shipped data base has no such entry, and the property returns an empty dictionary instead of a list. Proved for the other ten properties. |
| C86 | Standard names in expansions | proved | The names in question contain no dollar sign. |
| C87 | Returned collections belong to the caller | partial | False of the code: the results are remembered and the remembered object itself is returned, so a caller who empties the list of recipes makes GetRecipes return none. Proved: nothing else notices the change, the stash and all questions that do not read the object stay as they are, and the next update undoes it, except for GetBBClasses, GetScrComponents and GetPackagesDynamic, whose results are never forgotten. |
| C88 | Line ends do not matter | proved | Also the stashes are equal afterwards. |
| C89 | negative_inline concerns inline python only | proved | No inline python: the text after translation of newlines has no place where the loop of prepare_lines sees the opening sequence. |
| C90 | Known distros and machines are output only | proved | The data base must have dictionaries and lists where the documented ones have (UsableConstants, true of the shipped one by C85). The counter that names objects is the same in both runs. |
| C91 | Results are reproducible | partial | False of the code: two appends of one recipe get the same Lines, so ExpandTerm and ExpandVar depend on the order of a set; GetConfFiles and GetLinksForFile return lists in the order of a set; IsDynamicPackage with an invalid pattern raises in one run only; FingerPrint shows the set FilePaths, so it differs between runs if an inherit loads two classes. Proved: sorted lists and yes/no answers; all others if no two items have the same Line; the same members in any case; any calls of AddFile apart from the fingerprint if the names they load are written without references or refer only to variables that nothing assigns (C91_references_counterexample: two assignments with the same Line decide which include is loaded), and with the fingerprint if no inherit loads two classes; Finalize up to the order of links. |
| C92 | The items of a file depend on the file alone | partial | False of the code for Line: the lines of an inherited class count only if the class had not been loaded before; and for names of includes that refer to variables of a class that is loaded once only. Proved for all attributes except Line if both calls succeed and the names of included files and inherited classes refer only to variables that are not assigned in either stash (none, or e.g. PN, BPN, PV, variables of the base set). |
| C93 | Assigning an attribute is seen by every later question | partial | False of the code for questions that compare an assigned attribute, and for GetValidPackageNames and GetValidNamedResources after an assignment to VarValue or Line: the setters empty no cache, so an answer given before is given again until the next update. Proved for all other questions, and for all questions after an update. Assumed: the iteration order of a set of items depends on the identity of the items only. |
| C94 | The working directory does not matter | partial | False of the code for values that call oe.utils.read_file with a relative path: what is read depends on the working directory of the process. Proved for everything else: with equal relative files including all errors, and without any assumption on relative files as long as none is opened. The places of files that the stash remembers must be those on the disk (see C101). |
| C95 | Files that are not needed do not matter | proved | A file that cannot be opened is one for which open raises an OSError that is not FileNotFoundError, PermissionError or NotADirectoryError, so that no caller catches it. The places of files that the stash remembers must be those on the disk (see C101). |
| C96 | Different contents have different fingerprints | proved | Assumes that SHA-1 gives no collision for the two texts that are compared. Values of sets are compared as sets. |
| C97 | Line accounts for the loaded files | proved | This is the formula behind C04, C42 and C43: offsets of earlier includes are not handed on to later included files, hence the disagreement of C43. |
| C98 | What ExpandVar gives exactly | proved | Exact counterpart of C52 to C55, which say where this differs from bitbake. Assumes that the base set is a dictionary of strings. The order of statements with the same Line is left open (see C91). |
| C99 | Progress output | proved |  |
| C100 | Stashes of one process are independent | partial | False of the code: functools.cache keeps one table per method for all stashes, and making another stash (or loading a file with it) empties the caches of all of them; as Finalize reads stale caches (C35), whether the items of a stash report all files that include them in IncludedFrom can depend on whether another stash was made between a question and Finalize (C100_false). Proved for every interleaving, as long as the calls on that stash do not raise (the first one that does raises the same) and between a question and a later Finalize of that stash some call on it empties the caches. Items are values in the model, so no item belongs to two stashes. |
| C101 | Files that change while a stash is used | partial | False of the code: the caches of GetLayerRoot and FindLocalOrLayer are never emptied, so an include, class or configuration that was looked for in vain once is never found by the same stash, even if the recipe is added again after the file was created; and GetFiles and GetValidPackageNames go on giving what they found until a call empties their caches (C101_false). Proved: everything if no remembered place of a file has become wrong, in particular if only what is in the files changes (C101_edited); GetFiles and GetValidPackageNames after the next call that empties the caches; without the three questions of C34. |
| C102 | Editing a statement changes the items of that statement only | proved | Line and the identity of the objects are left out (C97, C03). Of the new text C102_fix asks that it consists of single lines, continued lines or closed functions that start with a letter or digit; C102_edit covers any two versions of a file whose statements agree outside the edited place. The names of what the file loads may refer to variables that are not assigned in either stash. |
| C103 | The kind of an item is decided by its own text | proved | The patterns are the texts of the source; what they describe is stated without a matching strategy (Spec/Regex.lean) and the backtracking matcher of the model is proved to find a beginning if and only if there is one (sound and complete), so the property does not depend on the matcher. Possessive repetitions are excluded; no pattern of the parser uses them. |
| C104 | The order of AddFile calls does not matter | partial | False of the code for names written with references: a class is loaded for the first recipe only and the second recipe does not know its variables while it is read, so `include ${X}.inc` finds its file or not depending on the order (C104_counterexample). Proved if the names of includes and classes refer only to variables that nothing in the resulting stash assigns (none, or e.g. PN, BPN, PV, variables of the base set); Line is left out (C92_counterexample). |
| C105 | Files added later do not change what is known about a file | partial | False of the code for two reasons. An include is read again for every recipe that requires it and its items are entered once more, so after adding a second recipe `A += "x"` of the shared include counts twice for the first one (C105_shared_include_counterexample). An append of two versions of a recipe is moved behind the longer one, so adding another version changes which of two appends of the first version comes last, and with it the values (C105_shared_append_counterexample). Proved otherwise: if no file that is read is the recipe or linked to it, the links of the recipe are the same, and no append of it is linked to a file that is read, all answers stay the same, exceptions included. |
| C106 | Expanding twice is the same as expanding once | partial | False of the code when a definition ends in a stray `$`: with `A = "$"` and `B = "1"` the text `${A}{B}` expands to `${B}` and that to `1` (C106_stray_dollar_counterexample). Proved otherwise: if each `${` in the text and in the definitions starts a reference, each `$` is followed by something other than `$`, and there are no calls of getVar and read_file, the result refers to unknown and spared names only, and expanding it again returns it; cyclic definitions included. |
| C107 | Comments, blank lines, functions and tasks change no value | partial | False of the code with two includes: their items interleave, as the Line of the second does not account for the lines of the first (C43), and four comment lines between the two `require` statements change which assignment of V comes first, so `${V}` changes from b to a (C107_includes_negation). Proved for any two stashes: the same Variable, Unset and Inherit items in the same order of Line, with the same links and settings, give the same answers (C107_order_only). Proved for a file that loads no other file, read into a fresh stash: an edit of statements that assign, unset and inherit nothing changes no answer, if it does not change whether the new override syntax is in use (C107_edit_partial); for comments that proviso holds (C107_comments_partial). Missing: files that load exactly one other file, stashes that hold other files. |
| C108 | The last call decides about each constant | partial | False of the code if a dictionary is passed twice: AddConstants(d1), AddConstants(d2), RemoveConstants(d1) with d1 = {"a": ["x"]} and d2 = {"a": ["y"]} leaves the list empty, though nothing the caller wrote removes "y": the data base kept the list object of d1 and extended it in place (C108_negation, C108_remove_takes_more). Proved for any sequence of calls, on the heap of objects, if each dictionary passed is made of objects of its own and the shapes (dictionary or list at a path) of the data base and all dictionaries agree: no call raises and the last call decides (C108_last_call_partial); the order of AddConstants calls does not matter for the elements (C108_add_order_partial). |
| C109 | Text is expanded piece by piece | partial | False of the code for definitions that depend on themselves: with `A = "${B}x"` and `B = "${A}y"`, `${A}` expands to `yx`, `${B}` to `xy`, but `${A}${B}` to `yxy`, as what B stands for is remembered as it was found inside A (C109_negation). Proved otherwise, without calls of getVar and read_file in the text. |
| C110 | Only what a text refers to matters | proved | Exceptions included. Calls of getVar count as references, and the texts may call read_file. C110_edit is for files that load no other file: with two includes Lines of different files may collide, see C107. |
| C111 | Statements about other variables do not change a variable | proved | If a name contains a reference it is expanded like a value, and its items are added to those of the variable it becomes; such stashes are excluded. C111_edit is for files that load no other file: with two includes Lines of different files may collide, see C107. |
| C112 | An assignment over several lines reads as on one line | partial | False of the code: a continuation line that starts with the letter x (for example x86) keeps the control character in its first item, and a word that is broken becomes two items. Proved for lines that are broken at blanks and do not start with x. |
| C113 | Both spellings of overrides say the same | proved | Old spelling only with OverrideDelimiter _: once a stash has seen the new syntax, A_append is a variable of that name. |
| C114 | A reference stands for the value of the variable | partial | False of the code: a reference is replaced by the first assignment of the variable, whatever follows; ExpandVar takes all statements in order, with append, prepend and remove (A = 1, then A = 2: ${A} is 1, ExpandVar gives 2). Proved for a variable with one assignment, for one from the base set, and in general where the statements give the text of the first assignment; no definition depends on itself. |
| C115 | What a .bbappend says comes last | proved | For statements of the recipe and one .bbappend; two .bbappend files of one recipe share their lines (C91). References in other texts do not follow the .bbappend (C114). |
| C116 | The values of a recipe follow from its text | proved | For names in capital letters with overrides in the new syntax, no both append and prepend on one name, no inline python, no file loaded. A variable with only append, prepend and remove is excluded as far as remove goes (C53). |
| C117 | What the references of a recipe become follows from its text | proved | Restrictions of C116; texts call neither getVar nor read_file. That the first declaration counts, with whatever overrides it has, is how the code works and not what bitbake does (C114). |
| C118 | The values of a recipe and its .bbappend follow from the two texts | proved | Restrictions of C116 and C117; one .bbappend; the recipe is not empty; names as in C41. |
| C119 | Including a file is like writing its text in place of the line | proved | Restrictions of C116 and C117; one include, whose file (.inc or .conf) is found, loads nothing, and is not to be ignored; the name has no references. With two includes the order of the lines can be wrong, see C43. The same values in place: if no declaration depends on itself. |
| C120 | Inheriting a class is like writing its text in place of the line | proved | Restrictions of C116 and C117; one class, which is found in one of the three directories, loads nothing, and is not to be ignored; its name has no references. A second inherit is left out, see C43. The same values in place: if no declaration depends on itself. |
| C121 | The packages of a recipe follow from its text | proved | Restrictions of C117 (and of C118, C119, C120 for the second file); the texts declared for the packages call no functions and every ${ in them starts a reference. A package is given for every declaration, whatever its overrides and operator: also for the text of a :remove, see C60. If one blank follows another in PACKAGES_DYNAMIC the empty pattern is given, see C61. |
| C122 | Whether a recipe is an image or a package group follows from its text | proved | Restrictions of C116 (and of C118, C119, C120 for the second file); the name of the class has no separator. |
| C123 | The named sources of a recipe follow from its text | proved | Restrictions of C116, C118, C119 and C120; the known mirrors are a dictionary of texts with names that are not empty. References other than ${PN} are left as they are, and an option ends at its second =, see C58. |
| C124 | Asking for values raises for no contents of the files | proved | Reading a file may fail only because it is missing or forbidden; other errors of the system are passed on. The depth of the recursion is bounded (C49), but the limit of the interpreter is not part of the claim. For GetValidNamedResources see C66. |
| C125 | A .bbappend acts after the recipe and all the recipe includes or inherits | partial | False of the code if the recipe ends with the include or the inherit: the lines of the .bbappend start after the last line of the recipe itself, so that later lines of the included file or class come after it and win. Proved if at least one line follows and the .bbappend is added after the recipe (restrictions of C118, C119 and C120). |

"partial" always means: the code as it is violates the full statement. There is a theorem that refutes it with a concrete run
(`…_counterexample`, `…_false`) and a theorem `…_partial` for the part that holds.

## Disagreements between the properties and the code

All of these were found by attempts to prove the property; each has a kernel-checked witness.

* **C07** Every text file can be added: False of the code: StopIteration for a file ending in a continued line or a function header, regex.error for a .bbappend whose name is no pattern. Proved: under the hypotheses of C47 AddFile returns for every complete text, and leaves a usable stash.
* **C12** Includes and inherits load what exists: False of the code for ignored classes: the whole list of names is compared with ClassIgnore.
* **C13** unset names the whole variable: False of the code: VarName is the first character of the name; right for names of one character.
* **C16** Inline blocks can be restored: False of the code for repeated blocks and for blocks whose replacement is empty or occurs earlier; proved for different blocks with unambiguous replacements.
* **C19** Function names recompose: False when the operation word also occurs as an earlier piece of the name (list.index).
* **C22** Value tokenisation: False of the code: a line-continuation mark that an x follows stays in the token. All else is proved.
* **C31** Constants do not leak into caller data: False in general (C31_false): the data base keeps list and dictionary objects of the caller and a later AddConstants extends them in place. Proved: one call on an unshared data base changes no object of the caller and refines the value-level merge; sequences of removals and of additions to known paths never change caller objects; objects out of reach never change.
* **C34** Caching is invisible: False of the code for GetBBClasses, GetPackagesDynamic and IsDynamicPackage, whose caches are never emptied. Also false after a call that raised half-way: a Remove (ValueError), an AddFile because of a malformed pattern in the name of an append, a Finalize because of a file known from Append only; what was changed by then is not seen (C34_failed_remove_false, C34_failed_addFile_false, C34_failed_finalize_false). Proved for all other questions after any history of successful calls, calls of AddFile that failed while reading files, and questions.
* **C35** Queries do not change results: False of the code: Finalize works with what an earlier GetItemsFor left in the caches. Proved when a call that empties the caches lies between a question and a later Finalize.
* **C37** StashList behaves like a list: False of the code: extend does nothing, += returns a plain list.
* **C39** Every loaded class is linked: False of the code: only the first file that inherits a class is linked to it.
* **C40** Re-adding and retrying: False of the code: a .bbappend or .bbclass whose loading failed is never parsed again.
* **C41** bbappend matching is order independent: False of the code: when the .bbappend is added first a matching beginning of the name is enough; names are used as regular expressions.
* **C43** Line order is reading order: False of the code with two includes, nested includes or two classes in one inherit: the offset of a loaded file ignores the files loaded before it. Proved for the first include or inherit of a file, if what it loads loads nothing itself.
* **C44** Finalize closes the links: False of the code: one pass over the files is not a transitive closure. What the pass computes is proved exactly.
* **C47** Adding a file terminates: False of the code: a .inc, .bb or .conf file that includes itself is read until the recursion limit. Proved whenever the files that are read again cannot reach themselves; cycles through classes are allowed.
* **C52** ExpandVar follows the operators: False of the code: ??= acts like ?= at once, and a value with inline python replaces the value whatever the operator is. Proved for ??= not followed by other operators than = and :=, values without inline python, one blank on each side of the operator, names without references.
* **C53** ExpandVar applies overrides last: False of the code: remove deletes substrings, and a remove that comes first for an unknown variable sets its value. The order of the modifiers is proved; whole items are removed if no other item contains the removed one.
* **C54** unset in ExpandVar: False of the code: append, prepend and remove before the unset are kept; names of more than one character are not unset (C13). Proved for the immediate operators and for flags.
* **C55** Operator spelling does not matter: False of the code: only one blank on each side is recognised, other spellings count as no assignment, which is proved; with one blank C52 applies.
* **C58** SRC_URI options: False of the code for option values that contain '='. urlparse is a parameter of the model.
* **C59** Layer lookup: False of the code: paths starting with // loop forever; the start directory itself is never taken as layer root.
* **C61** Dynamic packages: False of the code when the value has adjacent, leading or trailing separators.
* **C63** Regular expression time-outs are contained: False of the code: finditer is lazy, its TimeoutError escapes.
* **C64** Attribute constants name attributes: False of the code: two constants name no attribute.
* **C65** Inline d.getVar becomes a reference: False of the code for d.getVar with a second argument.
* **C67** Flag assignments parse to what was written: False of the code for flags with other characters than [A-Za-z0-9_./@-].
* **C68** Exports parse to what was written: False of the code for values in single quotes and for operators other than =.
* **C69** Python functions are recognised: False of the code for names with capital letters.
* **C70** Functions parse to what was written: False of the code for names that start with python or fakeroot.
* **C71** FuncBodyRaw is the body without its indentation: False of the code for names with { and bodies that end with }.
* **C72** Includes parse to what was written: False of the code for names with characters like +, which are cut off.
* **C75** addpylib parses to what was written: False of the code for more than one blank in front of the namespace.
* **C80** IsMultiLine tells whether an assignment takes several lines: False of the code: blanks between the backslash and the newline, and continuations inside of inline python, are not seen; the text backslash x1b in a single line is taken for a continuation. Proved for all other texts that are not taken for the start of a function.
* **C81** Links of a file: False of the code: a file is listed once for each of its items, which is proved, as is which files are listed.
* **C83** Expansion for a given variable: False of the code: a value with placeholders is dropped, the value of objref is expanded instead. Proved for the value of objref itself.
* **C85** The shipped constants are usable: False of the code for VariablesKnown: the shipped data base has no such entry, and the property returns an empty dictionary instead of a list. Proved for the other ten properties.
* **C87** Returned collections belong to the caller: False of the code: the results are remembered and the remembered object itself is returned, so a caller who empties the list of recipes makes GetRecipes return none. Proved: nothing else notices the change, the stash and all questions that do not read the object stay as they are, and the next update undoes it, except for GetBBClasses, GetScrComponents and GetPackagesDynamic, whose results are never forgotten.
* **C91** Results are reproducible: False of the code: two appends of one recipe get the same Lines, so ExpandTerm and ExpandVar depend on the order of a set; GetConfFiles and GetLinksForFile return lists in the order of a set; IsDynamicPackage with an invalid pattern raises in one run only; FingerPrint shows the set FilePaths, so it differs between runs if an inherit loads two classes. Proved: sorted lists and yes/no answers; all others if no two items have the same Line; the same members in any case; any calls of AddFile apart from the fingerprint if the names they load are written without references or refer only to variables that nothing assigns (C91_references_counterexample: two assignments with the same Line decide which include is loaded), and with the fingerprint if no inherit loads two classes; Finalize up to the order of links.
* **C92** The items of a file depend on the file alone: False of the code for Line: the lines of an inherited class count only if the class had not been loaded before; and for names of includes that refer to variables of a class that is loaded once only. Proved for all attributes except Line if both calls succeed and the names of included files and inherited classes refer only to variables that are not assigned in either stash (none, or e.g. PN, BPN, PV, variables of the base set).
* **C93** Assigning an attribute is seen by every later question: False of the code for questions that compare an assigned attribute, and for GetValidPackageNames and GetValidNamedResources after an assignment to VarValue or Line: the setters empty no cache, so an answer given before is given again until the next update. Proved for all other questions, and for all questions after an update. Assumed: the iteration order of a set of items depends on the identity of the items only.
* **C94** The working directory does not matter: False of the code for values that call oe.utils.read_file with a relative path: what is read depends on the working directory of the process. Proved for everything else: with equal relative files including all errors, and without any assumption on relative files as long as none is opened. The places of files that the stash remembers must be those on the disk (see C101).
* **C100** Stashes of one process are independent: False of the code: functools.cache keeps one table per method for all stashes, and making another stash (or loading a file with it) empties the caches of all of them; as Finalize reads stale caches (C35), whether the items of a stash report all files that include them in IncludedFrom can depend on whether another stash was made between a question and Finalize (C100_false). Proved for every interleaving, as long as the calls on that stash do not raise (the first one that does raises the same) and between a question and a later Finalize of that stash some call on it empties the caches. Items are values in the model, so no item belongs to two stashes.
* **C101** Files that change while a stash is used: False of the code: the caches of GetLayerRoot and FindLocalOrLayer are never emptied, so an include, class or configuration that was looked for in vain once is never found by the same stash, even if the recipe is added again after the file was created; and GetFiles and GetValidPackageNames go on giving what they found until a call empties their caches (C101_false). Proved: everything if no remembered place of a file has become wrong, in particular if only what is in the files changes (C101_edited); GetFiles and GetValidPackageNames after the next call that empties the caches; without the three questions of C34.
* **C104** The order of AddFile calls does not matter: False of the code for names written with references: a class is loaded for the first recipe only and the second recipe does not know its variables while it is read, so `include ${X}.inc` finds its file or not depending on the order (C104_counterexample). Proved if the names of includes and classes refer only to variables that nothing in the resulting stash assigns (none, or e.g. PN, BPN, PV, variables of the base set); Line is left out (C92_counterexample).
* **C105** Files added later do not change what is known about a file: False of the code for two reasons. An include is read again for every recipe that requires it and its items are entered once more, so after adding a second recipe `A += "x"` of the shared include counts twice for the first one (C105_shared_include_counterexample). An append of two versions of a recipe is moved behind the longer one, so adding another version changes which of two appends of the first version comes last, and with it the values (C105_shared_append_counterexample). Proved otherwise: if no file that is read is the recipe or linked to it, the links of the recipe are the same, and no append of it is linked to a file that is read, all answers stay the same, exceptions included.
* **C106** Expanding twice is the same as expanding once: False of the code when a definition ends in a stray `$`: with `A = "$"` and `B = "1"` the text `${A}{B}` expands to `${B}` and that to `1` (C106_stray_dollar_counterexample). Proved otherwise: if each `${` in the text and in the definitions starts a reference, each `$` is followed by something other than `$`, and there are no calls of getVar and read_file, the result refers to unknown and spared names only, and expanding it again returns it; cyclic definitions included.
* **C107** Comments, blank lines, functions and tasks change no value: False of the code with two includes: their items interleave, as the Line of the second does not account for the lines of the first (C43), and four comment lines between the two `require` statements change which assignment of V comes first, so `${V}` changes from b to a (C107_includes_negation). Proved for any two stashes: the same Variable, Unset and Inherit items in the same order of Line, with the same links and settings, give the same answers (C107_order_only). Proved for a file that loads no other file, read into a fresh stash: an edit of statements that assign, unset and inherit nothing changes no answer, if it does not change whether the new override syntax is in use (C107_edit_partial); for comments that proviso holds (C107_comments_partial). Missing: files that load exactly one other file, stashes that hold other files.
* **C108** The last call decides about each constant: False of the code if a dictionary is passed twice: AddConstants(d1), AddConstants(d2), RemoveConstants(d1) with d1 = {"a": ["x"]} and d2 = {"a": ["y"]} leaves the list empty, though nothing the caller wrote removes "y": the data base kept the list object of d1 and extended it in place (C108_negation, C108_remove_takes_more). Proved for any sequence of calls, on the heap of objects, if each dictionary passed is made of objects of its own and the shapes (dictionary or list at a path) of the data base and all dictionaries agree: no call raises and the last call decides (C108_last_call_partial); the order of AddConstants calls does not matter for the elements (C108_add_order_partial).
* **C109** Text is expanded piece by piece: False of the code for definitions that depend on themselves: with `A = "${B}x"` and `B = "${A}y"`, `${A}` expands to `yx`, `${B}` to `xy`, but `${A}${B}` to `yxy`, as what B stands for is remembered as it was found inside A (C109_negation). Proved otherwise, without calls of getVar and read_file in the text.
* **C112** An assignment over several lines reads as on one line: False of the code: a continuation line that starts with the letter x (for example x86) keeps the control character in its first item, and a word that is broken becomes two items. Proved for lines that are broken at blanks and do not start with x.
* **C114** A reference stands for the value of the variable: False of the code: a reference is replaced by the first assignment of the variable, whatever follows; ExpandVar takes all statements in order, with append, prepend and remove (A = 1, then A = 2: ${A} is 1, ExpandVar gives 2). Proved for a variable with one assignment, for one from the base set, and in general where the statements give the text of the first assignment; no definition depends on itself.
* **C125** A .bbappend acts after the recipe and all the recipe includes or inherits: False of the code if the recipe ends with the include or the inherit: the lines of the .bbappend start after the last line of the recipe itself, so that later lines of the included file or class come after it and win. Proved if at least one line follows and the .bbappend is added after the recipe (restrictions of C118, C119 and C120).

Peculiarities that no property forbids but that a reader may trip over: the new override syntax is sticky within a file (C09);
`attributeValue=""` means any value; `# foo () {` starts a function chunk; a `.bbappend` named `gtk+.bbappend` is linked to `gtk+.bb` only
if it is added first (C41); names of tasks that contain `before` or `after` are cut (C26 excludes them); `spare` is not passed on to nested
expansions (C50); `IsMultiLine` is false if blanks follow the backslash.

## Wrong programs

seeded/LOG.jsonl lists edits of the model that imitate realistic bugs, made in a copy outside of this repository, with the claims they
break and the theorems whose proofs failed.

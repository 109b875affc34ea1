#!/usr/bin/env python3
"""Write DESIGN.md: fixed text, the plan table of the existing file, and the results from MANIFEST.json."""
import json
old=open('/verif/DESIGN.md').read()
plan=old[old.index("## Plan per property"):]
if "\n## Results" in plan: plan=plan[:plan.index("\n## Results")]
plan=plan.rstrip()+"\n"
if "C65" not in plan:
    plan+='''| C65, C66 | `d.getVar` pattern; `GetScrComponents`, `GetValidNamedResources` | symbolic evaluation of the matcher; set equality |
| C67–C75 | the remaining statement patterns, `Function`, `textwrap.dedent` | the first way each pattern matches a parametric text; no earlier pattern matches it; longest common prefix |
'''
claims=json.load(open('/verif/MANIFEST.json'))["claims"]
props={json.loads(l)["id"]:json.loads(l) for l in open('/verif/properties.jsonl')}
res="| id | title | status | remarks |\n|----|-------|--------|---------|\n"
for c in sorted(claims,key=lambda c:int(c["property"][1:])):
    res+="| %s | %s | %s | %s |\n"%(c["property"],props[c["property"]]["title"],c["status"],c["note"].replace("|","\\|"))
text='''# A Lean 4 model of oelint-parser

(The plan table was written before the proofs. The table of results is generated from MANIFEST.json by tools/gen_design.py.)

## Approach

Everything is written as total, computable Lean functions over `List Char` (Python `str`), `Nat`/`Int`,
association lists (Python `dict`, insertion ordered) and plain structures. Exceptions are values.

* `Verif/Model/Str.lean` – the Python `str` and `os.path` functions the code calls.
* `Verif/Model/Regex.lean` – a backtracking regular-expression semantics (list of successes in priority order)
  covering everything the patterns of the code base use: classes, greedy/lazy/possessive loops, groups,
  look-ahead, anchors; plus a parser for pattern texts, so that the *verbatim* pattern strings of the sources are
  the input of the model and patterns built at run time from file names are modelled as well.
* `Verif/Model/Patterns.lean` – the patterns of the code base (generated by tools/gen_patterns.py) with, for each, a
  kernel-checked proof that the verbatim source text parses to the syntax tree used.
* `Verif/Model/Inlinerep.lean`, `Constants.lean`, `Item.lean`, `Chunks.lean`, `Stash.lean`, `Parser.lean`,
  `ExpandTerm.lean`, `StashOps.lean`, `RegexRpl.lean` – one module per part of the code, function by function. Every definition
  cites the lines it models and says where it simplifies.
* `Verif/Model/Cache.lean` – the stash again, with the `functools.cache` tables as part of the state (C34, C35).
* `Verif/Model/ConstHeap.lean` – the constants again, on a heap of objects with identities (C31).
* `Verif/Spec/*.lean` – small independent specifications used in theorem statements.
* `Verif/Props/*.lean` – the property theorems, with an `example` beside each one that its hypotheses are met.
* `Verif/Lemmas/*.lean` – helper lemmas.

Nondeterminism of the runtime that is observable (iteration order of Python sets) is a parameter of the model with
only the permutation law assumed; theorems quantify over it. The file system is a parameter (`World`).

## Trusted base

* Lean's kernel (4.33.0). No axioms are added, there is no `sorry`, `native_decide` or `bv_decide`. `decide +kernel` is evaluated by
  the kernel. AXIOMS.md (tools/gen_axioms.py) lists for each claimed theorem the axioms it depends on; they are at most `propext`,
  `Classical.choice` and `Quot.sound`.
* That the model says what the code does. The code was read, not run. COVERAGE.md (tools/gen_coverage.py) lists for each function of
  `/repo/oelint_parser` the definitions that model it. The correspondence of the patterns is checked further: their texts
  are copied from the sources by a script and parsed inside Lean.
* That the semantics of the Python functions in `Model/Str.lean` (`split`, `strip`, `replace`, `find`, `os.path.*`,
  `textwrap.dedent`) and of the module `regex` in `Model/Regex.lean` is right for the inputs that occur. Whether a pattern matches does
  not depend on the matching strategy of the model: C103_match and C103_search prove the matcher sound and complete for the declarative
  meaning in `Spec/Regex.lean`. Which of several possible matches is taken (greedy and lazy repetition, leftmost alternative) is
  trusted to be that of Python.
* That the statements in `Verif/Props` and `Verif/Spec` express the English of properties.jsonl.

### What is modelled

All functions of `parser.py`, `inlinerep.py`, `rpl_regex.py`, `cls_item.py`, `cls_stash.py` and `constants.py` except the ones below,
see COVERAGE.md.

### What is not modelled, or modelled in a simplified way

* `hashlib.sha1` is a parameter (`World.sha1`): C48 and C96 are about the data that is hashed. `repr` of built-in types is modelled
  (`Model/Repr.lean`); which characters beyond ASCII are printable is a parameter (`World.printable`).
* `Constants.__init__` and `Constants.__load_db`: the data base is an arbitrary JSON tree. Lists in it hold strings.
* Type hints, documentation strings; the progress output of `AddFile` is modelled as the list of the lines printed (`Stash.printed`).
* `urllib.parse.urlparse` is a parameter (`World.urlparse`).
* The file system does not change while one call runs; between calls it may (C101). `open` gives a text, "not found", "no permission" or another error.
  Decoding of bytes is not modelled; translation of newlines is.
* Unicode: which characters above ASCII count as `\\w` is a parameter (class `Uni`); `\\s`, `str.strip` and `str.isspace` use the fixed
  Unicode list.
* The time limit of `RegexRpl` is a parameter of `Model/RegexRpl.lean` (C63); elsewhere patterns are evaluated without a limit.
* Patterns made at run time from file names may use syntax that `Model/Regex.lean` does not cover (back references, `\\p{..}`, …);
  compiling them is an error value in the model.
* Recursion: CPython's recursion limit is not modelled. `AddFile` and `ExpandTerm` run with a depth as argument; theorems hold for
  every depth, C47 and C49 say which depth is enough.
* Objects: an item is a value with an identity number; two items are equal in the model exactly if they are the same object.
  Lists returned to the caller are values; callers who change what a question returned are the subject of C87 only.
* Caches of functions that depend on their arguments only (`SafeLineSplit`, `Guess*`) are left out. Those of `GetLayerRoot` and
  `FindLocalOrLayer` are modelled where `AddFile` uses them; asked directly by a user (C59) they are computed anew. Except in C101
  the disk stays as it is. In C34 and C35 calls that raise are excluded from the histories, but for calls of `AddFile` that fail
  while reading files.
* Hypotheses about the environment: `os.path.isdir("")` is false where the theorems say so (`W.isDir [] = false`); the current
  directory is an absolute path.

'''
text+=plan+"\n## Results\n\n"+res
text+='''
"partial" always means: the code as it is violates the full statement. There is a theorem that refutes it with a concrete run
(`…_counterexample`, `…_false`) and a theorem `…_partial` for the part that holds.

## Disagreements between the properties and the code

All of these were found by attempts to prove the property; each has a kernel-checked witness.

'''
for c in sorted(claims,key=lambda c:int(c["property"][1:])):
    if c["status"]=="partial":
        text+="* **%s** %s: %s\n"%(c["property"],props[c["property"]]["title"],c["note"])
text+='''
Peculiarities that no property forbids but that a reader may trip over: the new override syntax is sticky within a file (C09);
`attributeValue=""` means any value; `# foo () {` starts a function chunk; a `.bbappend` named `gtk+.bbappend` is linked to `gtk+.bb` only
if it is added first (C41); names of tasks that contain `before` or `after` are cut (C26 excludes them); `spare` is not passed on to nested
expansions (C50); `IsMultiLine` is false if blanks follow the backslash.

## Wrong programs

seeded/LOG.jsonl lists edits of the model that imitate realistic bugs, made in a copy outside of this repository, with the claims they
break and the theorems whose proofs failed.
'''
open('/verif/DESIGN.md','w').write(text)

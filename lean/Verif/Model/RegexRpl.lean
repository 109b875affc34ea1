import Verif.Model.Regex
/-!
# `RegexRpl`: regular expressions with a time-out

`/repo/oelint_parser/rpl_regex.py`.  What the engine does within the time limit is a parameter (`Outcome`); the rest of
the model assumes that no time-out happens and uses `reMatch`, `reSearch`, ... directly.
-/
namespace Oelint

/-- Python exceptions that the code base can raise (as values). -/
inductive PyErr where
  | stopIteration
  | keyError
  | valueError
  | typeError
  | attributeError
  | recursionError
  /-- a run-time pattern that is malformed or outside the supported subset -/
  | regexError
  | timeoutError
  /-- an `OSError` or `UnicodeDecodeError` that the code does not catch -/
  | osError
  /-- not an exception: the call never returns -/
  | diverges
  /-- a dictionary changed its size while it was iterated over -/
  | runtimeError
  deriving DecidableEq, Repr

/-- What a call of the `regex` module does within the time limit. -/
inductive Outcome (α : Type) where
  | done (a : α)
  | timeout
  deriving DecidableEq, Repr

/-- `RegexRpl.search`, `/repo/oelint_parser/rpl_regex.py:11-27`. -/
def rplSearch {α} (eng : Outcome (Option α)) (dflt : Option α) : Except PyErr (Option α) :=
  match eng with
  | .done r => .ok r
  | .timeout => .ok dflt

/-- `RegexRpl.split`, `/repo/oelint_parser/rpl_regex.py:30-47` (`default or []`). -/
def rplSplit (eng : Outcome (List Str)) (dflt : Option (List Str)) : Except PyErr (List Str) :=
  match eng with
  | .done r => .ok r
  | .timeout => .ok (dflt.getD [])

/-- `RegexRpl.match`, `/repo/oelint_parser/rpl_regex.py:50-66`. -/
def rplMatch {α} (eng : Outcome (Option α)) (dflt : Option α) : Except PyErr (Option α) :=
  match eng with
  | .done r => .ok r
  | .timeout => .ok dflt

/-- `RegexRpl.sub`, `/repo/oelint_parser/rpl_regex.py:69-87`. -/
def rplSub (eng : Outcome Str) (dflt : Str) : Except PyErr Str :=
  match eng with
  | .done r => .ok r
  | .timeout => .ok dflt

/-- The object `regex.finditer` returns is lazy: each element is computed, and can time out, when it is asked for. -/
abbrev Scanner (α : Type) := List (Outcome α)

/-- `RegexRpl.finditer`, `/repo/oelint_parser/rpl_regex.py:90-106`: creating the scanner runs nothing, so the `except`
clause is never reached; `dflt` is unused. -/
def rplFinditer {α} (eng : Scanner α) (_dflt : Option (Scanner α)) : Except PyErr (Scanner α) := .ok eng

/-- `list(scanner)` as in `/repo/oelint_parser/cls_stash.py:793,795,797`: a time-out raises here, outside `RegexRpl`. -/
def scanAll {α} : Scanner α → Except PyErr (List α)
  | [] => .ok []
  | .done a :: t => (scanAll t).map (a :: ·)
  | .timeout :: _ => .error .timeoutError

end Oelint

import Verif.Model.Str
import Verif.Spec.Names
/-! Specifications for single statements (C10, C11, C13, C26). They use nothing of the model but the type of texts and
`reSpace` (`\s`). -/
namespace Oelint.Spec

/-- the characters of variable names -/
def NameChar (c : Char) : Prop :=
  ('A' ≤ c ∧ c ≤ 'Z') ∨ ('0' ≤ c ∧ c ≤ '9') ∨ ('a' ≤ c ∧ c ≤ 'z') ∨ c ∈ c!"_.-${}:"

instance (c : Char) : Decidable (NameChar c) := by unfold NameChar; infer_instance

/-- words that, followed by a blank, start another statement -/
def keywords : List Str :=
  [c!"INHERIT", c!"EXPORT_FUNCTIONS", c!"inherit", c!"export", c!"def", c!"include", c!"require", c!"include_all",
   c!"addtask", c!"deltask", c!"unset", c!"addpylib", c!"addfragments"]

/-- a name a value can be assigned to -/
structure AssignName (n : Str) : Prop where
  ne : n ≠ []
  chars : ∀ c ∈ n, NameChar c
  last : n.getLast? ≠ some ':' ∧ n.getLast? ≠ some '.'
  keyword : n ∉ keywords
  defer : ∀ k : Nat, n ≠ c!"inherit" ++ (List.replicate k c!"_defer").flatten

/-- the operators of assignments -/
def operators : List Str := [c!"=", c!"?=", c!"??=", c!":=", c!"+=", c!".=", c!"=+", c!"=."]

/-- blanks within a line -/
def Blanks (s : Str) : Prop := ∀ c ∈ s, reSpace c = true ∧ c ≠ '\n'

/-- `line` assigns `val` to `name` with the operator `op` with blanks `ws1`, `ws2` around it -/
structure Assignment (line name ws1 op ws2 val : Str) : Prop where
  eq : line = name ++ (ws1 ++ (op ++ (ws2 ++ val)))
  name : AssignName name
  op : op ∈ operators
  blanks1 : Blanks ws1
  blanks2 : Blanks ws2
  val : '\n' ∉ val ∧ ∀ c ∈ val.head?, reSpace c = false ∧ (ws2 = [] → c ≠ '+' ∧ c ≠ '.')

/-- the first character that is not a blank is a `#` -/
def StartsWithHash (s : Str) : Prop := ∃ ws r, s = ws ++ '#' :: r ∧ ∀ c ∈ ws, reSpace c = true

/-- a run of blank separated names as it can follow `before` or `after` -/
structure NameList (txt : Str) (names : List Str) : Prop where
  words : Words (· = ' ') txt names
  start : txt.head? = some ' '
  chars : ∀ c ∈ txt, c ≠ '#' ∧ c ≠ '\n' ∧ (reSpace c = true → c = ' ')
  names : ∀ n ∈ names, ¬ c!"before" <:+: n ∧ ¬ c!"after" <:+: n

/-- what follows the name of the task in an `addtask`: at most one `before` and at most one `after`, in any order -/
inductive Clauses : Str → List Str → List Str → Prop
  | none {w : Str} : (∀ c ∈ w, c = ' ') → Clauses w [] []
  | before {w b : Str} {bs : List Str} : (∀ c ∈ w, c = ' ') → w ≠ [] → NameList b bs →
      Clauses (w ++ (c!"before" ++ b)) bs []
  | after {w a : Str} {as : List Str} : (∀ c ∈ w, c = ' ') → w ≠ [] → NameList a as →
      Clauses (w ++ (c!"after" ++ a)) [] as
  | beforeAfter {w a b : Str} {as bs : List Str} : (∀ c ∈ w, c = ' ') → w ≠ [] → NameList b bs → NameList a as →
      b.getLast? = some ' ' → Clauses (w ++ (c!"before" ++ (b ++ (c!"after" ++ a)))) bs as
  | afterBefore {w a b : Str} {as bs : List Str} : (∀ c ∈ w, c = ' ') → w ≠ [] → NameList a as → NameList b bs →
      a.getLast? = some ' ' → Clauses (w ++ (c!"after" ++ (a ++ (c!"before" ++ b)))) bs as

/-- the characters of task names -/
def TaskChar (c : Char) : Prop :=
  ('A' ≤ c ∧ c ≤ 'Z') ∨ ('0' ≤ c ∧ c ≤ '9') ∨ ('a' ≤ c ∧ c ≤ 'z') ∨ c = '_' ∨ c = '-'

instance (c : Char) : Decidable (TaskChar c) := by unfold TaskChar; infer_instance

/-- a name of a task -/
structure TaskName (n : Str) : Prop where
  ne : n ≠ []
  chars : ∀ c ∈ n, TaskChar c

/-- a comment at the end of a line, or nothing -/
def Comment (s : Str) : Prop := s = [] ∨ (s.head? = some '#' ∧ '\n' ∉ s)

/-- a name in capital letters: pieces of capital letters and digits that start with a letter, joined by `_` -/
structure CapitalName (n : Str) : Prop where
  chars : ∀ c ∈ n, ('A' ≤ c ∧ c ≤ 'Z') ∨ ('0' ≤ c ∧ c ≤ '9') ∨ c = '_'
  pieces : ∃ ps, Pieces '_' n ps ∧ ∀ p ∈ ps, ∃ c t, p = c :: t ∧ 'A' ≤ c ∧ c ≤ 'Z'
  other : n ≠ c!"INHERIT" ∧ n ≠ c!"EXPORT_FUNCTIONS"

/-- names of scripts that may follow `addtask` but are not tasks -/
def scripts : List Str := [c!"pkg_preinst", c!"pkg_postinst", c!"pkg_prerm", c!"pkg_postrm"]

end Oelint.Spec

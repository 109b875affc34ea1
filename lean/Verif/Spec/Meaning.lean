import Verif.Spec.Recipe
import Verif.Spec.Spelling
/-! What a recipe says about its variables, read from its text alone (C116). Nothing here mentions items, stashes or functions of the code. -/
namespace Oelint.Spec

/-- the declaration `BASE:o1:...:on OP "TEXT"` -/
structure Decl where
  base : Str
  overrides : List Str
  op : Str
  text : Str

/-- what may stand in a recipe between declarations is any statement that loads no file -/
inductive Entry where
  | decl (d : Decl)
  | other (st : Stmt)

/-- the statement that is written -/
def Entry.stmt : Entry → Stmt
  | .decl d => .assign (joinS [':'] (d.base :: d.overrides)) c!" " d.op c!" " ('"' :: d.text ++ ['"'])
  | .other st => st

/-- an assignment or an inherit -/
def Stmt.counts : Stmt → Bool
  | .assign .. | .inherit .. | .inheritGlobal .. => true
  | _ => false

/-- the names of the overrides that change a value later -/
def later : List Str := [c!"append", c!"prepend", c!"remove"]

/-- the conditions on an entry: a declaration has a name in capital letters, does not both append and prepend, and its text neither starts nor ends with a quote and
does not contain the word that the parser uses for inline python -/
def Entry.Ok : Entry → Prop
  | .decl d => Assignment (Entry.decl d).stmt.text (joinS [':'] (d.base :: d.overrides)) c!" " d.op c!" " ('"' :: d.text ++ ['"']) ∧ Overridden d.base d.overrides ∧
      ¬ (c!"append" ∈ d.overrides ∧ c!"prepend" ∈ d.overrides) ∧ d.text.head? ≠ some '"' ∧ d.text.getLast? ≠ some '"' ∧ ¬ c!"!!!inlineblock!!!" <:+: d.text
  | .other st => st.Ok ∧ st.counts = false

/-- the declarations of a recipe -/
def decls : List Entry → List Decl
  | [] => []
  | .decl d :: es => d :: decls es
  | .other _ :: es => decls es

/-- the variable a declaration is about: with its overrides, without `append`, `prepend`, `remove` -/
def Decl.name (d : Decl) : Str := joinS [':'] (d.base :: d.overrides.filter (fun o => !later.contains o))

/-- the declaration acts after all others -/
def Decl.late (d : Decl) : Bool := later.any d.overrides.contains

/-- what an operator does to a value -/
def Decl.now (o : Option Str) (d : Decl) : Option Str :=
  if d.op = c!"?=" ∨ d.op = c!"??=" then some (o.getD d.text)
  else if d.op = c!"+=" then some (o.getD [] ++ c!" " ++ d.text)
  else if d.op = c!"=+" then some (d.text ++ c!" " ++ o.getD [])
  else if d.op = c!".=" then some (o.getD [] ++ d.text)
  else if d.op = c!"=." then some (d.text ++ o.getD [])
  else some d.text

/-- the value by the operators, in the order of the declarations -/
def byOperators (n : Str) (start : Option Str) (ds : List Decl) : Option Str :=
  (ds.filter (fun d => d.name = n ∧ d.late = false)).foldl Decl.now start

/-- the texts of the declarations about `n` with the given override -/
def texts (n w : Str) (ds : List Decl) : List Str := (ds.filter (fun d => d.name = n ∧ w ∈ d.overrides)).map (·.text)

/-- `n` has a value -/
def Given (n : Str) (start : Option Str) (ds : List Decl) : Prop := byOperators n start ds ≠ none ∨ ∃ d ∈ ds, d.name = n ∧ d.late = true

end Oelint.Spec

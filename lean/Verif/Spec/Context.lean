import Verif.Spec.Reproducible
import Verif.Spec.History
import Verif.Spec.Expand
/-! What the items of a file depend on (C92). -/
namespace Oelint.Spec
variable [Uni]

/-- what an item says, without `Line` and without its identity -/
def content (x : Item) : Item := { x with uid := 0, line := 0 }

/-- the text refers to variables in `V` only, and reads no files -/
def RefersWithin (V : Str → Prop) (t : Str) : Prop := (∀ n, Refers t n → V n) ∧ (∀ n, CallsGetVar t n → V n) ∧ ¬ ReadsFile t

/-- the standard values of variables in `V` refer to variables in `V` only -/
def SetsWithin (consts : J) (V : Str → Prop) : Prop :=
  ∀ d n t, setsBase consts = .ok (.dict d) → V n → d.get n = some (.str t) → RefersWithin V t

/-- the names of the files that `f` includes and of the classes it inherits refer to variables in `V` only -/
def FileWithin (W : World) (V : Str → Prop) (f : Str) : Prop := ∀ n, WritesInclude W f n ∨ WritesInherit W f n → RefersWithin V n

/-- no item assigns a variable in `V` (`append`, `prepend` and `remove` do not assign) -/
def NoneAssigned (V : Str → Prop) (s : Stash) : Prop :=
  ∀ x ∈ s.items, ∀ v, x.payload = .variable v → appendOperation v = [] → ¬ V v.varName

/-- a call `AddFile(path, lineOffset, forcedLink)` with the recursion limit of the interpreter -/
structure FileCall where
  depth : Nat
  path : Str
  off : Int
  forced : Option Str

/-- calls of `AddFile` in order: what each returns or raises, and the stash after all of them -/
def addCalls (W : World) : List FileCall → Stash → List (Except PyErr (List Item)) × Stash
  | [], s => ([], s)
  | c :: l, s =>
    let r := Oelint.addFile W c.depth c.path c.off c.forced s
    let q := addCalls W l r.2
    (r.1 :: q.1, q.2)

end Oelint.Spec

import Verif.Spec.Expand
import Verif.Spec.Layout
/-! What the expansion of a text depends on (C110). -/
namespace Oelint.Spec
variable [Uni]

/-- the text refers to names in `N` only, as `${n}` or by `d.getVar('n')` -/
def DependsWithin (N : Str → Prop) (t : Str) : Prop := (∀ n, Refers t n → N n) ∧ ∀ n, CallsGetVar t n → N n

/-- what a name in `N` stands for refers to names in `N` only -/
def ClosedNames (W : World) (s : Stash) (file : Str) (N : Str → Prop) : Prop := ∀ n t, N n → Defined W s file n t → DependsWithin N t

/-- the item is a statement about a variable in `N` -/
def AboutName (N : Str → Prop) (x : Item) : Prop := ∃ v, x.payload = .variable v ∧ N v.varName

/-- the statements about variables in `N` are those of `l`, from the smallest to the largest `Line`, no two on the same -/
structure LinedNames (N : Str → Prop) (s : Stash) (l : List Item) : Prop where
  rising : l.Pairwise (fun a b => a.line < b.line)
  all : ∀ x, x ∈ l ↔ x ∈ s.items ∧ AboutName N x

end Oelint.Spec

import Verif.Spec.MeaningInclude
import Verif.Spec.Paths
/-! A recipe that inherits one class (C120). -/
namespace Oelint.Spec
variable [Uni]

/-- a file on the disk with the entries `es`, then `inherit NAME` or `inherit_defer NAME`, then the entries `es2` -/
structure InheritingFile (W : World) (path : Str) (es : List Entry) (name : Str) (es2 : List Entry) : Prop where
  text : ∃ stmt ws, (stmt = c!"inherit" ∨ stmt = c!"inherit_defer") ∧ Gap ws ∧ LoadingFile W path es (stmt ++ (ws ++ name)) es2
  name : name ≠ [] ∧ (∀ c ∈ name.head?, reSpace c = false) ∧ '\n' ∉ name ∧ ' ' ∉ name ∧ '$' ∉ name ∧ '(' ∉ name

/-- the class `name` inherited from a file in `dir` is the file `q` -/
def ClassFound (W : World) (dir name q : Str) : Prop :=
  ∃ f, ClassFile name f ∧ FindsClass W dir f [c!"classes", c!"classes-recipe", c!"classes-global"] q

end Oelint.Spec

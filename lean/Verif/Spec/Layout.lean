import Verif.Spec.Queries
import Verif.Spec.Cache
/-! Where items stand, apart from what they say (C107). -/
namespace Oelint.Spec
variable [Uni]

/-- what an item says, without the places it stands at and without its identity -/
def said (x : Item) : Item := { x with uid := 0, line := 0, inFileLine := 0 }

/-- the kinds of items that values are made of -/
def Counts (x : Item) : Prop := x.payload.classifier ∈ [c!"Variable", c!"Unset", c!"Inherit"]

instance (x : Item) : Decidable (Counts x) := by unfold Counts; infer_instance

/-- the items of the stash that values are made of are those of `l`, from the smallest to the largest `Line`, no two on the same -/
structure Lined (s : Stash) (l : List Item) : Prop where
  rising : l.Pairwise (fun a b => a.line < b.line)
  all : ∀ x, x ∈ l ↔ x ∈ s.items ∧ Counts x

/-- the filter asks for such items only -/
def AsksCounting (g : Filter) : Prop := given g.classifier ≠ [] ∧ ∀ k ∈ given g.classifier, k ∈ [c!"Variable", c!"Unset", c!"Inherit"]

/-- questions about values and names (not about the items themselves) -/
def Question.aboutValues : Question → Prop
  | .expandTerm .. | .expandVar .. | .recipes | .scrComponents _ | .packageNames .. | .namedResources _ | .isImage _ | .isPackageGroup _
  | .packagesDynamic _ | .isDynamicPackage .. => True
  | _ => False

end Oelint.Spec

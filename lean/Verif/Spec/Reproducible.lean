import Verif.Spec.Loading
import Verif.Spec.Cache
import Verif.Spec.Queries
import Verif.Spec.Returned
/-! The order in which Python iterates its sets (C91): it depends on addresses and on the hash seed, so it differs between two runs of
the same script. -/
namespace Oelint.Spec
variable [Uni]

/-- the same world, in which sets are iterated in another order -/
def reordered (W : World) (io : List Item → List Item) (hio : ∀ l, (io l).Perm l) (so : List Str → List Str)
    (hso : ∀ l, (so l).Perm l) : World :=
  { W with itemOrder := io, itemOrder_perm := hio, strOrder := so, strOrder_perm := hso }

/-- different items in the stash that the argument `filename` selects have different `Line`s -/
def NoTies (s : Stash) (file : Option Str) : Prop :=
  ∀ x ∈ s.items, ∀ y ∈ s.items, (∀ f, file = some f → f ≠ [] → LinkedTo s f false x) →
    (∀ f, file = some f → f ≠ [] → LinkedTo s f false y) → x.line = y.line → x = y

/-- the questions whose answers are sorted names, or yes and no, or do not look at the items -/
def Question.settled : Question → Bool
  | .recipes | .loneAppends | .bbClasses | .files _ _ | .scrComponents _ | .isImage _ | .isPackageGroup _ => true
  | _ => false

/-- the file that the question is about, for the questions whose answers are made from assignments in the order of `Line` -/
def Question.about : Question → Option (Option Str)
  | .itemsFor f => some f.filename
  | .expandTerm f _ _ => some (some f)
  | .expandVar f _ _ _ => some f
  | .packageNames f _ => some (some f)
  | .namedResources f => some (some f)
  | .packagesDynamic f => some (some f)
  | _ => none

/-- nothing is left to be expanded in the name of any file that is included or of any class that is inherited -/
def PlainLoads (W : World) : Prop :=
  ∀ f n, WritesInclude W f n ∨ WritesInherit W f n → '$' ∉ n ∧ '(' ∉ n

/-- the same item, up to the order in which the files that include it are listed -/
def SameItem (x y : Item) : Prop :=
  { y with includedFrom := x.includedFrom } = x ∧ ∀ f, f ∈ y.includedFrom ↔ f ∈ x.includedFrom

end Oelint.Spec

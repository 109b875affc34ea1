import Verif.Spec.Known
import Verif.Spec.Expand
import Verif.Spec.History
import Verif.Model.DefaultDb
/-! Specifications for the data base shipped with the package (C85, C86). -/
namespace Oelint.Spec
variable [Uni]

/-- a dictionary of texts -/
def TextDict (v : J) : Prop := ∃ d, v = .dict d ∧ ∀ n y, d.get n = some y → ∃ t, y = .str t

/-- the value has the type that is documented for the constant, `/repo/oelint_parser/constants.py:95-192` -/
def Documented : Known → J → Prop
  | .mirrorsKnown, v | .setsBase, v => TextDict v
  | _, v => ∃ l, v = .list l

/-- the stash was created with the shipped constants, and any calls were made since -/
def StartsShipped (W : World) (s : Stash) : Prop := ∃ s0 P, s0.consts = shippedDb ∧ History W P s0 s

/-- nothing assigns the name -/
def Unassigned (s : Stash) (file n : Str) : Prop := ∀ x, ¬ Assigns s file n x

end Oelint.Spec

import Verif.Spec.Context
import Verif.Spec.Cache
import Verif.Spec.Printed
/-! Files of one stash that have nothing to do with each other (C105). -/
namespace Oelint.Spec
variable [Uni]

/-- calls that led from `s` to `t` and have read the files `read` have nothing to do with the file `f` -/
structure Elsewhere (s t : Stash) (read : List Str) (f : Str) : Prop where
  /-- the same files are linked to `f`: the files read are neither loaded by `f` nor appends of `f` -/
  links : links t f = links s f
  /-- neither `f` nor a file linked to it (an include, a class, an append) has been read again -/
  fresh : ∀ p ∈ read, p ≠ f ∧ p ∉ Spec.links s f
  /-- no append of `f` (nor `f`, if it is one) is linked to a file that has been read -/
  appends : ∀ a, a = f ∨ a ∈ Spec.links s f → c!".bbappend" <:+ a → ∀ p ∈ read, a ∉ Spec.links t p

/-- the question is about the file `f` -/
def Question.asksAbout (f : Str) : Question → Prop
  | .itemsFor g => g.filename = some f
  | .reduce _ g => g.filename = some f
  | .expandTerm g _ _ => g = f
  | .expandVar g _ _ _ => g = some f
  | .packageNames g _ => g = f
  | .namedResources g => g = f
  | .isImage g => g = f
  | .isPackageGroup g => g = f
  | .packagesDynamic g => g = f
  | .isDynamicPackage g _ => g = f
  | _ => False

end Oelint.Spec

import Verif.Spec.Context
import Verif.Spec.History
import Verif.Spec.Known
import Verif.Spec.Reproducible
/-! Files that are added one after the other (C104). -/
namespace Oelint.Spec
variable [Uni]

/-- `AddFile` is called for each of the files, one after the other, and each of the calls succeeds -/
inductive AddedAll (W : World) : List Str → Stash → Stash → Prop
  | nil {s} : AddedAll W [] s s
  | cons {p l s s1 s2 n off forced r} : addFile W n p off forced s = (.ok r, s1) → AddedAll W l s1 s2 → AddedAll W (p :: l) s s2

end Oelint.Spec

import Verif.Spec.History
/-! Specification: no item is lost (C79). -/
namespace Oelint.Spec
variable [Uni]

/-- the calls that put no items of the caller into the stash -/
def Call.own : Call → Prop
  | .append _ => False
  | _ => True

/-- the item without its `Line` -/
def noLine (x : Item) : Item := { x with line := 0 }

end Oelint.Spec

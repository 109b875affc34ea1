import Verif.Model.StashOps
import Mathlib.Data.List.Forall2
/-! What a fingerprint is about (C96). -/
namespace Oelint
variable [Uni]
namespace Spec

/-- the same value of an attribute; a set may be listed in any order -/
def Agrees : Attr → Attr → Prop
  | .strset a, .strset b => a.Perm b
  | a, b => a = b

/-- two items of the same class whose attributes have the same names and values -/
def SameContent (x y : Item) : Prop :=
  x.payload.classifier = y.payload.classifier ∧
    List.Forall₂ (fun a b => a.1 = b.1 ∧ Agrees a.2 b.2) x.getAttributes y.getAttributes

/-- an `Inherit` item that loaded at most one class -/
def OneClass (x : Item) : Prop := ∀ st cl paths, x.payload = .inherit st cl paths → paths.length ≤ 1

end Spec
end Oelint

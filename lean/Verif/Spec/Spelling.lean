import Verif.Spec.Statements
import Verif.Model.Item
import Mathlib.Data.List.Forall2
/-! The two spellings of overrides, `A_append` and `A:append` (C113). -/
namespace Oelint.Spec

/-- a name of capital letters followed by overrides (or none): each override starts with a lower case letter, a digit or a reference, and contains neither
`_` nor `:` -/
structure Overridden (base : Str) (os : List Str) : Prop where
  base : CapitalName base
  overrides : ∀ o ∈ os, '_' ∉ o ∧ ':' ∉ o ∧ ∃ c t, o = c :: t ∧ OverrideChar c

/-- the same assignment, with the old and with the new spelling of overrides -/
def Spellings (a b : Str) : Prop :=
  ∃ base os ws1 op ws2 val, Overridden base os ∧ Assignment a (joinS ['_'] (base :: os)) ws1 op ws2 val ∧
    Assignment b (joinS [':'] (base :: os)) ws1 op ws2 val

/-- what two spellings of a statement have in common: everything a value is made of (of an `unset`, whether it has a flag) -/
structure Respelled (x y : Item) : Prop where
  origin : x.origin = y.origin
  blocks : x.inlineBlocks = y.inlineBlocks
  payload : (∃ v w, x.payload = .variable v ∧ y.payload = .variable w ∧ w = { v with subItem := w.subItem }) ∨
    ∃ n m flag, x.payload = .unset n flag ∧ y.payload = .unset m flag

end Oelint.Spec

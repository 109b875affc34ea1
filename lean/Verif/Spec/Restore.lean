import Verif.Spec.Inline
/-! Specification for putting inline blocks back (C16). -/
namespace Oelint.Spec

/-- the inline block with the given python code -/
def blockOf (code : Str) : Str := opening ++ code ++ ['}']

/-- a text with inline blocks: `h`, then for each pair a block and the text behind it, the blocks rendered by `f` -/
def render (f : Str → Str) (h : Str) (l : List (Str × Str)) : Str := h ++ l.flatMap (fun p => f (blockOf p.1) ++ p.2)

/-- the code is free of braces and there is no `@` but those of the blocks -/
def PlainParts (h : Str) (l : List (Str × Str)) : Prop :=
  '@' ∉ h ∧ ∀ p ∈ l, (∀ c ∈ p.1, c ≠ '@' ∧ c ≠ '{' ∧ c ≠ '}') ∧ '@' ∉ p.2

/-- going from left to right and putting back the blocks, the text that stands for the next block is not empty and occurs first where
the block belongs -/
def Unambiguous (f : Str → Str) : Str → List (Str × Str) → Prop
  | _, [] => True
  | h, (c, t) :: l =>
    f (blockOf c) ≠ [] ∧ (∀ j < h.length, ¬ f (blockOf c) <+: (render f h ((c, t) :: l)).drop j) ∧ Unambiguous f (h ++ (blockOf c ++ t)) l

end Oelint.Spec

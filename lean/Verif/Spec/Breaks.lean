import Verif.Model.Str
/-! Statements written over several lines (C112). -/
namespace Oelint.Spec

/-- the lines of a statement with a backslash at the end of every line but the last -/
def broken : List Str → Str
  | [] => []
  | [l] => l
  | l :: l' :: ls => l ++ '\\' :: '\n' :: broken (l' :: ls)

/-- a line as it stands between the breaks: no newline, no backslash, and not the control character U+001B -/
def PlainPart (l : Str) : Prop := '\n' ∉ l ∧ '\\' ∉ l ∧ '\x1b' ∉ l

/-- no word is broken: at every break the text before it ends in a blank or the text behind it starts with one -/
def AtBlanks (ls : List Str) : Prop :=
  ∀ xs ys, ls = xs ++ ys → (∀ c ∈ xs.flatten.getLast?, reSpace c = true) ∨ ∀ c ∈ ys.flatten.head?, reSpace c = true

end Oelint.Spec

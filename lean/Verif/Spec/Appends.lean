import Verif.Spec.History
/-! Names of `.bbappend` files (C41, C42). -/
namespace Oelint.Spec

/-- the name without extension of a recipe fits the one of a `.bbappend`: `%` stands for any text without newline, `.` for
any character but newline, other characters for themselves -/
inductive Glob : Str → Str → Prop
  | nil : Glob [] []
  | percent {stem a n : Str} (ha : '\n' ∉ a) (h : Glob stem n) : Glob ('%' :: stem) (a ++ n)
  | dot {stem n : Str} {c : Char} (hc : c ≠ '\n') (h : Glob stem n) : Glob ('.' :: stem) (c :: n)
  | char {stem n : Str} {c : Char} (h1 : c ≠ '%') (h2 : c ≠ '.') (h : Glob stem n) : Glob (c :: stem) (c :: n)

/-- the path of a file in a directory, with its name split into stem and extension -/
def IsFile (path stem ext : Str) : Prop := ∃ dir, path = dir ++ c!"/" ++ stem ++ ext ∧ '/' ∉ stem

/-- no character of the stem has a meaning in regular expressions, except `.`; the extension does not occur in it -/
def PlainAppend (stem : Str) : Prop :=
  (∀ c ∈ stem, c ∉ c!"\\^$|?*+()[]{}") ∧ ¬ c!".bbappend" <:+: stem

/-- the extension does not occur in the name of the recipe -/
def PlainRecipe (name : Str) : Prop := ¬ c!".bb" <:+: name

/-- `AddFile` with an offset that is not negative, or `Finalize` -/
def Call.forward : Call → Prop
  | .addFile _ o _ => 0 ≤ o
  | .finalize => True
  | _ => False

end Oelint.Spec

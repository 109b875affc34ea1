import Verif.Model.Str
/-! Names of recipes (C56, C57). -/
namespace Oelint.Spec

/-- `o` is `s` without the texts `p` at its start, as long as something is left -/
inductive WithoutPrefixes (p : Str) : Str → Str → Prop
  | done {s : Str} (h : ∀ r, s = p ++ r → r = []) : WithoutPrefixes p s s
  | step {r o : Str} (hr : r ≠ []) (h : WithoutPrefixes p r o) : WithoutPrefixes p (p ++ r) o

/-- `o` is `s` without one text `p` at its end, if something is left -/
def WithoutSuffix (p s o : Str) : Prop := (o ≠ [] ∧ s = o ++ p) ∨ ((∀ b, s = b ++ p → b = []) ∧ o = s)

/-- the base name that belongs to a recipe name: without `nativesdk-` in front, then without one `-native`, then without
one `-cross` at the end -/
def BaseName (n o : Str) : Prop :=
  ∃ a b, WithoutPrefixes c!"nativesdk-" n a ∧ WithoutSuffix c!"-native" a b ∧ WithoutSuffix c!"-cross" b o

end Oelint.Spec

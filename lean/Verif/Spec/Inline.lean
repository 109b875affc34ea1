import Verif.Model.Str
/-!
# Specification of inline-block substitution

Independent of the parser: what a balanced scope is, what "replace every occurrence" means, and what a sequence of
substitutions of the leftmost `${@` block is.
-/
namespace Oelint.Spec

/-- `p` is the shortest prefix of `t` with more closing than opening braces, or all of `t` if there is none -/
def IsScope (p t : Str) : Prop :=
  p <+: t ∧ (∀ q, q <+: p → q ≠ p → q.count '}' ≤ q.count '{') ∧ (p.count '{' < p.count '}' ∨ p = t)

/-- `s'` is `s` with all occurrences of `old` (from the left, not overlapping) replaced by `new` -/
inductive Replaced (old new : Str) : Str → Str → Prop
  | none {s : Str} : ¬ old <:+: s → Replaced old new s s
  | some {a b b' : Str} : (∀ j < a.length, ¬ old <+: (a ++ (old ++ b)).drop j) → Replaced old new b b' →
      Replaced old new (a ++ (old ++ b)) (a ++ (new ++ b'))

/-- the opening of an inline block -/
def opening : Str := ['$', '{', '@']

/-- `blk` is the inline block that starts at the leftmost opening in `s` -/
def FirstBlock (s blk : Str) : Prop :=
  ∃ a p t, s = a ++ (opening ++ t) ∧ (∀ j < a.length, ¬ opening <+: s.drop j) ∧ IsScope p t ∧ blk = opening ++ p

/-- substituting the leftmost inline block again and again leads from `s` to `out`, a text without inline blocks; `bs`
lists the blocks with their replacements, which are given by `value` -/
inductive Substituted (value : Str → Str) : Str → List (Str × Str) → Str → Prop
  | done {s : Str} : ¬ opening <:+: s → Substituted value s [] s
  | step {s s' blk out : Str} {bs : List (Str × Str)} : FirstBlock s blk → Replaced blk (value blk) s s' →
      Substituted value s' bs out → Substituted value s ((blk, value blk) :: bs) out

/-- the helper functions the documentation lists -/
def helperNames : List String :=
  ["bb.utils.contains", "bb.utils.contains_any", "bb.utils.filter", "oe.utils.all_distro_features",
   "oe.utils.any_distro_features", "oe.utils.both_contain", "oe.utils.conditional", "oe.utils.ifelse",
   "oe.utils.less_or_equal", "oe.utils.vartrue", "oe.utils.version_less_or_equal", "d.getVar"]

/-- the placeholder for unknown inline python -/
def placeholder : Str := "!!!inlineblock!!!".toList

end Oelint.Spec

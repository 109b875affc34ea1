import Verif.Model.Str
/-! Calls of the known helper functions in inline python (C14, C65). -/
namespace Oelint.Spec

/-- an argument without commas, parentheses and newlines -/
def Free (a : Str) : Prop := ∀ c ∈ a, c ≠ ',' ∧ c ≠ '\n' ∧ c ≠ '(' ∧ c ≠ ')'

/-- blanks, a quote, the text `t`, the quote -/
def Quoted (a t : Str) : Prop :=
  ∃ ws q, a = ws ++ q :: (t ++ [q]) ∧ (∀ c ∈ ws, c = ' ') ∧ (q = '"' ∨ q = '\'') ∧ Free t ∧ '"' ∉ t ∧ '\'' ∉ t

/-- blanks and one character (`d`) that is no white space -/
def OneChar (a : Str) : Prop := ∃ ws x, a = ws ++ [x] ∧ (∀ c ∈ ws, c = ' ') ∧ reSpace x = false ∧ Free [x]

/-- a call of a helper function -/
def callText (name : Str) (args : List Str) : Str := name ++ c!"(" ++ joinS c!"," args ++ c!")"

/-- the text of a call of a known helper function with plain arguments, and its value if the condition holds and if it does not; a comma behind
the last argument counts as no argument -/
inductive HelperCall : Str → List Str → Str → Str → Prop
  | contains {v w t f d T F : Str} : Free v → Free w → Quoted t T → Quoted f F → OneChar d →
      HelperCall c!"bb.utils.contains" [v, w, t, f, d] T F
  | containsAny {v w t f d T F : Str} : Free v → Free w → Quoted t T → Quoted f F → OneChar d →
      HelperCall c!"bb.utils.contains_any" [v, w, t, f, d] T F
  | filter {t w d T : Str} : Quoted t T → Free w → Free d → HelperCall c!"bb.utils.filter" [t, w, d] T []
  | conditional {v w t f d T F : Str} : Free v → Free w → Quoted t T → Quoted f F → Free d →
      HelperCall c!"oe.utils.conditional" [v, w, t, f, d] T F
  | ifelse {v t f T F : Str} : Free v → Quoted t T → Quoted f F → HelperCall c!"oe.utils.ifelse" [v, t, f] T F
  | anyFeatures {d w : Str} : Free d → Free w → HelperCall c!"oe.utils.any_distro_features" [d, w] c!"1" []
  | anyFeaturesTrue {d w t T : Str} : Free d → Free w → Quoted t T → HelperCall c!"oe.utils.any_distro_features" [d, w, t] T []
  | anyFeaturesComma {d w t : Str} : Free d → Free w → (∀ c ∈ t, c = ' ') → HelperCall c!"oe.utils.any_distro_features" [d, w, t] c!"1" []
  | anyFeaturesBoth {d w t f T F : Str} : Free d → Free w → Quoted t T → Quoted f F →
      HelperCall c!"oe.utils.any_distro_features" [d, w, t, f] T F
  | allFeatures {d w : Str} : Free d → Free w → HelperCall c!"oe.utils.all_distro_features" [d, w] c!"1" []
  | allFeaturesTrue {d w t T : Str} : Free d → Free w → Quoted t T → HelperCall c!"oe.utils.all_distro_features" [d, w, t] T []
  | allFeaturesComma {d w t : Str} : Free d → Free w → (∀ c ∈ t, c = ' ') → HelperCall c!"oe.utils.all_distro_features" [d, w, t] c!"1" []
  | allFeaturesBoth {d w t f T F : Str} : Free d → Free w → Quoted t T → Quoted f F →
      HelperCall c!"oe.utils.all_distro_features" [d, w, t, f] T F
  | vartrue {v t f d T F : Str} : Free v → Quoted t T → Quoted f F → Free d → HelperCall c!"oe.utils.vartrue" [v, t, f, d] T F
  | lessOrEqual {v w t f d T F : Str} : Free v → Free w → Quoted t T → Quoted f F → Free d →
      HelperCall c!"oe.utils.less_or_equal" [v, w, t, f, d] T F
  | versionLessOrEqual {v w t f d T F : Str} : Free v → Free w → Quoted t T → Quoted f F → Free d →
      HelperCall c!"oe.utils.version_less_or_equal" [v, w, t, f, d] T F
  | bothContain {v w t d T : Str} : Free v → Free w → Quoted t T → Free d → HelperCall c!"oe.utils.both_contain" [v, w, t, d] T []

/-- an inline block: blanks, the code, blanks -/
def inlineText (ws code ws' : Str) : Str := c!"${@" ++ ws ++ code ++ ws' ++ c!"}"

end Oelint.Spec

import Verif.Model.Str
/-! Specifications for names, modifiers, words (C17-C25). They use nothing of the model but the type of texts and `joinS`
(`sep.join(pieces)`). -/
namespace Oelint.Spec

/-- the pieces of a text between occurrences of the character `d` -/
def Pieces (d : Char) (s : Str) (ps : List Str) : Prop := ps ≠ [] ∧ joinS [d] ps = s ∧ ∀ p ∈ ps, d ∉ p

/-- the characters an override can start with: `[a-z0-9{}$]` -/
def OverrideChar (c : Char) : Prop := ('a' ≤ c ∧ c ≤ 'z') ∨ ('0' ≤ c ∧ c ≤ '9') ∨ c = '{' ∨ c = '}' ∨ c = '$'

/-- the part of a text before its first dash -/
def beforeDash (s : Str) : Str := s.takeWhile (fun c => c != '-')

/-- a piece of a variable name that is an override, given the first piece of the name -/
def Override (first piece : Str) : Prop :=
  (first ≠ c!"pkg" ∧ ∃ c t, beforeDash piece = c :: t ∧ OverrideChar c) ∨ beforeDash piece = c!"${PN}"

/-- `vs` and `ss` are the pieces of `ps` for which `P` fails and holds, in order -/
inductive Distributed (P : Str → Prop) : List Str → List Str → List Str → Prop
  | nil : Distributed P [] [] []
  | left {p ps vs ss} : ¬ P p → Distributed P ps vs ss → Distributed P (p :: ps) (p :: vs) ss
  | right {p ps vs ss} : P p → Distributed P ps vs ss → Distributed P (p :: ps) vs (p :: ss)

/-- `ws` are the maximal runs of characters of `s` that are not separators -/
inductive Words (sep : Char → Prop) : Str → List Str → Prop
  | nil : Words sep [] []
  | skip {c s ws} : sep c → Words sep s ws → Words sep (c :: s) ws
  | word {w s ws} : w ≠ [] → (∀ c ∈ w, ¬ sep c) → (∀ c ∈ s.head?, sep c) → Words sep s ws → Words sep (w ++ s) (w :: ws)

/-- `r` is the first element of `l` with `P`, or the empty text if there is none -/
def FirstOr (P : Str → Prop) (l : List Str) (r : Str) : Prop :=
  (∃ pre post, l = pre ++ r :: post ∧ P r ∧ ∀ x ∈ pre, ¬ P x) ∨ (r = [] ∧ ∀ x ∈ l, ¬ P x)

/-- the overrides of functions -/
def funcOverrides : List Str :=
  [c!"append", c!"prepend", c!"class-native", c!"class-cross", c!"class-target", c!"remove"]

/-- may the overrides `b` of a function name start here, behind the pieces `a`: `b` starts with an override or `a` is the name
of a known function -/
def FuncSplit (known : Str → Bool) (d : Char) (a b : List Str) : Prop :=
  ∃ i r, b = i :: r ∧ (i ∈ funcOverrides ∨ known (joinS [d] a) = true)

/-- `a` and `b` divide the pieces `ps` at the first possible place (not before the first piece) -/
def FirstFuncSplit (known : Str → Bool) (d : Char) (ps a b : List Str) : Prop :=
  ps = a ++ b ∧ a ≠ [] ∧ (b = [] ∨ FuncSplit known d a b) ∧
    ∀ a' b', a' ++ b' = ps → a' ≠ [] → a'.length < a.length → ¬ FuncSplit known d a' b'

end Oelint.Spec

import Verif.Spec.MeaningRefs
import Verif.Spec.Uri
/-! What the packages of a recipe are, read from its text alone (C121, C123). -/
namespace Oelint.Spec
variable [Uni]

/-- `o` is the text `t` with all references but those to the names in `spare` replaced, from left to right -/
inductive FilledBut (spare : List Str) (b : KV) (ds : List Decl) (file : Str) : Str → Str → Prop
  | nil : FilledBut spare b ds file [] []
  | char {c : Char} {r o : Str} : c ≠ '$' → FilledBut spare b ds file r o → FilledBut spare b ds file (c :: r) (c :: o)
  | dollar {c : Char} {r o : Str} : c ≠ '$' → c ≠ '{' → FilledBut spare b ds file (c :: r) o → FilledBut spare b ds file ('$' :: c :: r) ('$' :: o)
  | spared {n r o : Str} : Name n → n ∈ spare → FilledBut spare b ds file r o → FilledBut spare b ds file (refText n ++ r) (refText n ++ o)
  | text {n t v r o : Str} : Name n → n ∉ spare → stands b ds n = some t → NoCalls t → Filled b ds file t v → FilledBut spare b ds file r o →
      FilledBut spare b ds file (refText n ++ r) (v ++ o)
  | name {n t r o : Str} : Name n → n ∉ spare → stands b ds n = none → FromFileName file n t → '$' ∉ t → FilledBut spare b ds file r o →
      FilledBut spare b ds file (refText n ++ r) (t ++ o)
  | unknown {n r o : Str} : Name n → n ∉ spare → stands b ds n = none → n ∉ [c!"PN", c!"BPN", c!"PV", c!"FILE", c!"THISDIR"] → FilledBut spare b ds file r o →
      FilledBut spare b ds file (refText n ++ r) (refText n ++ o)

/-- the texts declared for the variables, whatever operator and overrides are used -/
def declared (names : List Str) (ds : List Decl) : List Str := (ds.filter (fun d => names.contains d.base)).map (·.text)

/-- the source `w` has the option `k` with the value `v`: after the known mirrors are replaced the text is a URL, and of the fields behind its first `;` the last one for `k` says `v` -/
def SourceOption (D : World) (mirrors : List (Str × Str)) (w k v : Str) : Prop :=
  ∃ raw url fields, Mirrored mirrors w raw ∧ D.urlparse raw ≠ none ∧ Pieces ';' raw (url :: fields) ∧ LastOption fields k v

end Oelint.Spec

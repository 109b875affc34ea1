import Verif.Spec.Returned
import Verif.Spec.Succeeds
import Verif.Spec.Known
import Verif.Spec.Inline
/-! Two stashes that a user cannot tell apart (C88-C90). -/
namespace Oelint.Spec
variable [Uni]

/-- `e` ends a line that is followed by `t` (`"\r"` before `"\n"` is half of a line end only) -/
def LineEnd (e t : Str) : Prop := e = c!"\n" ∨ e = c!"\r\n" ∨ (e = c!"\r" ∧ t.head? ≠ some '\n')

/-- the two texts have the same lines, ended in any way -/
inductive SameLines : Str → Str → Prop
  | nil : SameLines [] []
  | char {t t' : Str} (c : Char) (hc : c ≠ '\n' ∧ c ≠ '\r') (h : SameLines t t') : SameLines (c :: t) (c :: t')
  | line {t t' e e' : Str} (he : LineEnd e t) (he' : LineEnd e' t') (h : SameLines t t') : SameLines (e ++ t) (e' ++ t')

/-- the same lines, or the same failure -/
def SameFile (r r' : FileRes) : Prop := r = r' ∨ ∃ t t', r = .text t ∧ r' = .text t' ∧ SameLines t t'

/-- no file contains inline python -/
def NoInlineFiles (W : World) : Prop := ∀ p t, W.file p = .text t → ¬ opening <:+: t

/-- the stash made with another `negative_inline`; what is fed to the fingerprint may differ as well -/
def withNegative (c : CStash) (b : Bool) (hashed : Str) : CStash := { c with base := { c.base with negative := b, hashed := hashed } }

/-- the two data bases differ in the known distros and machines at most -/
def OtherNames (db db' : J) : Prop :=
  ∀ ks, ks ≠ [] → ks ≠ [c!"replacements"] → ks ≠ [c!"replacements", c!"distros"] → ks ≠ [c!"replacements", c!"machines"] →
    valueAt ks db' = valueAt ks db

/-- the stash with other constants -/
def withConstants (c : CStash) (db : J) : CStash := { c with base := { c.base with consts := db } }

end Oelint.Spec

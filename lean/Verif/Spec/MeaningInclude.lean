import Verif.Spec.MeaningAppend
import Verif.Spec.Forms
/-! A recipe that includes one file (C119). -/
namespace Oelint.Spec
variable [Uni]

/-- a file on the disk with the entries `es`, then `include NAME` or `require NAME`, then the entries `es2` -/
structure IncludingFile (W : World) (path : Str) (es : List Entry) (name : Str) (es2 : List Entry) : Prop where
  text : ∃ t ls gs g gs2 stmt ws, W.file (abspath W.cwd path) = .text t ∧ IsLines (univNewlines t) ls ∧ Groups ls (gs ++ g :: gs2) ∧
    List.Forall₂ (fun g e => ¬ c!"${@" <:+: g.flatten ∧ joined g.flatten = e.stmt.text ∧ e.Ok) gs es ∧
    (¬ c!"${@" <:+: g.flatten ∧ joined g.flatten = stmt ++ (ws ++ name) ∧ (stmt = c!"include" ∨ stmt = c!"require") ∧ Gap ws) ∧
    List.Forall₂ (fun g e => ¬ c!"${@" <:+: g.flatten ∧ joined g.flatten = e.stmt.text ∧ e.Ok) gs2 es2
  name : name ≠ [] ∧ (∀ c ∈ name, IncChar c) ∧ '$' ∉ name ∧ '(' ∉ name

/-- a file on the disk with the entries `es`, then a line, then the entries `es2` -/
def LoadingFile (W : World) (path : Str) (es : List Entry) (line : Str) (es2 : List Entry) : Prop :=
  ∃ t ls gs g gs2, W.file (abspath W.cwd path) = .text t ∧ IsLines (univNewlines t) ls ∧ Groups ls (gs ++ g :: gs2) ∧
    List.Forall₂ (fun g e => ¬ c!"${@" <:+: g.flatten ∧ joined g.flatten = e.stmt.text ∧ e.Ok) gs es ∧
    (¬ c!"${@" <:+: g.flatten ∧ joined g.flatten = line) ∧
    List.Forall₂ (fun g e => ¬ c!"${@" <:+: g.flatten ∧ joined g.flatten = e.stmt.text ∧ e.Ok) gs2 es2

end Oelint.Spec

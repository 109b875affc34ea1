import Verif.Spec.Loading
import Mathlib.Data.List.Forall2
/-! How the `Line`s of a file and of the files it loads are laid out (C97). -/
namespace Oelint
variable [Uni]
namespace Spec

/-- the files an item names as loaded: `FileIncluded` resp. `FilePaths` -/
def loadedBy (x : Item) : List Str :=
  match x.payload with
  | .include _ p _ => if p = [] then [] else [p]
  | .inherit _ _ paths => paths
  | _ => []

/-- the line of its file in which the last of the items starts; 0 if there are none -/
def lastStart (l : List Item) : Int := (l.getLast?.map (·.inFileLine)).getD 0

/-- by how many lines the loaded files move what follows; `none` is a file that is skipped -/
def moved (loads : List (Str × Option (List Item))) : Int := (loads.map (fun e => (e.2.map lastStart).getD 0)).sum

/-- The items `res` of a file that is read with the given `lineOffset`, recursively with the files they load.
Each item has the `Line` it has in its own file, plus the offset, plus the lines of the files loaded by earlier items of the same file.
Loaded files start after the line that the statement has in its own file, plus the offset of that file.
`seen` are the files read before, `final` the items in the stash afterwards, the number bounds the depth. -/
def Laid (W : World) (seen : Str → Prop) (final : List Item) : Nat → Str → Int → List Item → Prop
  | 0, _, _, _ => False
  | n + 1, path, off, res =>
    ∃ (mx : Int) (loads : List (List (Str × Option (List Item)))),
      0 ≤ mx ∧ (¬ c!".bbappend" <:+ abspath W.cwd path → mx = 0 ∧ res.Sublist final) ∧
      (∀ x ∈ res, x.origin = abspath W.cwd path) ∧
      List.Forall₂ (fun x l =>
        (∀ p, p ∈ l.map (·.1) ↔ p ∈ loadedBy x) ∧ (x.payload.classifier = c!"Include" → l.length ≤ 1) ∧
        (∀ p, (p, none) ∈ l → ¬ Reread (abspath W.cwd p)) ∧
        ∀ p sub, (p, some sub) ∈ l → (¬ Reread (abspath W.cwd p) → ¬ seen (abspath W.cwd p)) ∧
          (∀ t, W.file (abspath W.cwd p) = .text t → (sub.map (·.realRaw)).flatten = univNewlines t) ∧
          Laid W seen final n p (off + x.inFileLine) sub) res loads ∧
      ∀ pre it post, res = pre ++ it :: post → it.line = off + it.inFileLine + moved (loads.take pre.length).flatten + mx

end Spec
end Oelint

import Verif.Spec.Meaning
import Verif.Model.Parser
import Verif.Spec.Chunks
/-! Files of entries on a disk, and the two orders in which a recipe and a `.bbappend` can be added (C118). -/
namespace Oelint.Spec
variable [Uni]

/-- a file of entries on the disk -/
structure EntryFile (W : World) (path : Str) (es : List Entry) : Prop where
  text : ∃ t ls gs, W.file (abspath W.cwd path) = .text t ∧ IsLines (univNewlines t) ls ∧ Groups ls gs ∧
    List.Forall₂ (fun g e => ¬ c!"${@" <:+: g.flatten ∧ joined g.flatten = e.stmt.text ∧ e.Ok) gs es

/-- the recipe and the `.bbappend` are added, in one order or the other -/
inductive BothAdded (W : World) (s : Stash) (p q : Str) (u : Stash) : Prop
  | recipeFirst {k k' : Nat} {off off' : Int} {forced forced' : Option Str} {s1 : Stash} {res res' : List Item} : 0 ≤ off → 0 ≤ off' →
      addFile W k p off forced s = (.ok res, s1) → addFile W k' q off' forced' s1 = (.ok res', u) → BothAdded W s p q u
  | appendFirst {k k' : Nat} {off off' : Int} {forced forced' : Option Str} {s1 : Stash} {res res' : List Item} : 0 ≤ off → 0 ≤ off' →
      addFile W k' q off' forced' s = (.ok res', s1) → addFile W k p off forced s1 = (.ok res, u) → BothAdded W s p q u

end Oelint.Spec

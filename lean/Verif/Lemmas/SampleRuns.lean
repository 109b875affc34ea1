import Verif.Lemmas.Sample
import Verif.Spec.History
/-! Concrete histories, used only in `example`s and counterexamples. -/
namespace Oelint
open Spec
attribute [local instance] Sample.asciiUni

/-- the stash after `AddFile` for each of the paths, if all succeed -/
def Sample.addAll (W : World) : List Str → Stash → Option Stash
  | [], s => some s
  | p :: ps, s => match addFile W 9 p 0 none s with
    | (.ok _, s') => Sample.addAll W ps s'
    | _ => none

theorem Sample.addAll_added {W : World} (ps qs : List Str) {s0 s s' : Stash} (h0 : Added W s0 qs s)
    (h : Sample.addAll W ps s = some s') : Added W s0 (qs ++ ps) s' := by
  induction ps generalizing qs s with
  | nil => cases h; simpa using h0
  | cons p ps ih =>
    rw [Sample.addAll] at h
    split at h
    · rename_i res s1 he
      have := ih (qs ++ [p]) (.snoc h0 he) h
      simpa using this
    · cases h

/-- a decidable check on that stash -/
def Sample.check (W : World) (ps : List Str) (p : Stash → Bool) : Bool :=
  match Sample.addAll W ps Sample.stash with
  | some s => p s
  | none => false

theorem Sample.check_iff {W : World} {ps : List Str} {p : Stash → Bool} (h : Sample.check W ps p = true) :
    ∃ s, Added W Sample.stash ps s ∧ p s = true := by
  unfold Sample.check at h
  split at h
  · rename_i s hs
    exact ⟨s, by simpa using Sample.addAll_added ps [] .nil hs, h⟩
  · cases h

end Oelint

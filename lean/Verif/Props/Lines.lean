import Verif.Lemmas.Lines
import Verif.Props.Links
/-!
# The `Line`s of a file and the files it loads: C97

`Laid`: each item has the line it has in its file, plus the offset the file was added with, plus for each file loaded by an earlier
item of the same file the line in which the last statement of that file starts. The same holds for the loaded files, whose offset is
the line of the loading statement in its own file plus the offset of that file.
-/
namespace Oelint
open Spec
set_option linter.unusedSectionVars false
section
variable [Uni]

/-- **C97** After any calls, for every successful call of `AddFile`: the exact `Line` of every item that is returned, and of every
item of the files that are loaded, at any depth. Files are loaded as the items say, an include loads one file,
and a file is only skipped if it is of a kind that is read once; what was read before the call is not loaded again. -/
theorem C97_lines (W : World) (P : Call → Prop) (ns neg : Bool) (consts : J) (uid : Nat) (s s' : Stash)
    (h : History W P (Stash.init ns neg consts uid) s) (d : Nat) (path : Str) (off : Int) (forced : Option Str)
    (res : List Item) (hadd : addFile W d path off forced s = (.ok res, s')) :
    Laid W (fun f => f ∈ s.seenClasses ∨ f ∈ s.seenFiles ∧ ¬ Reread f ∧ (splitext f).2 ≠ c!".bbclass") s'.items d path off res := by
  refine addFile_laid path off forced s s' s' res hadd ?_ (Keeps.refl _) _ (fun f hf => ?_)
  · exact history_classesOnly h (fun f hf => by cases hf)
  · rcases hf with hf | ⟨hf, hr, hb⟩
    · simp [alreadySeen, hf]
    · have h1 : f ∈ s.seenFiles := hf
      have : (splitext f).2 ∉ [c!".inc", c!".bb", c!".conf", c!".bbclass"] := by
        intro hm
        simp only [List.mem_cons, List.not_mem_nil, or_false] at hm
        rcases hm with hm | hm | hm | hm
        · exact hr (by simp [Reread, hm])
        · exact hr (by simp [Reread, hm])
        · exact hr (by simp [Reread, hm])
        · exact hb hm
      have h2 : [c!".inc", c!".bb", c!".conf", c!".bbclass"].contains (splitext f).2 = false := by
        rw [← Bool.not_eq_true, List.contains_iff_mem]; exact this
      unfold alreadySeen
      rw [h2]
      simp [h1]

/-- **C97** In a file that loads nothing and is not a `.bbappend`, `Line` is `InFileLine` plus the offset. -/
theorem C97_loads_nothing (W : World) (P : Call → Prop) (ns neg : Bool) (consts : J) (uid : Nat) (s s' : Stash)
    (h : History W P (Stash.init ns neg consts uid) s) (d : Nat) (path : Str) (off : Int) (forced : Option Str)
    (res : List Item) (hadd : addFile W d path off forced s = (.ok res, s')) (hb : ¬ c!".bbappend" <:+ abspath W.cwd path)
    (hn : ∀ x ∈ res, loadedBy x = []) (it : Item) (hi : it ∈ res) : it.line = off + it.inFileLine := by
  have hl := C97_lines W P ns neg consts uid s s' h d path off forced res hadd
  cases d with
  | zero => cases hadd
  | succ d =>
    rw [Laid] at hl
    obtain ⟨mx, loads, _, h2, _, h4, h5⟩ := hl
    obtain ⟨pre, post, he⟩ := List.append_of_mem hi
    rw [h5 pre it post he, (h2 hb).1]
    have : (loads.take pre.length).flatten = [] := by
      refine List.flatten_eq_nil_iff.2 fun l hl => ?_
      obtain ⟨x, hx, h6, _⟩ := forall₂_mem_right h4 (List.mem_of_mem_take hl)
      cases l with
      | nil => rfl
      | cons e l =>
        have := (h6 e.1).1 (by simp)
        rw [hn x hx] at this
        cases this
    rw [this]
    simp [moved]

end
end Oelint

namespace Oelint
open Spec
attribute [local instance] Sample.asciiUni

/-! ## examples -/

/-- C97: the lines of a recipe with two includes: the second included file starts after line 2 although its statement has line 5 -/
example : ∃ s res, addFile Sample.includes 9 c!"/w/two.bb" 0 none Sample.stash = (.ok res, s) ∧
    Laid Sample.includes (fun f => f ∈ Sample.stash.seenClasses ∨ f ∈ Sample.stash.seenFiles ∧ ¬ Reread f ∧
      (splitext f).2 ≠ c!".bbclass") s.items 9 c!"/w/two.bb" 0 res ∧
    res.map (fun i => (i.inFileLine, i.line)) = [(1, 1), (2, 5), (3, 7)] ∧
    Sample.origins s = [(c!"/w/x.inc", 2), (c!"/w/x.inc", 3), (c!"/w/x.inc", 4), (c!"/w/y.inc", 3),
      (c!"/w/two.bb", 1), (c!"/w/two.bb", 5), (c!"/w/two.bb", 7)] := by
  have h : (match addFile Sample.includes 9 c!"/w/two.bb" 0 none Sample.stash with
    | (.ok res, s) => decide (res.map (fun i => (i.inFileLine, i.line)) = [(1, 1), (2, 5), (3, 7)] ∧
        Sample.origins s = [(c!"/w/x.inc", 2), (c!"/w/x.inc", 3), (c!"/w/x.inc", 4), (c!"/w/y.inc", 3),
          (c!"/w/two.bb", 1), (c!"/w/two.bb", 5), (c!"/w/two.bb", 7)])
    | _ => false) = true := by decide +kernel
  split at h
  · rename_i res s hs
    obtain ⟨h1, h2⟩ := of_decide_eq_true h
    exact ⟨s, res, hs, C97_lines _ (fun _ => True) _ _ _ _ _ _ .nil _ _ _ _ _ hs, h1, h2⟩
  · cases h

/-- C97: a file that loads nothing -/
example : ∃ s res, addFile Sample.includes 9 c!"/w/x.inc" 4 none Sample.stash = (.ok res, s) ∧ (∀ x ∈ res, loadedBy x = []) ∧
    res.map (fun i => (i.inFileLine, i.line)) = [(1, 5), (2, 6), (3, 7)] := by
  have h : (match addFile Sample.includes 9 c!"/w/x.inc" 4 none Sample.stash with
    | (.ok res, s) => decide ((∀ x ∈ res, loadedBy x = []) ∧ res.map (fun i => (i.inFileLine, i.line)) = [(1, 5), (2, 6), (3, 7)])
    | _ => false) = true := by decide +kernel
  split at h
  · rename_i res s hs
    obtain ⟨h1, h2⟩ := of_decide_eq_true h
    exact ⟨s, res, hs, h1, h2⟩
  · cases h

end Oelint

import Verif.Lemmas.Restore
import Verif.Lemmas.Sample
import Verif.Model.ExpandTerm
import Verif.Props.Chunks
/-! # Property C16: putting inline blocks back into a value -/
set_option linter.unusedSectionVars false
namespace Oelint
open Spec

section
variable [Uni]

/-- what stands for a block, according to `InlineBlocks` -/
def Spec.standsFor (blocks : List (Str × Str)) (b : Str) : Str := (dget b blocks).getD []

/-- C16, partial: the text of a value reappears if its inline blocks differ from each other and what stands for a block is not empty
and, as the blocks are put back from left to right, occurs first where the block belongs. Missing: repeated blocks, empty
replacements and replacements that occur elsewhere before, for which the property is false. -/
theorem C16_blocks_restored_partial (W : World) (n : Nat) (path : Str) (off : Int) (forced : Option Str) (s s' : Stash)
    (res : List Item) (t : Str) (hadd : addFile W n path off forced s = (.ok res, s'))
    (hnew : alreadySeen s (abspath W.cwd path) = false) (hf : W.file (abspath W.cwd path) = .text t)
    (it : Item) (hi : it ∈ res) (v : VarData) (pre h post : Str) (l : List (Str × Str)) (hl : l ≠ [])
    (hreal : it.realRaw = pre ++ render id h l ++ post) (hraw : it.raw = pre ++ varValueStripped v ++ post)
    (hp : PlainParts h l) (h1 : '@' ∉ pre) (h2 : '@' ∉ post) (hnd : (l.map (·.1)).Nodup) (hv : ∀ b ∈ it.inlineBlocks, '@' ∉ b.2)
    (hu : Unambiguous (standsFor it.inlineBlocks) h l) :
    reverseInline it.inlineBlocks v = render id h l := by
  obtain ⟨value, hval⟩ := C06_raw_from_realraw W n path off forced s s' res t hadd hnew hf
  obtain ⟨hsub, -⟩ := hval it hi
  rw [hreal] at hsub
  obtain ⟨e1, e2⟩ := substituted_value_part hl hp h1 h2 hnd (Or.inl hv) hsub
  rw [hraw] at e2
  have e3 : varValueStripped v = render value h l := List.append_cancel_left (List.append_cancel_right e2)
  have hu' : Unambiguous value h l := by
    refine unambiguous_congr (fun p hm => ?_) hu
    rw [standsFor, e1, dget_blocks hm]
    rfl
  unfold reverseInline
  rw [e3, e1]
  exact restore_render hu'

/-- C16, partial: in a value without exclamation mark, with different blocks of which none names a helper function, `ExpandTerm` and
`ExpandVar` work on the text as it was written. -/
theorem C16_unknown_code_restored_partial (W : World) (n : Nat) (path : Str) (off : Int) (forced : Option Str) (s s' : Stash)
    (res : List Item) (t : Str) (hadd : addFile W n path off forced s = (.ok res, s'))
    (hnew : alreadySeen s (abspath W.cwd path) = false) (hf : W.file (abspath W.cwd path) = .text t)
    (it : Item) (hi : it ∈ res) (v : VarData) (pre h post : Str) (l : List (Str × Str)) (hl : l ≠ [])
    (hreal : it.realRaw = pre ++ render id h l ++ post) (hraw : it.raw = pre ++ varValueStripped v ++ post)
    (hp : PlainParts h l) (h1 : '@' ∉ pre) (h2 : '@' ∉ post) (hnd : (l.map (·.1)).Nodup)
    (hno : ∀ p ∈ l, ∀ name ∈ helperNames, ¬ name.toList <:+: blockOf p.1) (hm : '!' ∉ h ∧ ∀ p ∈ l, '!' ∉ p.1 ∧ '!' ∉ p.2) :
    assignmentText it v = render id h l := by
  -- the blocks are those of the value, and all of them become the placeholder
  have key : it.inlineBlocks = l.map (fun p => (blockOf p.1, placeholder)) ∧ varValueStripped v = render (fun _ => placeholder) h l := by
    obtain ⟨k, ⟨ok⟩⟩ := addFile_file hadd hnew hf
    obtain ⟨it0, _, rfl, c, hcm, hci⟩ := ok.mem hi
    have hne := ok.realraw_ne c hcm
    obtain ⟨g, _, k, rfl⟩ := chunksFrom_mem hcm
    have hsub := inlineSub_spec s.negative g.flatten
    have hreal' : it0.realRaw = g.flatten := by
      have h1 := hci.realRaw
      rw [if_neg (fun h0 => hne (List.isEmpty_iff.1 h0))] at h1
      exact h1
    simp only [hci.raw] at hraw
    simp only [hci.inlineBlocks]
    have hreal1 : g.flatten = pre ++ render id h l ++ post := by rw [← hreal']; exact hreal
    have hvals : ∀ p ∈ l, inlineValue s.negative (blockOf p.1) = placeholder := by
      intro p hpm
      rw [inlineValue, inlinerep_none _ (hno p hpm)]
      rfl
    rw [hreal1] at hsub hraw ⊢
    obtain ⟨e1, e2⟩ := substituted_value_part hl hp h1 h2 hnd (Or.inr (fun p hpm => by rw [hvals p hpm]; decide)) hsub
    have hcong : ∀ p ∈ l, (blockOf p.1, inlineValue s.negative (blockOf p.1)) = (blockOf p.1, placeholder) := by
      intro p hpm; rw [hvals p hpm]
    refine ⟨e1.trans (List.map_congr_left hcong), ?_⟩
    have hraw := e2.symm.trans hraw
    have e3 := (List.append_cancel_left (List.append_cancel_right hraw)).symm
    rw [e3]
    exact render_congr hvals
  have hu : Unambiguous (standsFor it.inlineBlocks) h l := by
    refine unambiguous_mark (m := '!') (by decide) (fun p hpm => ?_) hm.1 hm.2
    rw [standsFor, key.1, dget_blocks (f := fun _ => placeholder) hpm]
    exact ⟨"!!inlineblock!!!".toList, rfl⟩
  have hr := C16_blocks_restored_partial W n path off forced s s' res t hadd hnew hf it hi v pre h post l hl hreal hraw hp h1 h2 hnd
    (by intro b hb
        rw [key.1] at hb
        obtain ⟨p, -, rfl⟩ := List.mem_map.1 hb
        exact (by decide : '@' ∉ placeholder)) hu
  unfold assignmentText
  rw [if_pos, hr]
  rw [hasSub_iff, key.2]
  cases l with
  | nil => exact absurd rfl hl
  | cons p l =>
    obtain ⟨c, t'⟩ := p
    rw [render_cons]
    exact ⟨h, render (fun _ => placeholder) t' l, (List.append_assoc _ _ _).trans rfl⟩

end

/-! ## C16 is false; the hypotheses can be met -/

attribute [local instance] Sample.asciiUni

def restoreWorld (line : Str) : World := Sample.world [(c!"/w/a_1.bb", line)]

/-- the text that `ExpandTerm` and `ExpandVar` take for the value of the first item -/
def restored (line : Str) : Option Str :=
  match addFile (restoreWorld line) 3 c!"/w/a_1.bb" 0 none Sample.stash with
  | (.ok (it :: _), _) => match it.payload with
    | .variable v => some (assignmentText it v)
    | _ => none
  | _ => none

/-- C16 is false for repeated blocks, and for a block that becomes empty. -/
theorem C16_false : ¬ ∀ (val : Str), val.head? ≠ some '"' → val.getLast? ≠ some '"' → '\n' ∉ val → '\\' ∉ val →
    restored (c!"A = \"" ++ val ++ c!"\"\n") = some val := by
  intro h
  have := h c!"${@foo()} ${@foo()}" (by decide) (by decide) (by decide) (by decide)
  revert this
  decide +kernel

theorem C16_counterexample_empty : restored c!"A = \"x ${@bb.utils.filter('', 'b', d)} ${@foo()}\"\n"
    = some c!"${@bb.utils.filter('', 'b', d)}x  ${@foo()}" := by decide +kernel

/-- the hypotheses of C16 hold for a value with two blocks, and the value is restored -/
example : restored c!"A = \"x ${@foo()} y ${@bar(1)}\"\n" = some c!"x ${@foo()} y ${@bar(1)}" := by decide +kernel

example : c!"A = \"x ${@foo()} y ${@bar(1)}\"\n" = c!"A = \"" ++ render id c!"x " [(c!"foo()", c!" y "), (c!"bar(1)", [])] ++ c!"\"\n" ∧
    PlainParts c!"x " [(c!"foo()", c!" y "), (c!"bar(1)", [])] ∧
    Unambiguous (fun _ => placeholder) c!"x " [(c!"foo()", c!" y "), (c!"bar(1)", [])] := by
  refine ⟨by decide, by unfold PlainParts; decide, unambiguous_mark (m := '!') (by decide) (fun p _ => ⟨"!!inlineblock!!!".toList, rfl⟩)
    (by decide) (by decide)⟩

end Oelint

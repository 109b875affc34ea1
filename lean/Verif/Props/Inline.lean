import Verif.Lemmas.InlineOne
import Verif.Props.Chunks
/-! # Properties C14, C65: calls of the known helper functions in inline python -/
set_option linter.unusedSectionVars false
namespace Oelint
open Spec

section
variable [Uni]

/-- C14: an inline block that is a call of a known helper function with plain arguments is replaced by the value for a true
condition, with `negative_inline` by the value for a false one. -/
theorem C14_inline_branch (W : World) (n : Nat) (path : Str) (off : Int) (forced : Option Str) (s s' : Stash)
    (res : List Item) (t : Str) (h : addFile W n path off forced s = (.ok res, s'))
    (hnew : alreadySeen s (abspath W.cwd path) = false) (hf : W.file (abspath W.cwd path) = .text t)
    {name : Str} {args : List Str} {T F ws ws' : Str} (hc : HelperCall name args T F) (h1 : ∀ c ∈ ws, c = ' ') (h2 : ∀ c ∈ ws', c = ' ') :
    ∀ it ∈ res, ∀ b ∈ it.inlineBlocks, b.1 = inlineText ws (callText name args) ws' →
      b.2 = if s.negative then F else T := by
  obtain ⟨k, ⟨ok⟩⟩ := addFile_file h hnew hf
  intro it hi b hb hbt
  obtain ⟨it0, _, rfl, c, hcm, hci⟩ := ok.mem hi
  obtain ⟨g, _, k, rfl⟩ := chunksFrom_mem hcm
  simp only [hci.inlineBlocks] at hb
  have := substituted_value (inlineSub_spec s.negative g.flatten) b hb
  rw [this, hbt, inlineValue, inlinerep_call hc h1 h2]
  rfl

/-- C14: in a statement with one such block and without other inline python, `Raw` is the text with the block replaced by that
value, and `InlineBlocks` lists the block and the value. -/
theorem C14_inline_branch_in_raw (W : World) (n : Nat) (path : Str) (off : Int) (forced : Option Str) (s s' : Stash)
    (res : List Item) (t : Str) (h : addFile W n path off forced s = (.ok res, s'))
    (hnew : alreadySeen s (abspath W.cwd path) = false) (hf : W.file (abspath W.cwd path) = .text t)
    {name : Str} {args : List Str} {T F ws ws' : Str} (hc : HelperCall name args T F) (h1 : ∀ c ∈ ws, c = ' ') (h2 : ∀ c ∈ ws', c = ' ')
    {pre post : Str} (ha : '@' ∉ pre) (hp : '@' ∉ post) (hcall : ∀ c ∈ callText name args, c ≠ '@' ∧ c ≠ '{' ∧ c ≠ '}')
    (hT : '@' ∉ T) (hF : '@' ∉ F) :
    ∀ it ∈ res, it.realRaw = pre ++ inlineText ws (callText name args) ws' ++ post →
      it.raw = pre ++ (if s.negative then F else T) ++ post ∧
      it.inlineBlocks = [(inlineText ws (callText name args) ws', if s.negative then F else T)] := by
  intro it hi hreal0
  obtain ⟨k, ⟨ok⟩⟩ := addFile_file h hnew hf
  obtain ⟨it0, _, rfl, c, hcm, hci⟩ := ok.mem hi
  have hne := ok.realraw_ne c hcm
  obtain ⟨g, _, k, rfl⟩ := chunksFrom_mem hcm
  have hsub := inlineSub_spec s.negative g.flatten
  have hreal : it0.realRaw = g.flatten := by
    have h1 := hci.realRaw
    rw [if_neg (fun h0 => hne (List.isEmpty_iff.1 h0))] at h1
    exact h1
  simp only [hci.raw, hci.inlineBlocks]
  have hreal1 : g.flatten = pre ++ inlineText ws (callText name args) ws' ++ post := by rw [← hreal]; exact hreal0
  have hval : inlineValue s.negative (inlineText ws (callText name args) ws') = if s.negative then F else T := by
    rw [inlineValue, inlinerep_call hc h1 h2]; rfl
  have hbl : ∀ c, c ≠ ' ' → c ∉ callText name args → c ∉ ws ++ callText name args ++ ws' := by
    intro c h0 h3 h4
    simp only [List.mem_append] at h4
    rcases h4 with (h4 | h4) | h4
    · exact h0 (h1 c h4)
    · exact h3 h4
    · exact h0 (h2 c h4)
  have hit : inlineText ws (callText name args) ws' = c!"${@" ++ (ws ++ callText name args ++ ws') ++ c!"}" := by
    simp [inlineText]
  rw [hit] at hval hreal1 ⊢
  have hsub' : Substituted (inlineValue s.negative) (pre ++ (c!"${@" ++ (ws ++ callText name args ++ ws') ++ c!"}") ++ post)
      (inlineSub s.negative g.flatten).2 (inlineSub s.negative g.flatten).1 := by rw [← hreal1]; exact hsub
  obtain ⟨e1, e2⟩ := substituted_one ha
    (hbl _ (by decide) (fun hm => (hcall _ hm).1 rfl)) hp
    (hbl _ (by decide) (fun hm => (hcall _ hm).2.1 rfl)) (hbl _ (by decide) (fun hm => (hcall _ hm).2.2 rfl))
    (by rw [hval]; split <;> assumption) hsub'
  rw [hval] at e1 e2
  exact ⟨e2, e1⟩

/-- C65, partial: an inline block that reads one variable with `d.getVar` becomes a reference to it. Missing: calls with further
arguments, for which the property is false. -/
theorem C65_getVar_partial (W : World) (n : Nat) (path : Str) (off : Int) (forced : Option Str) (s s' : Stash)
    (res : List Item) (t : Str) (h : addFile W n path off forced s = (.ok res, s'))
    (hnew : alreadySeen s (abspath W.cwd path) = false) (hf : W.file (abspath W.cwd path) = .text t)
    {a X e ws ws' : Str} (ha : Quoted a X) (hX : ∀ c ∈ X, reSpace c = false) (he : ∀ c ∈ e, c = ' ') (h1 : ∀ c ∈ ws, c = ' ')
    (h2 : ∀ c ∈ ws', c = ' ') :
    ∀ it ∈ res, ∀ b ∈ it.inlineBlocks, b.1 = inlineText ws (callText c!"d.getVar" [a ++ e]) ws' →
      b.2 = c!"${" ++ X ++ c!"}" := by
  obtain ⟨k, ⟨ok⟩⟩ := addFile_file h hnew hf
  intro it hi b hb hbt
  obtain ⟨it0, _, rfl, c, hcm, hci⟩ := ok.mem hi
  obtain ⟨g, _, k, rfl⟩ := chunksFrom_mem hcm
  simp only [hci.inlineBlocks] at hb
  have := substituted_value (inlineSub_spec s.negative g.flatten) b hb
  rw [this, hbt, inlineValue, inlinerep_getVar ha hX h1 he h2]
  rfl

end

/-! ## the hypotheses can be met; C65 is false with a second argument -/

attribute [local instance] Sample.asciiUni

def inlineText1 : Str :=
  c!"A = \"x ${@oe.utils.conditional('V', '1', ' yes', \"no\", d)} z\"\nB = \"${@d.getVar('X')}\"\nC = \"${@d.getVar('X', True)}\"\n"

def inlineWorld : World := Sample.world [(c!"/w/a_1.bb", inlineText1)]

/-- the hypotheses of C14 hold for a file with a call -/
example : HelperCall c!"oe.utils.conditional" [c!"'V'", c!" '1'", c!" ' yes'", c!" \"no\"", c!" d"] c!" yes" c!"no" := by
  refine .conditional ?_ ?_ ⟨c!" ", '\'', rfl, ?_, ?_, ?_, ?_, ?_⟩ ⟨c!" ", '"', rfl, ?_, ?_, ?_, ?_, ?_⟩ ?_ <;> first | decide | (unfold Free; decide)

theorem inline_sample : ∃ res s', addFile inlineWorld 3 c!"/w/a_1.bb" 0 none Sample.stash = (.ok res, s') ∧
    (∃ it ∈ res, it.realRaw = c!"A = \"x " ++ inlineText [] (callText c!"oe.utils.conditional"
        [c!"'V'", c!" '1'", c!" ' yes'", c!" \"no\"", c!" d"]) [] ++ c!" z\"\n" ∧ it.raw = c!"A = \"x  yes z\"\n") ∧
    (∃ it ∈ res, it.inlineBlocks = [(inlineText [] (callText c!"d.getVar" [c!"'X'"]) [], c!"${X}")]) ∧
    (∃ it ∈ res, it.inlineBlocks = [(inlineText [] (callText c!"d.getVar" [c!"'X'", c!" True"]) [], c!"${X', True}")]) := by
  obtain ⟨res, s', h, hp⟩ := Sample.okAnd_iff.1 (show Sample.okAnd (addFile inlineWorld 3 c!"/w/a_1.bb" 0 none Sample.stash) (fun res =>
    (∃ it ∈ res, it.realRaw = c!"A = \"x " ++ inlineText [] (callText c!"oe.utils.conditional"
        [c!"'V'", c!" '1'", c!" ' yes'", c!" \"no\"", c!" d"]) [] ++ c!" z\"\n" ∧ it.raw = c!"A = \"x  yes z\"\n") ∧
    (∃ it ∈ res, it.inlineBlocks = [(inlineText [] (callText c!"d.getVar" [c!"'X'"]) [], c!"${X}")]) ∧
    (∃ it ∈ res, it.inlineBlocks = [(inlineText [] (callText c!"d.getVar" [c!"'X'", c!" True"]) [], c!"${X', True}")])) = true by decide +kernel)
  exact ⟨res, s', h, of_decide_eq_true hp⟩

/-- C65 with the `expand` argument is false: `${@d.getVar('X', True)}` becomes `${X', True}`. -/
theorem C65_false : ¬ ∀ (W : World) (n : Nat) (path : Str) (s s' : Stash) (res : List Item),
    addFile W n path 0 none s = (.ok res, s') → ∀ it ∈ res, ∀ b ∈ it.inlineBlocks,
      b.1 = inlineText [] (callText c!"d.getVar" [c!"'X'", c!" True"]) [] → b.2 = c!"${X}" := by
  intro hall
  obtain ⟨res, s', h, -, -, it, hi, hb⟩ := inline_sample
  have := hall _ _ _ _ _ _ h it hi (inlineText [] (callText c!"d.getVar" [c!"'X'", c!" True"]) [], c!"${X', True}")
    (by rw [hb]; exact List.mem_cons_self) rfl
  revert this
  decide

/-- the hypothesis of C65 holds -/
example : Quoted c!"'X'" c!"X" ∧ (∀ c ∈ c!"X", reSpace c = false) := by
  refine ⟨⟨[], '\'', rfl, ?_, ?_, ?_, ?_, ?_⟩, by decide⟩ <;> first | decide | (unfold Free; decide)

end Oelint

import Verif.Lemmas.MultiLine
import Verif.Props.Statements
import Verif.Props.Chunks
import Verif.Lemmas.InlineCalls
/-! # Assignments over several lines: C80 -/
set_option linter.unusedSectionVars false
namespace Oelint
open Spec

section
variable [Uni]

/-- **C80** `IsMultiLine()` of a variable without inline python and without the text `\x1b` holds only if the assignment takes more
than one line of the file. -/
theorem C80_only_several_lines_partial (W : World) (n : Nat) (path : Str) (off : Int) (forced : Option Str) (s s' : Stash) (res : List Item)
    (t : Str) (h : addFile W n path off forced s = (.ok res, s'))
    (hnew : alreadySeen s (abspath W.cwd path) = false) (hf : W.file (abspath W.cwd path) = .text t) (it : Item) (hi : it ∈ res)
    (hcode : ¬ c!"${@" <:+: it.realRaw) (hesc : ¬ c!"\\x1b" <:+: it.realRaw) (hm : isMultiLine it.raw = true) :
    ManyLines it.realRaw := by
  obtain ⟨_, hraw⟩ := C06_raw_from_realraw W n path off forced s s' res t h hnew hf
  rw [((hraw it hi).2 hcode).1] at hm
  obtain ⟨k, ⟨ok⟩⟩ := addFile_file h hnew hf
  obtain ⟨g, rest, he, hg, hl, hn⟩ := ok.group hi
  unfold isMultiLine at hm
  rw [hasSub_false_iff.2 hesc, Bool.false_or, hasSub_iff] at hm
  rw [he] at hm ⊢
  match g, hl, hn, hg, hm with
  | [], _, _, _, hm => obtain ⟨a, b, e⟩ := hm; simp at e
  | [l], hl, _, hg, hm =>
    exfalso
    have hc := continued_of_infix (hl l (by simp)) (by simpa using hm)
    rcases hg with ⟨i, last, e, hi0, _⟩ | ⟨h0, body, e, hb, _⟩ | ⟨h0, _, e, hh, _⟩ | ⟨h0, _, e, hh, _⟩ | ⟨h0, e, hh, _⟩
    · obtain ⟨x, i, rfl⟩ := List.exists_cons_of_ne_nil hi0
      have := congrArg List.length e
      simp at this
    · cases e; exact hb rfl
    · cases e; exact hh hc
    · cases e; exact hh hc
    · cases e; exact hh hc
  | a :: b :: r, hl, hn, _, _ => exact manyLines_of_two hl hn rfl

/-- **C80** And it does hold for a variable over more than one line, if every backslash at the end of a line is directly followed by
the newline and the text is not taken for the start of a function. -/
theorem C80_several_lines_partial (W : World) (n : Nat) (path : Str) (off : Int) (forced : Option Str) (s s' : Stash) (res : List Item)
    (t : Str) (h : addFile W n path off forced s = (.ok res, s'))
    (hnew : alreadySeen s (abspath W.cwd path) = false) (hf : W.file (abspath W.cwd path) = .text t) (it : Item) (hi : it ∈ res)
    (v : VarData) (hv : it.payload = .variable v)
    (hcode : ¬ c!"${@" <:+: it.realRaw) (hcont : PlainContinuations it.realRaw) (hfn : ¬ FuncHeader it.realRaw)
    (hdef : ¬ DefLine it.realRaw) (hm : ManyLines it.realRaw) : isMultiLine it.raw = true := by
  obtain ⟨_, hraw⟩ := C06_raw_from_realraw W n path off forced s s' res t h hnew hf
  rw [((hraw it hi).2 hcode).1]
  have hcom : ¬ StartsWithHash it.realRaw := fun hc => by
    have := (C11_comments_always_win W n path off forced s s' res h it hi).2 hc
    rw [hv] at this
    cases this
  obtain ⟨k, ⟨ok⟩⟩ := addFile_file h hnew hf
  obtain ⟨g, rest, he, hg, hl, hn⟩ := ok.group hi
  rw [he] at hcont hfn hdef hm hcom ⊢
  unfold isMultiLine
  rw [Bool.or_eq_true]
  right
  rw [hasSub_iff]
  rcases hg with ⟨init, last, rfl, hi0, hc, _⟩ | ⟨h0, body, rfl, _, _, hh, _⟩ | ⟨h0, t, rfl, _, _, ⟨u, rfl⟩, _⟩ |
    ⟨h0, t, rfl, _, _, _, hh, _⟩ | ⟨h0, rfl, _⟩
  · obtain ⟨l, init, rfl⟩ := List.exists_cons_of_ne_nil hi0
    obtain ⟨a, ws, rfl, hws⟩ := hc l (by simp)
    have hno : '\n' ∉ a ++ '\\' :: ws := by
      have := (hl _ (by simp : (a ++ '\\' :: ws ++ ['\n']) ∈ _)).2
      rwa [List.dropLast_concat] at this
    have : ws = [] := hcont a ws ((init ++ [last]).flatten) (by simp) (fun c hc => ⟨hws c hc, by
      rintro rfl; exact hno (by simp [hc])⟩)
    subst this
    exact ⟨a, (init ++ [last]).flatten, by simp⟩
  · exact absurd (by rw [List.flatten_cons]; exact funcHeader_append hh) hfn
  · exact absurd ⟨[], u ++ t.flatten, by simp, by simp⟩ hcom
  · exact absurd (by rw [List.flatten_cons]; exact defLine_append hh) hdef
  · simp only [List.flatten_cons, List.flatten_nil, List.append_nil] at hm
    exact absurd hm (not_manyLines_line (hl h0 (by simp)))

end

/-! ## Counterexamples -/

section
attribute [local instance] Sample.asciiUni

/-- C80 as stated -/
def Spec.MultiLineClaim : Prop :=
  ∀ (W : World) (n : Nat) (path : Str) (off : Int) (forced : Option Str) (s s' : Stash) (res : List Item) (t : Str),
    addFile W n path off forced s = (.ok res, s') → alreadySeen s (abspath W.cwd path) = false →
    W.file (abspath W.cwd path) = .text t → ∀ it ∈ res, ∀ v, it.payload = .variable v →
    (isMultiLine it.raw = true ↔ ManyLines it.realRaw)

theorem multiLine_false (text : Str) (b : Bool)
    (h : Sample.okAnd (addFile (Sample.world [(c!"/w/a.bb", text)]) 1 c!"/w/a.bb" 0 none Sample.stash) (fun res =>
      res.any (fun it => (match it.payload with | .variable _ => true | _ => false) && it.realRaw == text && isMultiLine it.raw == b)) = true)
    (hf : alreadySeen Sample.stash (abspath c!"/w" c!"/w/a.bb") = false := by decide +kernel)
    (hb : b = true ↔ ¬ ManyLines text) : ¬ MultiLineClaim := by
  intro hc
  obtain ⟨res, s', h1, h2⟩ := Sample.okAnd_iff.1 h
  obtain ⟨it, hi, h3⟩ := List.any_eq_true.1 h2
  simp only [Bool.and_eq_true, beq_iff_eq] at h3
  obtain ⟨⟨h3, h4⟩, h5⟩ := h3
  have : ∃ v, it.payload = .variable v := by
    split at h3
    · exact ⟨_, by assumption⟩
    · cases h3
  obtain ⟨v, hv⟩ := this
  have := hc _ _ _ _ _ _ _ _ text h1 hf rfl it hi v hv
  rw [h4, h5, hb] at this
  by_cases hm : ManyLines text
  · exact (this.2 hm) hm
  · exact hm (this.1 hm)

/-- a blank behind the backslash: two lines, but not reported -/
theorem C80_counterexample_blank : ¬ MultiLineClaim :=
  multiLine_false c!"A = \"a \\ \nb\"\n" false (by decide +kernel)
    (hb := by simp only [Bool.false_eq_true, false_iff, not_not]; exact ⟨c!"A = \"a \\ ", c!"b\"\n", rfl, by decide⟩)

/-- the text `\x1b` in one line is reported as several lines -/
theorem C80_counterexample_escape : ¬ MultiLineClaim :=
  multiLine_false c!"A = \"\\x1b[0m\"\n" true (by decide +kernel)
    (hb := by simp only [true_iff]; exact not_manyLines_line (by unfold IsLine; decide))

/-- several lines of inline python only: not reported -/
theorem C80_counterexample_inline : ¬ MultiLineClaim :=
  multiLine_false c!"A = \"${@f(a, \\\nb)}\"\n" false (by decide +kernel)
    (hb := by simp only [Bool.false_eq_true, false_iff, not_not]; exact ⟨c!"A = \"${@f(a, \\", c!"b)}\"\n", rfl, by decide⟩)

/-! ## Examples -/

/-- the hypotheses on the text are met by an assignment over two lines -/
example : let t := c!"A = \"a \\\n  b\"\n"
    ¬ c!"${@" <:+: t ∧ ¬ c!"\\x1b" <:+: t ∧ PlainContinuations t ∧ ¬ FuncHeader t ∧ ¬ DefLine t ∧ ManyLines t := by
  refine ⟨?_, ?_, ?_, ?_, ?_, ⟨c!"A = \"a \\", c!"  b\"\n", rfl, by decide⟩⟩
  · exact hasSub_false_iff.1 rfl
  · exact hasSub_false_iff.1 rfl
  · intro a ws b e hws
    have hc := congrArg (List.count '\\') e
    rw [List.count_append, List.count_cons_self] at hc
    have h1 : '\\' ∉ a := by
      intro ha
      have := List.count_pos_iff.2 ha
      have : List.count '\\' c!"A = \"a \\\n  b\"\n" = 1 := rfl
      omega
    have h2 := (append_cons_inj (a := c!"A = \"a ") (b := c!"\n  b\"\n") e (by decide) h1).2
    cases ws with
    | nil => rfl
    | cons x ws =>
      have h3 := (List.cons.inj h2).1
      exact absurd h3.symm (hws x (by simp)).2
  · rintro ⟨a, w1, w2, b, e, -⟩
    have : '(' ∈ c!"A = \"a \\\n  b\"\n" := by rw [e]; simp
    revert this; decide
  · rintro ⟨w, a, x, b, e, -⟩
    have : 'd' ∈ c!"A = \"a \\\n  b\"\n" := by rw [e]; simp
    revert this; decide

example : Sample.okAnd (addFile (Sample.world [(c!"/w/a.bb", c!"A = \"a \\\n  b\"\nB = \"c\"\n")]) 1 c!"/w/a.bb" 0 none Sample.stash)
    (fun res => res.map (fun it => (isMultiLine it.raw, it.realRaw)) == [(true, c!"A = \"a \\\n  b\"\n"), (false, c!"B = \"c\"\n")]) = true := by
  decide +kernel

end
end Oelint

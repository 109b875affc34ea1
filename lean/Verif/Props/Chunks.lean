import Verif.Lemmas.File
import Verif.Lemmas.Sample
/-!
# Properties of preprocessing: C01, C02, C03, C04, C05, C06, C07, C08, C15

In all statements `addFile W n path off forced s` is `AddFile(path, lineOffset=off, forcedLink=forced)` on the stash `s` with
recursion limit `n`; `univNewlines t` is the text `t` of the file as `open()` in text mode delivers it.
-/
namespace Oelint
open Spec
set_option linter.unusedSectionVars false

section
variable [Uni]

/-! ## C01 -/

/-- C01: the `RealRaw` texts of the items returned for a file make up exactly the text of the file. -/
theorem C01_parsing_is_lossless (W : World) (n : Nat) (path : Str) (off : Int) (forced : Option Str) (s s' : Stash)
    (res : List Item) (t : Str) (h : addFile W n path off forced s = (.ok res, s'))
    (hnew : alreadySeen s (abspath W.cwd path) = false) (hf : W.file (abspath W.cwd path) = .text t) :
    (res.map (·.realRaw)).flatten = univNewlines t ∧ ('\r' ∉ t → (res.map (·.realRaw)).flatten = t) := by
  obtain ⟨k, ⟨ok⟩⟩ := addFile_file h hnew hf
  exact ⟨ok.text, fun hr => by rw [ok.text, univNewlines_id hr]⟩

/-! ## C02 -/

/-- C02: `InFileLine` counts the newlines before the item; `Line` is `InFileLine` plus the offset given by the caller as long
as no `include`/`inherit` precedes (and the file is not a `.bbappend`, whose items are moved behind the recipe); both strictly
increase along the file. -/
theorem C02_lines (W : World) (n : Nat) (path : Str) (off : Int) (forced : Option Str) (s s' : Stash)
    (res : List Item) (t : Str) (h : addFile W n path off forced s = (.ok res, s'))
    (hnew : alreadySeen s (abspath W.cwd path) = false) (hf : W.file (abspath W.cwd path) = .text t) :
    (∀ pre it post, res = pre ++ it :: post →
      it.inFileLine = 1 + (((pre.map (·.realRaw)).flatten.count '\n' : Nat) : Int) ∧
      ((∀ x ∈ pre, x.payload.classifier ≠ c!"Include" ∧ x.payload.classifier ≠ c!"Inherit") →
        endsWith c!".bbappend" (abspath W.cwd path) = false → it.line = it.inFileLine + off)) ∧
    res.Pairwise (fun a b => a.line < b.line) ∧ res.Pairwise (fun a b => a.inFileLine < b.inFileLine) := by
  obtain ⟨k, ⟨ok⟩⟩ := addFile_file h hnew hf
  refine ⟨?_, ok.increasing, ok.increasing_inFile⟩
  intro pre it post he
  refine ⟨ok.inFileLine he, fun hp hb => ?_⟩
  rw [ok.line_eq he, ok.mx_zero hb]
  · omega
  · intro x hx
    have := hp x hx
    cases hpl : x.payload <;> first | rfl | (rw [hpl] at this; simp [Payload.classifier] at this)

/-! ## C03, C08 -/

/-- C03: one item per group of lines, in file order, all with the absolute path as `Origin`; a file that does not exist gives no
items. -/
theorem C03_one_item_per_chunk (W : World) (n : Nat) (path : Str) (off : Int) (forced : Option Str) (s s' : Stash)
    (res : List Item) (h : addFile W n path off forced s = (.ok res, s')) :
    (W.file (abspath W.cwd path) = .notFound → res = []) ∧
    (∀ t, alreadySeen s (abspath W.cwd path) = false → W.file (abspath W.cwd path) = .text t →
      (∃ ls gs, IsLines (univNewlines t) ls ∧ Groups ls gs ∧ res.map (·.realRaw) = gs.map List.flatten ∧
        res.length = gs.length) ∧
      (∀ it ∈ res, it.origin = abspath W.cwd path)) := by
  refine ⟨addFile_notFound h, fun t hnew hf => ?_⟩
  obtain ⟨k, ⟨ok⟩⟩ := addFile_file h hnew hf
  refine ⟨⟨_, ok.gs, readlines_isLines _, ok.groups, ok.realRaw, ?_⟩, ?_⟩
  · have := congrArg List.length ok.realRaw
    simpa using this
  · intro it hi
    obtain ⟨it0, _, rfl, c, _, hc⟩ := ok.mem hi
    exact hc.origin

/-- C08: the `RealRaw`s of the items are exactly the groups of lines described by `Spec.IsGroup` (continuation lines, functions,
comment blocks, python functions, single lines); lines and groups are unique, so this determines the boundaries. -/
theorem C08_chunk_boundaries (W : World) (n : Nat) (path : Str) (off : Int) (forced : Option Str) (s s' : Stash)
    (res : List Item) (t : Str) (h : addFile W n path off forced s = (.ok res, s'))
    (hnew : alreadySeen s (abspath W.cwd path) = false) (hf : W.file (abspath W.cwd path) = .text t)
    (ls : List Str) (gs : List (List Str)) (hl : IsLines (univNewlines t) ls) :
    (∃ gs', Groups ls gs') ∧ (Groups ls gs → res.map (·.realRaw) = gs.map List.flatten) := by
  obtain ⟨k, ⟨ok⟩⟩ := addFile_file h hnew hf
  rw [isLines_unique hl]
  refine ⟨⟨_, ok.groups⟩, fun hg => ?_⟩
  rw [groups_unique (readlines_all_isLine _) hg ok.groups]
  exact ok.realRaw

/-! ## C04, C05, C06, C15 -/

/-- C04: no item has inline python left in its `Raw`. (That the substitution loop terminates is part of the model: it is a total
function whose iteration limit is shown never to matter, `inlineLoop_spec`.) -/
theorem C04_no_inline_python_left (W : World) (n : Nat) (path : Str) (off : Int) (forced : Option Str) (s s' : Stash)
    (res : List Item) (h : addFile W n path off forced s = (.ok res, s')) :
    ∀ it ∈ res, ¬ c!"${@" <:+: it.raw := by
  intro it hi
  rcases addFile_cases h with rfl | ⟨t, _, _, k, ⟨ok⟩⟩
  · simp at hi
  · obtain ⟨it0, _, rfl, c, hc, hci⟩ := ok.mem hi
    obtain ⟨g, _, k, rfl⟩ := chunksFrom_mem hc
    simp only [hci.raw]
    exact substituted_no_opening (inlineSub_spec s.negative g.flatten)

/-- C05: the text that `get_full_scope` takes behind a prefix `pre` is the shortest one with more closing than opening braces, or
all of it if there is none. -/
theorem C05_inline_scope (pre t : Str) :
    ∃ p, getFullScope (pre ++ t) pre.length '{' '}' = pre ++ p ∧
      p <+: t ∧ (∀ q, q <+: p → q ≠ p → q.count '}' ≤ q.count '{') ∧ (p.count '{' < p.count '}' ∨ p = t) :=
  getFullScope_spec pre t

/-- C06: `Raw` is obtained from `RealRaw` by replacing the leftmost inline block (every occurrence of its text), again and again;
`InlineBlocks` lists the blocks and what they were replaced by, in order. Without `${@` nothing changes. -/
theorem C06_raw_from_realraw (W : World) (n : Nat) (path : Str) (off : Int) (forced : Option Str) (s s' : Stash)
    (res : List Item) (t : Str) (h : addFile W n path off forced s = (.ok res, s'))
    (hnew : alreadySeen s (abspath W.cwd path) = false) (hf : W.file (abspath W.cwd path) = .text t) :
    ∃ value : Str → Str, ∀ it ∈ res, Substituted value it.realRaw it.inlineBlocks it.raw ∧
      (¬ c!"${@" <:+: it.realRaw → it.raw = it.realRaw ∧ it.inlineBlocks = []) := by
  obtain ⟨k, ⟨ok⟩⟩ := addFile_file h hnew hf
  refine ⟨inlineValue s.negative, fun it hi => ?_⟩
  obtain ⟨it0, _, rfl, c, hc, hci⟩ := ok.mem hi
  have hne := ok.realraw_ne c hc
  obtain ⟨g, _, k, rfl⟩ := chunksFrom_mem hc
  have hsub := inlineSub_spec s.negative g.flatten
  have hreal : it0.realRaw = g.flatten := by
    have h1 := hci.realRaw
    rw [if_neg (fun h0 => hne (List.isEmpty_iff.1 h0))] at h1
    exact h1
  simp only [hci.raw, hci.inlineBlocks, hreal]
  exact ⟨hsub, fun hno => (substituted_of_no_opening hsub hno).symm⟩

/-- C15: an inline block in which none of the helper functions is named is replaced by the placeholder; the block text is kept in
`InlineBlocks`. -/
theorem C15_unknown_inline_code (W : World) (n : Nat) (path : Str) (off : Int) (forced : Option Str) (s s' : Stash)
    (res : List Item) (t : Str) (h : addFile W n path off forced s = (.ok res, s'))
    (hnew : alreadySeen s (abspath W.cwd path) = false) (hf : W.file (abspath W.cwd path) = .text t) :
    ∀ it ∈ res, ∀ b ∈ it.inlineBlocks, (∀ name ∈ helperNames, ¬ name.toList <:+: b.1) → b.2 = placeholder := by
  obtain ⟨k, ⟨ok⟩⟩ := addFile_file h hnew hf
  intro it hi b hb hno
  obtain ⟨it0, _, rfl, c, hc, hci⟩ := ok.mem hi
  obtain ⟨g, _, k, rfl⟩ := chunksFrom_mem hc
  simp only [hci.inlineBlocks] at hb
  have := substituted_value (inlineSub_spec s.negative g.flatten) b hb
  rw [this, inlineValue, inlinerep_none _ hno]
  rfl

/-! ## C07 -/

/-- C07, partial: if no text file of the file system ends in a continued line or in a function header, `AddFile` never raises
`StopIteration`. Missing: other exceptions (reported in the model: unreadable includes, malformed constants, patterns built from
file names, unbounded recursion of includes), and files with such a last line, for which the property is false. -/
theorem C07_every_file_can_be_added_partial (W : World)
    (hw : ∀ f t, W.file f = .text t → ∀ ls, IsLines (univNewlines t) ls →
      ∀ l ∈ ls.getLast?, ¬ Continued l ∧ ¬ FuncHeader l)
    (n : Nat) (path : Str) (off : Int) (forced : Option Str) (s s' : Stash) (e : PyErr)
    (h : addFile W n path off forced s = (.error e, s')) : e ≠ .stopIteration :=
  addFile_err W n (fun f t ht l hl => hw f t ht _ (readlines_isLines _) l hl) path off forced s e s' h

/-- C07, partial: preprocessing a text raises iff its lines do not fall into groups, and the only exception is
`StopIteration`. -/
theorem C07_preprocessing_partial (off : Int) (neg : Bool) (t : Str) :
    (chunksOf off neg t = .error .stopIteration ∨ ∃ cs, chunksOf off neg t = .ok cs) ∧
    ((∃ cs, chunksOf off neg t = .ok cs) ↔ ∃ ls gs, IsLines t ls ∧ Groups ls gs) := by
  constructor
  · cases hc : chunksOf off neg t with
    | ok cs => exact Or.inr ⟨cs, rfl⟩
    | error e => rw [(chunksOf_error hc).1]; exact Or.inl rfl
  · constructor
    · rintro ⟨cs, h⟩
      obtain ⟨gs, hg, _⟩ := chunksOf_ok_iff.1 h
      exact ⟨_, gs, readlines_isLines _, hg⟩
    · rintro ⟨ls, gs, hl, hg⟩
      rw [isLines_unique hl] at hg
      exact ⟨_, chunksOf_ok_iff.2 ⟨gs, hg, rfl⟩⟩

/-! ## C09 -/

/-- C09: after an item with the new override syntax all items have it; with `new_style_override_syntax` all items do. -/
theorem C09_new_syntax_is_sticky (W : World) (n : Nat) (path : Str) (off : Int) (forced : Option Str) (s s' : Stash)
    (res : List Item) (h : addFile W n path off forced s = (.ok res, s')) :
    (∀ pre it post, res = pre ++ it :: post → it.delim = ':' → ∀ x ∈ post, x.delim = ':') ∧
    (s.newStyle = true → ∀ it ∈ res, it.delim = ':') := by
  rcases addFile_cases h with rfl | ⟨t, _, _, k, ⟨ok⟩⟩
  · exact ⟨fun pre it post he => by simp at he, fun _ => by simp⟩
  · exact ⟨ok.delim.2, ok.delim.1⟩

end

/-! ## counterexample for C07 -/

attribute [local instance] Sample.asciiUni

/-- a file whose last line is continued cannot be added -/
theorem C07_counterexample_continuation :
    (addFile (Sample.world [(c!"/w/a_1.bb", c!"A = \"1 \\\n")]) 3 c!"/w/a_1.bb" 0 none Sample.stash).1
      = .error .stopIteration := by decide +kernel

/-- nor can one whose last line is a one-line function -/
theorem C07_counterexample_function :
    (addFile (Sample.world [(c!"/w/a_1.bb", c!"A = \"1\"\ndo_x () { :; }\n")]) 3 c!"/w/a_1.bb" 0 none Sample.stash).1
      = .error .stopIteration := by decide +kernel

/-- C07 as stated is false. -/
theorem C07_false : ¬ ∀ (W : World) (n : Nat) (path : Str) (off : Int) (forced : Option Str) (s : Stash) (t : Str),
    W.file (abspath W.cwd path) = .text t → (addFile W n path off forced s).1 ≠ .error .stopIteration :=
  fun h => h _ _ _ _ _ _ (c!"A = \"1 \\\n") (by decide +kernel) C07_counterexample_continuation

/-! ## the hypotheses can be met -/

/-- sample text with a comment block, a continued assignment, inline python, a function -/
def sampleText : Str :=
  c!"# c1\n# c2\nA = \"a \\\n  b\"\nB = \"${@bb.utils.contains('X', 'y', 'T', 'F', d)} ${@foo()}\"\ndo_x () {\n  if a; then { b; }\n}\n\nC = \"1\""

def sampleWorld : World := Sample.world [(c!"/w/a_1.bb", sampleText)]

/-- the hypotheses of C01, C02, C03, C04, C06, C08, C15 hold for the sample, and the result is not trivial -/
example : ∃ res s', addFile sampleWorld 3 c!"/w/a_1.bb" 0 none Sample.stash = (.ok res, s') ∧
    alreadySeen Sample.stash (abspath sampleWorld.cwd c!"/w/a_1.bb") = false ∧
    sampleWorld.file (abspath sampleWorld.cwd c!"/w/a_1.bb") = .text sampleText ∧
    res.map (·.realRaw) = [c!"# c1\n# c2\n", c!"A = \"a \\\n  b\"\n",
      c!"B = \"${@bb.utils.contains('X', 'y', 'T', 'F', d)} ${@foo()}\"\n",
      c!"do_x () {\n  if a; then { b; }\n}\n", c!"\n", c!"C = \"1\""] ∧
    res.map (·.inFileLine) = [1, 3, 5, 6, 9, 10] ∧
    (res.map (·.inlineBlocks))[2]? = some [(c!"${@bb.utils.contains('X', 'y', 'T', 'F', d)}", c!"T"),
      (c!"${@foo()}", placeholder)] := by
  obtain ⟨res, s', h, hp⟩ := Sample.okAnd_iff.1 (show Sample.okAnd (addFile sampleWorld 3 c!"/w/a_1.bb" 0 none Sample.stash) (fun res =>
    res.map (·.realRaw) = [c!"# c1\n# c2\n", c!"A = \"a \\\n  b\"\n",
      c!"B = \"${@bb.utils.contains('X', 'y', 'T', 'F', d)} ${@foo()}\"\n",
      c!"do_x () {\n  if a; then { b; }\n}\n", c!"\n", c!"C = \"1\""] ∧
    res.map (·.inFileLine) = [1, 3, 5, 6, 9, 10] ∧
    (res.map (·.inlineBlocks))[2]? = some [(c!"${@bb.utils.contains('X', 'y', 'T', 'F', d)}", c!"T"),
      (c!"${@foo()}", placeholder)]) = true by decide +kernel)
  exact ⟨res, s', h, by decide +kernel, by decide +kernel, of_decide_eq_true hp⟩

/-- C09: an item with the new syntax between items without it -/
example : ∃ res s', addFile (Sample.world [(c!"/w/a_1.bb", c!"A = \"1\"\nA:append = \"2\"\nB = \"1\"\n")]) 3 c!"/w/a_1.bb" 0 none
    Sample.stash = (.ok res, s') ∧ res.map (·.delim) = ['_', ':', ':'] := by
  obtain ⟨res, s', h, hp⟩ := Sample.okAnd_iff.1 (show Sample.okAnd (addFile (Sample.world [(c!"/w/a_1.bb",
    c!"A = \"1\"\nA:append = \"2\"\nB = \"1\"\n")]) 3 c!"/w/a_1.bb" 0 none Sample.stash)
    (fun res => res.map (·.delim) = ['_', ':', ':']) = true by decide +kernel)
  exact ⟨res, s', h, of_decide_eq_true hp⟩

end Oelint

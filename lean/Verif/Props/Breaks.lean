import Verif.Lemmas.Breaks
import Verif.Props.Recipe
/-! C112: an assignment or `inherit` over several lines has the items of the same text on one line, if the lines are broken at blanks. -/
set_option linter.unusedSectionVars false
namespace Oelint
section
variable [Uni]
open Spec

theorem assignment_marked {name ws1 op ws2 : Str} {vals : List Str}
    (hl : Assignment (name ++ (ws1 ++ (op ++ (ws2 ++ '"' :: (vals.flatten ++ ['"']))))) name ws1 op ws2 ('"' :: (vals.flatten ++ ['"'])))
    (hp : ∀ l ∈ vals, PlainPart l) {nl : Str} (hnl : nl = [] ∨ nl = c!"\n") :
    Assignment (joined (name ++ (ws1 ++ (op ++ (ws2 ++ '"' :: (broken vals ++ '"' :: nl)))))) name ws1 op ws2 ('"' :: (marked vals ++ ['"'])) := by
  have hhead : ∀ c ∈ name ++ (ws1 ++ (op ++ (ws2 ++ c!"\""))), c ≠ '\n' ∧ c ≠ '\\' := by
    have hop := hl.op
    intro c hc
    simp only [List.mem_append] at hc
    rcases hc with hc | hc | hc | hc | hc
    · have := hl.name.chars c hc
      exact ⟨by rintro rfl; exact absurd this (by decide), by rintro rfl; exact absurd this (by decide)⟩
    · exact ⟨(hl.blanks1 c hc).2, by rintro rfl; exact absurd (hl.blanks1 _ hc).1 (by decide)⟩
    · simp only [operators, List.mem_cons, List.not_mem_nil, or_false] at hop
      rcases hop with rfl | rfl | rfl | rfl | rfl | rfl | rfl | rfl <;> simp at hc <;> rcases hc with rfl | rfl | rfl <;> decide
    · exact ⟨(hl.blanks2 c hc).2, by rintro rfl; exact absurd (hl.blanks2 _ hc).1 (by decide)⟩
    · simp at hc; subst hc; decide
  have e : joined (name ++ (ws1 ++ (op ++ (ws2 ++ '"' :: (broken vals ++ '"' :: nl))))) =
      name ++ (ws1 ++ (op ++ (ws2 ++ '"' :: (marked vals ++ ['"'])))) := by
    have e1 : name ++ (ws1 ++ (op ++ (ws2 ++ '"' :: (broken vals ++ '"' :: nl)))) =
        (name ++ (ws1 ++ (op ++ (ws2 ++ c!"\"")))) ++ (broken vals ++ (c!"\"" ++ nl)) := by simp
    rw [e1, joined_append, joined_plain (fun h => (hhead _ h).1 rfl) (fun h => (hhead _ h).2 rfl), joined_append, joined_broken hp]
    rcases hnl with rfl | rfl <;> simp [joined]
  refine ⟨e, hl.name, hl.op, hl.blanks1, hl.blanks2, ?_, ?_⟩
  · intro hm
    have : '\n' ∈ joined (name ++ (ws1 ++ (op ++ (ws2 ++ '"' :: (broken vals ++ '"' :: nl))))) := by
      rw [e]; simp only [List.mem_append]; exact Or.inr (Or.inr (Or.inr (Or.inr hm)))
    exact joined_no_newline _ this
  · intro c hc
    simp at hc; subst hc
    exact ⟨by decide, fun _ => by decide⟩

/-- the text between the quotes -/
theorem strip_marked {vals : List Str} (h1 : ∀ l ∈ vals.head?, l.head? ≠ some '"') (h2 : ∀ l ∈ vals.getLast?, l.getLast? ≠ some '"') :
    stripP (oneOf c!"\"") ('"' :: (marked vals ++ ['"'])) = marked vals := by
  have hm1 : (marked vals).head? ≠ some '"' := by
    intro e
    rcases (marked_ends vals).1 _ e with h | ⟨l, hl, h⟩
    · exact absurd h (by decide)
    · exact h1 l hl h
  have hm2 : (marked vals).getLast? ≠ some '"' := by
    intro e
    rcases (marked_ends vals).2 _ e with h | ⟨l, hl, h⟩
    · exact absurd h (by decide)
    · exact h2 l hl h
  generalize marked vals = val at hm1 hm2
  rw [stripP]
  cases val with
  | nil => decide
  | cons x t =>
    have hx : x ≠ '"' := by simpa using hm1
    have : lstripP (oneOf c!"\"") ('"' :: (x :: t ++ ['"'])) = (x :: t) ++ ['"'] := by simp [lstripP, oneOf, hx]
    rw [this, rstripP_append_all _ _ (by simp [oneOf])]
    obtain ⟨s, y, hys⟩ : ∃ s y, x :: t = s ++ [y] := ⟨_, _, (List.dropLast_append_getLast (by simp : x :: t ≠ [])).symm⟩
    rw [hys] at hm2 ⊢
    rw [rstripP_concat_not]
    simpa [oneOf] using hm2

theorem item_assigned {W : World} {n : Nat} {path : Str} {off : Int} {forced : Option Str} {s s' : Stash} {res : List Item}
    (h : addFile W n path off forced s = (.ok res, s')) {it : Item} (hi : it ∈ res) {name ws1 op ws2 val : Str}
    (hl : Assignment (joined it.raw) name ws1 op ws2 val) :
    ∃ uid p, it.payload = (mkVariable uid p name val (ws1 ++ (op ++ ws2))).payload ∧
      it.delim = (mkVariable uid p name val (ws1 ++ (op ++ ws2))).delim := by
  obtain ⟨fuel, l, p, s1, s2, d, it0, hc, hpl, hdl, -⟩ := item_of_joined h hi
  rw [classify_assigns _ _ _ _ _ _ hl] at hc
  simp only [Prod.mk.injEq, Except.ok.injEq] at hc
  obtain ⟨⟨rfl, -⟩, -⟩ := hc
  exact ⟨_, p, hpl.symm, hdl.symm⟩

theorem assigned_data {uid : Nat} {p : Params} {name val op : Str} {v : VarData} (h : (mkVariable uid p name val op).payload = .variable v) :
    v.varOp = op ∧ v.varValue = val := by
  unfold mkVariable at h
  simp only [mkItemD, Payload.variable.injEq] at h
  rw [← h]; exact ⟨rfl, rfl⟩

theorem extractSub_sameDelim {d d' : Char} {name : Str} (h : delimFor d name = delimFor d' name) : extractSub d name = extractSub d' name := by
  unfold extractSub; rw [h]

variable (W : World) (n : Nat) (path : Str) (off : Int) (forced : Option Str) (s s' : Stash) (res : List Item)

/-- **C112, partial**: an assignment whose value is written over several lines, broken at blanks, has the operator and the name that were written, and its items
are the words of the value with backslashes and newlines taken out. Missing: words that are broken, and lines starting with `x`
(`C112_negation`). -/
theorem C112_assignment_partial (h : addFile W n path off forced s = (.ok res, s')) (it : Item) (hi : it ∈ res)
    (name ws1 op ws2 nl : Str) (vals : List Str) (hnl : nl = [] ∨ nl = c!"\n")
    (hr : it.raw = name ++ (ws1 ++ (op ++ (ws2 ++ '"' :: (broken vals ++ '"' :: nl)))))
    (hl : Assignment (name ++ (ws1 ++ (op ++ (ws2 ++ '"' :: (vals.flatten ++ ['"']))))) name ws1 op ws2 ('"' :: (vals.flatten ++ ['"'])))
    (hp : ∀ l ∈ vals, PlainPart l) (hb : AtBlanks vals) (hx : ∀ l ∈ vals.tail, l.head? ≠ some 'x')
    (h1 : ∀ l ∈ vals.head?, l.head? ≠ some '"') (h2 : ∀ l ∈ vals.getLast?, l.getLast? ≠ some '"') :
    it.payload.classifier = c!"Variable" ∧ it.has c!"VarOp" (.str (ws1 ++ (op ++ ws2))) ∧
      Words (fun c => reSpace c = true) vals.flatten it.getItems ∧
      ∃ d, (d = ':' ∨ d = '_' ∧ ':' ∉ name) ∧ it.has c!"OverrideDelimiter" (.str [d]) ∧
        ∀ first rest, Pieces d name (first :: rest) → ∃ vs ss, Distributed (Override first) rest vs ss ∧
          it.has c!"VarName" (.str (joinS [d] ((first :: vs).filter (fun x => !x.isEmpty)))) ∧
          it.has c!"SubItems" (.strs (ss.filter (fun x => !x.isEmpty))) := by
  have hm := assignment_marked hl hp hnl
  rw [← hr] at hm
  obtain ⟨uid, p, e1, e2⟩ := item_assigned h hi hm
  obtain ⟨v, f1, f2, f3⟩ := C18_no_piece_is_lost uid p name ('"' :: (marked vals ++ ['"'])) (ws1 ++ (op ++ ws2))
  rw [← e1] at f1
  rw [← e2] at f2
  obtain ⟨a1, a2, a3, a4, a5, a6, a7, a8, a9, a10⟩ := has_var f1
  have hv := assigned_data (e1.symm.trans f1)
  refine ⟨by rw [f1]; rfl, by rw [← hv.1]; exact a5, ?_, it.delim, ?_, a10, ?_⟩
  · obtain ⟨ws, g1, g2⟩ := tokens_marked (fun l hl => (hp l hl).2.2) hb hx
    have : it.getItems = ws := by
      unfold Item.getItems
      rw [f1]
      show varGetItems v [] false = ws
      unfold varGetItems
      rw [hv.2, strip_marked h1 h2]
      exact safeLinesplit_iff.2 g2
    rw [this]; exact g1
  · rw [f2, delimiter]
    by_cases hx : p.newStyle = true ∨ ':' ∈ name
    · rw [if_pos hx]; exact Or.inl rfl
    · rw [if_neg hx]; exact Or.inr ⟨rfl, fun hh => hx (Or.inr hh)⟩
  · intro first rest hpc
    obtain ⟨vs, ss, k1, k2, k3, -, -⟩ := f3 it.delim first rest f2 hpc
    exact ⟨vs, ss, k1, by rw [← k2]; exact a1, by rw [← k3]; exact a3⟩

/-- **C112, partial**: compared with the same assignment on one line, in any file and any stash: the same operator and items, and, if the override syntax is
the same, the same names and modifiers. Missing: the same as in `C112_assignment_partial`. -/
theorem C112_as_on_one_line_partial (h : addFile W n path off forced s = (.ok res, s')) (it : Item) (hi : it ∈ res)
    (W₁ : World) (n₁ : Nat) (path₁ : Str) (off₁ : Int) (forced₁ : Option Str) (s₁ s₁' : Stash) (res₁ : List Item)
    (h₁ : addFile W₁ n₁ path₁ off₁ forced₁ s₁ = (.ok res₁, s₁')) (it₁ : Item) (hi₁ : it₁ ∈ res₁)
    (name ws1 op ws2 nl nl₁ : Str) (vals : List Str) (hnl : nl = [] ∨ nl = c!"\n") (hnl₁ : nl₁ = [] ∨ nl₁ = c!"\n")
    (hr : it.raw = name ++ (ws1 ++ (op ++ (ws2 ++ '"' :: (broken vals ++ '"' :: nl)))))
    (hr₁ : it₁.raw = name ++ (ws1 ++ (op ++ (ws2 ++ '"' :: (vals.flatten ++ '"' :: nl₁)))))
    (hl : Assignment (name ++ (ws1 ++ (op ++ (ws2 ++ '"' :: (vals.flatten ++ ['"']))))) name ws1 op ws2 ('"' :: (vals.flatten ++ ['"'])))
    (hp : ∀ l ∈ vals, PlainPart l) (hb : AtBlanks vals) (hx : ∀ l ∈ vals.tail, l.head? ≠ some 'x')
    (h1 : ∀ l ∈ vals.head?, l.head? ≠ some '"') (h2 : ∀ l ∈ vals.getLast?, l.getLast? ≠ some '"')
    (h3 : vals.flatten.head? ≠ some '"') (h4 : vals.flatten.getLast? ≠ some '"') :
    it.payload.classifier = it₁.payload.classifier ∧ it.getItems = it₁.getItems ∧ dget c!"VarOp" it.getAttributes = dget c!"VarOp" it₁.getAttributes ∧
      (it.delim = it₁.delim → ∀ k ∈ [c!"VarName", c!"RawVarName", c!"SubItem", c!"SubItems", c!"VarNameComplete", c!"VarNameCompleteNoModifiers"],
        dget k it.getAttributes = dget k it₁.getAttributes) := by
  have hp₁ : ∀ l ∈ [vals.flatten], PlainPart l := by
    intro l hl
    simp only [List.mem_singleton] at hl
    subst hl
    refine ⟨?_, ?_, ?_⟩ <;> intro hc <;> obtain ⟨l, hl, hc⟩ := List.mem_flatten.1 hc
    · exact (hp l hl).1 hc
    · exact (hp l hl).2.1 hc
    · exact (hp l hl).2.2 hc
  have hb₁ : AtBlanks [vals.flatten] := by
    intro xs ys e
    cases xs with
    | nil => exact Or.inl (by simp)
    | cons x xs => cases xs with
      | nil => simp at e; rw [e.2]; exact Or.inr (by simp)
      | cons y xs => simp at e
  have hl₁ : Assignment (name ++ (ws1 ++ (op ++ (ws2 ++ '"' :: ([vals.flatten].flatten ++ ['"']))))) name ws1 op ws2
      ('"' :: ([vals.flatten].flatten ++ ['"'])) := by simpa using hl
  obtain ⟨c1, c2, c3, -⟩ := C112_assignment_partial W n path off forced s s' res h it hi name ws1 op ws2 nl vals hnl hr hl hp hb hx h1 h2
  obtain ⟨d1, d2, d3, -⟩ := C112_assignment_partial W₁ n₁ path₁ off₁ forced₁ s₁ s₁' res₁ h₁ it₁ hi₁ name ws1 op ws2 nl₁ [vals.flatten] hnl₁ hr₁
    hl₁ hp₁ hb₁ (by simp) (by simpa using h3) (by simpa using h4)
  refine ⟨by rw [c1, d1], words_unique c3 (by simpa using d3), c2.trans d2.symm, ?_⟩
  intro hd
  have hm := assignment_marked hl hp hnl
  rw [← hr] at hm
  have hm₁ := assignment_marked hl₁ hp₁ hnl₁
  rw [show broken [vals.flatten] = vals.flatten from rfl, ← hr₁] at hm₁
  obtain ⟨uid, p, e1, e2⟩ := item_assigned h hi hm
  obtain ⟨uid₁, p₁, e1₁, e2₁⟩ := item_assigned h₁ hi₁ hm₁
  have hdl : delimFor (initDelim p.newStyle) name = delimFor (initDelim p₁.newStyle) name := by rw [e2, e2₁] at hd; exact hd
  have hex := extractSub_sameDelim hdl
  unfold mkVariable at e1 e1₁
  rw [← hex] at e1₁
  have hp1 := e1
  have hp2 := e1₁
  simp only [mkItemD] at hp1 hp2
  obtain ⟨a1, a2, a3, a4, a5, a6, a7, a8, a9, a10⟩ := has_var hp1
  obtain ⟨b1, b2, b3, b4, b5, b6, b7, b8, b9, b10⟩ := has_var hp2
  rw [← hd] at b6 b7
  intro k hk
  simp only [List.mem_cons, List.not_mem_nil, or_false] at hk
  rcases hk with rfl | rfl | rfl | rfl | rfl | rfl
  · exact a1.trans b1.symm
  · exact a8.trans b8.symm
  · exact a2.trans b2.symm
  · exact a3.trans b3.symm
  · exact a6.trans b6.symm
  · exact a7.trans b7.symm

/-- **C112, partial**: the same for `inherit`. Missing: the same as in `C112_assignment_partial`. -/
theorem C112_inherit_partial (h : addFile W n path off forced s = (.ok res, s')) (it : Item) (hi : it ∈ res)
    (stmt ws nl : Str) (names : List Str) (hnl : nl = [] ∨ nl = c!"\n") (hs : stmt = c!"inherit" ∨ stmt = c!"inherit_defer")
    (hws : Gap ws) (hr : it.raw = stmt ++ (ws ++ (broken names ++ nl))) (hw : ∀ l ∈ names.head?, WordStart l) (hne : names ≠ [])
    (hp : ∀ l ∈ names, PlainPart l) (hb : AtBlanks names) (hx : ∀ l ∈ names.tail, l.head? ≠ some 'x') :
    it.payload.classifier = c!"Inherit" ∧ it.has c!"Statement" (.str stmt) ∧ Words (fun c => reSpace c = true) names.flatten it.getItems := by
  have e : joined it.raw = stmt ++ (ws ++ marked names) := by
    have hs1 : ∀ c ∈ stmt, c ≠ '\n' ∧ c ≠ '\\' := by rcases hs with rfl | rfl <;> decide
    have hs2 : ∀ c ∈ ws, c ≠ '\n' ∧ c ≠ '\\' := fun c hc => by rcases hws.2 c hc with rfl | rfl <;> decide
    rw [hr, joined_append, joined_append, joined_append, joined_broken hp, joined_plain (fun h => (hs1 _ h).1 rfl) (fun h => (hs1 _ h).2 rfl),
      joined_plain (fun h => (hs2 _ h).1 rfl) (fun h => (hs2 _ h).2 rfl)]
    rcases hnl with rfl | rfl <;> simp [joined]
  have hst : WordStart (marked names) := by
    match names, hne with
    | [l], _ => exact hw l rfl
    | l :: l' :: ls, _ =>
      have := hw l rfl
      rw [marked]
      refine ⟨by simp, fun c hc => this.2 c ?_⟩
      obtain ⟨x, l, rfl⟩ := List.exists_cons_of_ne_nil this.1
      simpa using hc
  obtain ⟨r1, r2, r3, r4⟩ := C76_statement W n path off forced s s' res h it hi (.inherit stmt ws (marked names)) e ⟨hs, hws, hst⟩
  refine ⟨r1, r3, ?_⟩
  obtain ⟨ts, g1, g2⟩ := tokens_marked (fun l hl => (hp l hl).2.2) hb hx
  rw [← safeLinesplit_iff.2 r4, safeLinesplit_iff.2 g2]
  exact g1

/-- C112 as one would have it: the items are the words of the value with backslashes and newlines taken out, wherever the lines are
broken -/
def Spec.BreaksClaim : Prop :=
  ∀ (W : World) (n : Nat) (path : Str) (s s' : Stash) (res : List Item), addFile W n path 0 none s = (.ok res, s') → ∀ it ∈ res,
    ∀ (name : Str) (vals : List Str), CapitalName name → (∀ l ∈ vals, PlainPart l ∧ '"' ∉ l) →
      it.raw = name ++ (c!" = \"" ++ (broken vals ++ c!"\"\n")) → Words (fun c => reSpace c = true) vals.flatten it.getItems

end

/-! ## the hypotheses can be met; the claim without them is false -/

attribute [local instance] Sample.asciiUni
open Spec

theorem breaks_false (vals ws : List Str) (hp : ∀ l ∈ vals, PlainPart l ∧ '"' ∉ l)
    (h : Sample.okAnd (addFile (Sample.world [(c!"/w/a.bb", c!"A = \"" ++ (broken vals ++ c!"\"\n"))]) 1 c!"/w/a.bb" 0 none Sample.stash) (fun res =>
      res.any (fun it => it.raw == c!"A = \"" ++ (broken vals ++ c!"\"\n") && it.getItems != ws)) = true)
    (hw : Words (fun c => reSpace c = true) vals.flatten ws) : ¬ BreaksClaim := by
  intro hc
  obtain ⟨res, s', h1, h2⟩ := Sample.okAnd_iff.1 h
  obtain ⟨it, hi, h3⟩ := List.any_eq_true.1 h2
  simp only [Bool.and_eq_true, beq_iff_eq, bne_iff_ne] at h3
  have hn : CapitalName c!"A" := ⟨by decide, ⟨[c!"A"], ⟨by decide, rfl, by decide⟩, by
    intro p hp; simp at hp; subst hp; exact ⟨'A', [], rfl, by decide, by decide⟩⟩, by decide⟩
  exact h3.2 (words_unique (hc _ _ _ _ _ _ h1 it hi c!"A" vals hn hp h3.1) hw)

/-- **C112 is false** for a line that starts with `x`: the second line of `A = "a \⏎x86"` is not the item `x86` -/
theorem C112_negation : ¬ BreaksClaim :=
  breaks_false [c!"a ", c!"x86"] [c!"a", c!"x86"] (by unfold PlainPart; decide) (by decide +kernel)
    (.word (w := c!"a") (s := c!" x86") (by decide) (by decide) (by decide) (.skip (by decide)
      (.word (w := c!"x86") (s := []) (by decide) (by decide) (by decide) .nil)))

/-- **C112 is false** for a word that is broken: `A = "a\⏎b"` gives two items, bitbake reads `ab` -/
theorem C112_negation_word : ¬ BreaksClaim :=
  breaks_false [c!"a", c!"b"] [c!"ab"] (by unfold PlainPart; decide) (by decide +kernel)
    (.word (w := c!"ab") (s := []) (by decide) (by decide) (by decide) .nil)

/-- values over three lines meet the hypotheses -/
example : AtBlanks [c!" ", c!"  file://a.patch ", c!"\tfile://b.patch"] ∧ (∀ l ∈ [c!" ", c!"  file://a.patch ", c!"\tfile://b.patch"], PlainPart l) := by
  constructor
  · intro xs ys e
    match xs with
    | [] => exact Or.inl (by simp)
    | [a] => simp at e; rw [← e.2]; exact Or.inr (by simp; decide)
    | [a, b] => simp at e; rw [← e.2.2]; exact Or.inr (by simp; decide)
    | a :: b :: c :: xs => simp at e; rw [e.2.2.2.2]; exact Or.inr (by simp)
  · unfold PlainPart; decide

example : Sample.okAnd (addFile (Sample.world [(c!"/w/a.bb", c!"SRC_URI:append = \" \\\n  file://a.patch \\\n\tfile://b.patch\"\n")]) 1 c!"/w/a.bb" 0
    none Sample.stash) (fun res => res.map (fun it => (it.getItems, dget c!"VarName" it.getAttributes == some (.str c!"SRC_URI"))) ==
      [([c!"file://a.patch", c!"file://b.patch"], true)]) = true := by decide +kernel

example : Sample.okAnd (addFile (Sample.world [(c!"/w/a.bb", c!"inherit a \\\n b\n")]) 1 c!"/w/a.bb" 0 none Sample.stash)
    (fun res => res.map (fun it => it.getItems) == [[c!"a", c!"b"]]) = true := by decide +kernel

end Oelint

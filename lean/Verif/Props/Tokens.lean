import Verif.Lemmas.Tokens
import Verif.Lemmas.Sample
/-! Items of values: C22, C23. -/
set_option linter.unusedSectionVars false
namespace Oelint
variable [Uni]
open Spec

/-! ## C22

Full statement: `safe_linesplit` returns the maximal runs of non-separator characters, in order; joining with blanks and
splitting again is the identity; no token contains a blank or a line-continuation mark.  The last part is false: a mark that
an `x` follows does not separate and stays in the token (`C22_mark_counterexample`). -/

/-- **C22**: the result is exactly the list of the maximal runs of characters that do not separate -/
theorem C22_maximal_runs (s : Str) (ts : List Str) : safeLinesplit s = ts ↔ Tokens s ts := safeLinesplit_iff

/-- **C22** (part): tokens are not empty, occur in the text, contain no blank, and no mark unless an `x` follows it in the
token -/
theorem C22_tokens_partial (s w : Str) (h : w ∈ safeLinesplit s) :
    w ≠ [] ∧ w <:+: s ∧ (∀ c ∈ w, reSpace c = false) ∧ (∀ a b, w = a ++ contMark :: b → b.head? = some 'x') := by
  obtain ⟨⟨h1, h2⟩, h3⟩ := tokens_isToken (safeLinesplit_iff.1 rfl) w h
  refine ⟨h1, h3, fun c hc => ?_, fun a b hw => ?_⟩
  · obtain ⟨a, b, rfl⟩ := List.append_of_mem hc
    have := h2 a c b rfl
    simp only [Separates, not_or] at this
    simpa using this.1
  · have := h2 a contMark b hw
    simp only [Separates, not_or, not_and, List.append_nil, Classical.not_not] at this
    exact this.2 trivial

/-- **C22**: joining the tokens with blanks and splitting again gives the same tokens -/
theorem C22_join_split (s : Str) : safeLinesplit (joinS c!" " (safeLinesplit s)) = safeLinesplit s :=
  safeLinesplit_of_tokens (tokens_join (fun w hw => (tokens_isToken (safeLinesplit_iff.1 rfl) w hw).1))

/-- **C22**: words without blank and mark, separated by anything that separates, come back -/
theorem C22_words (ws : List Str) (hw : ∀ w ∈ ws, w ≠ [] ∧ ∀ c ∈ w, reSpace c = false ∧ c ≠ contMark) :
    safeLinesplit (joinS c!" " ws) = ws := by
  refine safeLinesplit_of_tokens (tokens_join (fun w h => ⟨(hw w h).1, ?_⟩))
  rintro a c b rfl (hc | ⟨hc, -⟩)
  · have := ((hw _ h).2 c (by simp)).1
    rw [this] at hc; cases hc
  · exact ((hw _ h).2 c (by simp)).2 hc

/-! ## C23 -/

/-- one item of a versioned list: what separates it from the item before, the name, and perhaps the blanks and the text of
a constraint -/
structure VersionedItem where
  sep : Str
  name : Str
  constraint : Option (Str × Str)

/-- the text of an item -/
def VersionedItem.text (i : VersionedItem) : Str :=
  i.sep ++ (i.name ++ match i.constraint with
    | some (ws, body) => ws ++ '(' :: (body ++ c!")")
    | none => [])

/-- separators are blanks and continuation marks, names have none of them and no opening parenthesis, constraints have no
closing parenthesis and no newline -/
structure VersionedItem.Ok (i : VersionedItem) : Prop where
  sep : ∀ c ∈ i.sep, reSpace c = true ∨ c = contMark
  ne : i.name ≠ []
  name : ∀ c ∈ i.name, reSpace c = false ∧ c ≠ contMark ∧ c ≠ '('
  mark : ∀ u, i.sep = u ++ [contMark] → i.name.head? ≠ some 'x'
  blanks : ∀ ws body, i.constraint = some (ws, body) → ∀ c ∈ ws, reSpace c = true
  body : ∀ ws body, i.constraint = some (ws, body) → ')' ∉ body ∧ '\n' ∉ body

/-- the text that `get_items` looks at: the override if it is given, the value otherwise, without surrounding quotes -/
def ItemsText (v : VarData) (override x : Str) : Prop :=
  (stripP (oneOf c!"\"") override ≠ [] ∧ x = stripP (oneOf c!"\"") override) ∨
  (stripP (oneOf c!"\"") override = [] ∧ x = stripP (oneOf c!"\"") v.varValue)

/-- **C23**: `get_items(versioned=True)` deletes the constraints, from left to right, each with the blanks before it, and
splits the rest; without `versioned` they stay -/
theorem C23_constraints_dropped (v : VarData) (override x : Str) (hx : ItemsText v override x) (ts : List Str) :
    (varGetItems v override true = ts ↔ ∃ r, Unversioned x r ∧ Tokens r ts) ∧
    (varGetItems v override false = ts ↔ Tokens x ts) := by
  have e : (if (stripP (oneOf c!"\"") override).isEmpty then stripP (oneOf c!"\"") v.varValue
      else stripP (oneOf c!"\"") override) = x := by
    rcases hx with ⟨h, rfl⟩ | ⟨h, rfl⟩
    · rw [if_neg (by simpa using h)]
    · rw [if_pos (by simpa using h)]
  unfold varGetItems
  simp only [e, if_true, Bool.false_eq_true, if_false]
  refine ⟨?_, safeLinesplit_iff⟩
  rw [safeLinesplit_iff]
  constructor
  · exact fun h => ⟨_, unversioned_iff.1 rfl, h⟩
  · rintro ⟨r, h1, h2⟩
    rw [unversioned_iff.2 h1]; exact h2

theorem unversioned_items (is : List VersionedItem) (tail : Str) (hok : ∀ i ∈ is, i.Ok) (ht : '(' ∉ tail) :
    Unversioned ((is.map VersionedItem.text).flatten ++ tail) ((is.map (fun i => i.sep ++ i.name)).flatten ++ tail) := by
  induction is with
  | nil => exact unversioned_self ht
  | cons i is ih =>
    have ok := hok i (by simp)
    have ih := ih (fun j hj => hok j (List.mem_cons_of_mem _ hj))
    simp only [List.map_cons, List.flatten_cons, VersionedItem.text]
    have h1 : '(' ∉ i.sep ++ i.name := by
      rw [List.mem_append, not_or]
      refine ⟨fun h => ?_, fun h => (ok.name _ h).2.2 rfl⟩
      rcases ok.sep _ h with h | h
      · exact absurd h (by decide)
      · exact absurd h (by decide)
    have h2 : ∀ u c, i.sep ++ i.name = u ++ [c] → reSpace c = false := by
      intro u c hu
      have hl : (i.sep ++ i.name).getLast? = some c := by rw [hu]; simp
      rw [List.getLast?_append_of_ne_nil _ ok.ne] at hl
      exact (ok.name c (List.mem_of_getLast? hl)).1
    cases hc : i.constraint with
    | none =>
      have := unversioned_run h1 h2 ih
      simpa [hc] using this
    | some wb =>
      obtain ⟨ws, body⟩ := wb
      have hb := ok.body ws body hc
      have hd : Constraint (ws ++ '(' :: (body ++ ')' :: ((is.map VersionedItem.text).flatten ++ tail)))
          ((is.map VersionedItem.text).flatten ++ tail) := ⟨ws, body, rfl, ok.blanks ws body hc, hb.1, hb.2⟩
      have := unversioned_run h1 h2 (.drop hd ih)
      simpa [hc] using this

theorem tokens_seps {sep t : Str} {ts : List Str} (h : ∀ c ∈ sep, reSpace c = true ∨ c = contMark)
    (hm : ∀ u, sep = u ++ [contMark] → t.head? ≠ some 'x') (ht : Tokens t ts) : Tokens (sep ++ t) ts := by
  induction sep with
  | nil => exact ht
  | cons c sep ih =>
    refine .skip ?_ (ih (fun x hx => h x (List.mem_cons_of_mem _ hx)) (fun u hu => hm (c :: u) (by rw [hu]; rfl)))
    rcases h c (by simp) with hc | rfl
    · exact Or.inl hc
    · refine Or.inr ⟨rfl, ?_⟩
      cases sep with
      | nil => simpa using hm [] rfl
      | cons x sep =>
        simp
        rintro rfl
        rcases h 'x' (by simp) with hx | hx
        · exact absurd hx (by decide)
        · exact absurd hx (by decide)

theorem tokens_items (is : List VersionedItem) (tail : Str) (hok : ∀ i ∈ is, i.Ok)
    (hs : ∀ i ∈ is.tail, i.sep ≠ []) (ht : ∀ c ∈ tail, reSpace c = true ∨ c = contMark) :
    Tokens ((is.map (fun i => i.sep ++ i.name)).flatten ++ tail) (is.map (·.name)) := by
  induction is with
  | nil =>
    have := tokens_seps (t := []) ht (fun u _ => by simp) .nil
    simpa using this
  | cons i is ih =>
    have ok := hok i (by simp)
    have ih := ih (fun j hj => hok j (List.mem_cons_of_mem _ hj)) (fun j hj => hs j (List.mem_of_mem_tail hj))
    obtain ⟨rest, hrest⟩ : ∃ rest, rest = (is.map (fun i => i.sep ++ i.name)).flatten ++ tail := ⟨_, rfl⟩
    rw [← hrest] at ih
    have hsep : ∀ c u, rest = c :: u → Separates c u := by
      intro c u hu
      cases is with
      | nil =>
        simp at hrest
        rw [hrest] at hu
        subst hrest
        rcases ht c (by rw [hu]; simp) with h | rfl
        · exact Or.inl h
        · refine Or.inr ⟨rfl, fun hx => ?_⟩
          obtain ⟨u', rfl⟩ : ∃ u', u = 'x' :: u' := by cases u <;> simp_all
          rcases ht 'x' (by rw [hu]; simp) with h | h
          · exact absurd h (by decide)
          · exact absurd h (by decide)
      | cons j is =>
        have okj := hok j (by simp)
        have hj := hs j (by simp)
        cases hjs : j.sep with
        | nil => exact absurd hjs hj
        | cons x sep =>
          rw [hrest] at hu
          simp [hjs] at hu
          obtain ⟨rfl, rfl⟩ := hu
          rcases okj.sep x (by rw [hjs]; simp) with h | rfl
          · exact Or.inl h
          · refine Or.inr ⟨rfl, ?_⟩
            cases sep with
            | nil =>
              have := okj.mark [] (by rw [hjs]; rfl)
              cases hn : j.name with
              | nil => exact absurd hn okj.ne
              | cons y n => rw [hn] at this; simpa using this
            | cons y sep =>
              simp
              rintro rfl
              rcases okj.sep 'x' (by rw [hjs]; simp) with h | h
              · exact absurd h (by decide)
              · exact absurd h (by decide)
    have htok : Tokens (i.name ++ rest) (i.name :: is.map (·.name)) := by
      refine .token ok.ne ?_ hsep ih
      rintro a c b hn (hc | ⟨hc, -⟩)
      · have := (ok.name c (by rw [hn]; simp)).1
        rw [this] at hc; cases hc
      · exact (ok.name c (by rw [hn]; simp)).2.1 hc
    have := tokens_seps (t := i.name ++ rest) ok.sep (fun u hu => by
      have := ok.mark u hu
      cases hn : i.name with
      | nil => exact absurd hn ok.ne
      | cons y n => rw [hn] at this; simpa using this) htok
    simp only [List.map_cons, List.flatten_cons, List.append_assoc, ← hrest]
    exact this

/-- **C23**: for a list of names, each perhaps followed by a constraint in parentheses, `get_items(versioned=True)` returns
exactly the names -/
theorem C23_names_only (v : VarData) (override x tail : Str) (hx : ItemsText v override x) (is : List VersionedItem)
    (hxt : x = (is.map VersionedItem.text).flatten ++ tail) (hok : ∀ i ∈ is, i.Ok) (hs : ∀ i ∈ is.tail, i.sep ≠ [])
    (ht : ∀ c ∈ tail, reSpace c = true ∨ c = contMark) : varGetItems v override true = is.map (·.name) := by
  refine ((C23_constraints_dropped v override x hx _).1).2 ⟨_, ?_, tokens_items is tail hok hs ht⟩
  rw [hxt]
  refine unversioned_items is tail hok (fun h => ?_)
  rcases ht _ h with h | h
  · exact absurd h (by decide)
  · exact absurd h (by decide)

end Oelint

namespace Oelint
open Spec
attribute [local instance] Sample.asciiUni

/-- **C22 is false** for a continuation mark followed by `x`: it stays in the token -/
theorem C22_mark_counterexample : safeLinesplit (c!"a " ++ contMark :: c!"xyz b") = [c!"a", contMark :: c!"xyz", c!"b"] := by
  decide +kernel

/-- C22: a value over two lines -/
example : safeLinesplit (c!" a  b " ++ contMark :: c!"  c\t") = [c!"a", c!"b", c!"c"] := by decide +kernel

/-- C23: names, some with a constraint -/
example : varGetItems ⟨[], [], [], [], c!" = ", []⟩ c!"foo (>= 1.0) bar  (= 2 a)\tbaz" true = [c!"foo", c!"bar", c!"baz"] :=
  C23_names_only _ _ c!"foo (>= 1.0) bar  (= 2 a)\tbaz" [] (Or.inl (by decide +kernel))
    [⟨[], c!"foo", some (c!" ", c!">= 1.0")⟩, ⟨c!" ", c!"bar", some (c!"  ", c!"= 2 a")⟩, ⟨c!"\t", c!"baz", none⟩]
    (by decide +kernel)
    (by
      intro i hi
      simp at hi
      rcases hi with rfl | rfl | rfl <;> constructor <;> simp <;> decide +kernel)
    (by decide +kernel) (by simp)

end Oelint

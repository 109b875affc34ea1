import Verif.Lemmas.Names
import Verif.Spec.Forms
/-! `textwrap.dedent`. -/
set_option linter.unusedSectionVars false
set_option linter.unusedSimpArgs false
namespace Oelint
open Spec

theorem lcp_left (a b : Str) : lcp a b <+: a := by
  induction a generalizing b with
  | nil => cases b <;> simp [lcp]
  | cons x s ih =>
    cases b with
    | nil => simp [lcp]
    | cons y t =>
      rw [lcp]
      split
      · exact (List.prefix_cons_inj x).2 (ih t)
      · exact List.nil_prefix

theorem lcp_right (a b : Str) : lcp a b <+: b := by
  induction a generalizing b with
  | nil => cases b <;> simp [lcp]
  | cons x s ih =>
    cases b with
    | nil => simp [lcp]
    | cons y t =>
      rw [lcp]
      split
      · rename_i h
        have : x = y := by simpa using h
        subst this
        exact (List.prefix_cons_inj x).2 (ih t)
      · exact List.nil_prefix

theorem prefix_lcp {m a b : Str} (ha : m <+: a) (hb : m <+: b) : m <+: lcp a b := by
  induction m generalizing a b with
  | nil => exact List.nil_prefix
  | cons x m ih =>
    obtain ⟨a', rfl⟩ := ha
    obtain ⟨b', rfl⟩ := hb
    simp only [List.cons_append, lcp, beq_self_eq_true, if_true]
    exact (List.prefix_cons_inj x).2 (ih (List.prefix_append _ _) (List.prefix_append _ _))

theorem foldl_lcp (is : List Str) (i : Str) :
    (is.foldl lcp i <+: i ∧ ∀ x ∈ is, is.foldl lcp i <+: x) ∧ ∀ m, m <+: i → (∀ x ∈ is, m <+: x) → m <+: is.foldl lcp i := by
  induction is generalizing i with
  | nil => simp
  | cons j is ih =>
    obtain ⟨⟨h1, h2⟩, h3⟩ := ih (lcp i j)
    refine ⟨⟨h1.trans (lcp_left i j), ?_⟩, ?_⟩
    · intro x hx
      rcases List.mem_cons.1 hx with rfl | hx
      · exact h1.trans (lcp_right i x)
      · exact h2 x hx
    · intro m hm hms
      exact h3 m (prefix_lcp hm (hms j (by simp))) (fun x hx => hms x (by simp [hx]))

theorem prefix_takeWhile {m l : Str} (hm : Tabs m) (h : m <+: l) : m <+: l.takeWhile (fun c => c == ' ' || c == '\t') := by
  obtain ⟨r, rfl⟩ := h
  rw [List.takeWhile_append_of_pos]
  · exact List.prefix_append _ _
  · intro c hc; simpa using hm c hc

theorem dedent_spec (s : Str) : Dedented s (dedent s) := by
  generalize hb : (fun c : Char => c == ' ' || c == '\t') = blank
  have hblank : ∀ l : Str, l.all blank = true ↔ BlankLine l := by
    intro l; simp [← hb, BlankLine, Tabs]
  generalize hlines : (splitC '\n' s).map (fun l => if l.all blank then [] else l) = lines
  generalize hind : (lines.filter (fun l => !l.isEmpty)).map (fun l => l.takeWhile blank) = indents
  generalize hmar : (match indents with
    | [] => []
    | i :: is => is.foldl lcp i) = margin
  have hded : dedent s = joinS c!"\n" (lines.map (fun l => if margin.isPrefixOf l then l.drop margin.length else l)) := by
    unfold dedent
    simp only [hb, hlines, hind]
    rw [← hmar]
    rfl
  have hmem : ∀ x, x ∈ indents ↔ ∃ l ∈ splitC '\n' s, ¬ BlankLine l ∧ x = l.takeWhile blank := by
    intro x
    rw [← hind, ← hlines]
    simp only [List.mem_map, List.mem_filter]
    constructor
    · rintro ⟨l, ⟨⟨l0, h0, rfl⟩, hne⟩, rfl⟩
      by_cases hbl : l0.all blank = true
      · simp [hbl] at hne
      · refine ⟨l0, h0, fun h => hbl ((hblank _).2 h), ?_⟩
        rw [if_neg hbl]
    · rintro ⟨l, hl, hbl, rfl⟩
      have hbl' : ¬ l.all blank = true := fun h => hbl ((hblank _).1 h)
      refine ⟨l, ⟨⟨l, hl, by rw [if_neg hbl']⟩, ?_⟩, rfl⟩
      cases l with
      | nil => exact absurd (by simp) hbl'
      | cons => rfl
  have hmargin : (∀ x ∈ indents, margin <+: x) ∧ ∀ m, indents ≠ [] → (∀ x ∈ indents, m <+: x) → m <+: margin := by
    rw [← hmar]
    cases indents with
    | nil => simp
    | cons i is =>
      obtain ⟨⟨h1, h2⟩, h3⟩ := foldl_lcp is i
      refine ⟨?_, ?_⟩
      · intro x hx
        rcases List.mem_cons.1 hx with rfl | hx
        · exact h1
        · exact h2 x hx
      · intro m _ hm
        exact h3 m (hm i (by simp)) (fun x hx => hm x (by simp [hx]))
  have htabs : Tabs margin := by
    intro c hc
    cases hi : indents with
    | nil => rw [hi] at hmar; dsimp only at hmar; subst hmar; cases hc
    | cons i is =>
      have h1 := hmargin.1 i (by rw [hi]; simp)
      obtain ⟨l, -, -, e⟩ := (hmem i).1 (by rw [hi]; simp)
      have h2 : c ∈ l.takeWhile blank := e ▸ h1.subset hc
      have := List.all_takeWhile (p := blank) (l := l)
      have := List.all_eq_true.1 this c h2
      simpa [← hb] using this
  refine ⟨splitC '\n' s, lines.map (fun l => if margin.isPrefixOf l then l.drop margin.length else l), margin, pieces_splitC _ _, ⟨?_, hded.symm, ?_⟩, htabs, ?_, ?_⟩
  · rw [← hlines]; simp [splitC_ne_nil]
  · intro o ho
    rw [← hlines] at ho
    simp only [List.mem_map] at ho
    obtain ⟨l', ⟨l, hl, rfl⟩, rfl⟩ := ho
    have hno : '\n' ∉ l := splitC_no_sep hl
    intro hc
    have hz : '\n' ∉ (if l.all blank = true then [] else l) := by split <;> simp [hno]
    generalize (if l.all blank = true then [] else l) = z at hc hz
    split at hc
    · exact hz (List.mem_of_mem_drop hc)
    · exact hz hc
  · rw [← hlines, List.map_map, List.forall₂_map_right_iff]
    refine List.forall₂_same.2 ?_
    intro l hl
    simp only [Function.comp]
    constructor
    · intro h
      simp [(hblank l).2 h]
    · intro h
      have hbl : ¬ l.all blank = true := fun h' => h ((hblank l).1 h')
      have hp : margin <+: l := (hmargin.1 _ ((hmem _).2 ⟨l, hl, h, rfl⟩)).trans (List.takeWhile_prefix _)
      rw [if_neg hbl, if_pos (List.isPrefixOf_iff_prefix.2 hp)]
      obtain ⟨r, rfl⟩ := hp
      simp
  · rintro m hm ⟨l0, hl0, hb0⟩ hall
    refine (hmargin.2 m ?_ ?_).length_le
    · exact List.ne_nil_of_mem ((hmem _).2 ⟨l0, hl0, hb0, rfl⟩)
    · intro x hx
      obtain ⟨l, hl, hbl, rfl⟩ := (hmem x).1 hx
      rw [← hb]
      exact prefix_takeWhile hm (hall l hl hbl)

end Oelint

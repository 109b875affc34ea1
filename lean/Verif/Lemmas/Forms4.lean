import Verif.Lemmas.Forms3
import Verif.Lemmas.Dedent
import Verif.Lemmas.Tasks
import Verif.Lemmas.RecipeNames
import Verif.Lemmas.AppendNames
import Verif.Lemmas.Tokens
import Verif.Props.Names
/-! Items whose joined text is a given statement. -/
set_option linter.unusedSectionVars false
set_option linter.unusedSimpArgs false
namespace Oelint
variable [Uni]
open Spec

theorem joined_eq (raw : Str) : joined raw = cntOf raw := by
  rw [cntOf_eq, joined]; rfl

theorem joined_no_newline (raw : Str) : '\n' ∉ joined raw := by
  intro h
  simp only [joined, List.mem_map, List.mem_filter] at h
  obtain ⟨c, ⟨-, hc⟩, e⟩ := h
  split at e
  · exact absurd e (by decide)
  · subst e; simp at hc

/-- every item is what the loop over the patterns makes of its joined text -/
theorem item_of_joined {W : World} {n : Nat} {path : Str} {off : Int} {forced : Option Str} {s s' : Stash}
    {res : List Item} (h : addFile W n path off forced s = (.ok res, s')) {it : Item} (hi : it ∈ res) :
    ∃ fuel l p s1 s2 d it0, classify W (addFile W fuel) (abspath W.cwd path) l p (joined it.raw) parseOrder s1 = (.ok (it0, d), s2) ∧
      it0.payload = it.payload ∧ it0.delim = it.delim ∧ it0.raw = it.raw := by
  rcases addFile_cases h with rfl | ⟨t, _, _, k, ⟨ok⟩⟩
  · cases hi
  obtain ⟨l, p, s1, s2, d, it0, h1, h2, -⟩ := ok.classified hi
  rw [joined_eq]
  exact ⟨k, l, p, s1, s2, d, it0, h1, by rw [h2], by rw [h2], by rw [h2]⟩

theorem opText_isOp {ws1 op ws2 val : Str} {q : Char} (hop : op ∈ operators) (h1 : Blanks ws1) (h2 : Blanks ws2) (hq : q = '\'' ∨ q = '"') :
    ∃ pre post, op = pre ++ '=' :: post ∧ IsOp ws1 pre post ws2 (q :: val) := by
  obtain ⟨pre, post, e, hpre, hpost⟩ := operators_split hop
  refine ⟨pre, post, e, fun c hc => (h1 c hc).1, hpre, hpost, fun c hc => (h2 c hc).1, ?_, ?_⟩
  · intro c u e
    simp at e
    rw [← e.1]
    rcases hq with rfl | rfl <;> rfl
  · intro c u e
    cases ws2 with
    | nil => simp at e; rw [← e.1]; rcases hq with rfl | rfl <;> rfl
    | cons w ws2 =>
      simp at e
      have := (h2 w (by simp)).1
      rw [e.1] at this
      by_contra hx
      have hx : c = '+' ∨ c = '.' := by simpa [postOp, Classical.or_iff_not_imp_left] using hx
      rcases hx with rfl | rfl <;> exact absurd this (by decide)

theorem strip_of_none {s : Str} (h : ∀ c ∈ s, pySpace c = false) : stripP pySpace s = s := by
  have h1 : lstripP pySpace s = s := by
    cases s with
    | nil => rfl
    | cons c t => simp [lstripP, List.dropWhile_cons, h c (by simp)]
  rw [stripP, h1]
  rcases List.eq_nil_or_concat s with rfl | ⟨t, c, rfl⟩
  · rfl
  · rw [List.concat_eq_append, rstripP_concat_not _ _ (h c (by simp))]

theorem strip_trailing {s t : Str} (h : ∀ c ∈ s, pySpace c = false) (ht : ∀ c ∈ t, reSpace c = true) (hs : s ≠ []) : stripP pySpace (s ++ t) = s := by
  have h1 : lstripP pySpace (s ++ t) = s ++ t := by
    cases s with
    | nil => exact absurd rfl hs
    | cons c t => simp [lstripP, List.dropWhile_cons, h c (by simp)]
  rw [stripP, h1, rstripP_append_all _ _ (fun c hc => by simp [pySpace, ht c hc])]
  have := strip_of_none h
  rw [stripP] at this
  have h2 : lstripP pySpace s = s := by
    cases s with
    | nil => rfl
    | cons c t => simp [lstripP, List.dropWhile_cons, h c (by simp)]
  rwa [h2] at this

theorem big_not_pySpace {c : Char} (h1 : reSpace c = false) (h : '!' ≤ c) : pySpace c = false := by
  have e : ∀ a b : Char, (a ≤ b) = (a.toNat ≤ b.toNat) := fun a b => by simp [Char.le_def, UInt32.le_iff_toNat_le]
  rw [e] at h
  have h2 : '!'.toNat = 33 := rfl
  simp [pySpace, h1]
  omega

theorem nameChar_not_pySpace {c : Char} (h : NameChar c) : pySpace c = false := by
  refine big_not_pySpace (nameChar_not_space h).1 ?_
  rcases h with h | h | h | h
  · exact Char.le_trans (b := 'A') (by decide) h.1
  · exact Char.le_trans (b := '0') (by decide) h.1
  · exact Char.le_trans (b := 'a') (by decide) h.1
  · revert c; decide

theorem funcChar_not_pySpace {c : Char} (h : FuncChar c) : pySpace c = false := by
  refine big_not_pySpace (funcChar_not_space h).1 ?_
  rcases h with h | h | h | h
  · exact Char.le_trans (b := 'A') (by decide) h.1
  · exact Char.le_trans (b := '0') (by decide) h.1
  · exact Char.le_trans (b := 'a') (by decide) h.1
  · revert c; decide

theorem mkFunction_getD (known : Str → Bool) (uid : Nat) (p : Params) (nm : Option Str) (body : Str) (py fr : Option Str) :
    mkFunction known uid p nm body py fr = mkFunction known uid p (some (nm.getD [])) body py fr := by
  cases nm <;> rfl

theorem mkFunction_delimiter (known : Str → Bool) (uid : Nat) (p : Params) (nm : Option Str) (body : Str) (py fr : Option Str) :
    (mkFunction known uid p nm body py fr).delim = Spec.delimiter p.newStyle (stripP pySpace (nm.getD [])) := by
  rw [← delimFor_eq]
  unfold mkFunction extractSubFunc
  simp only [mkItemD]
  split <;> rfl

theorem dropFirst {a b : Str} {c : Char} (h : c ∉ a) : findSub [c] (a ++ c :: b) = some a.length := by
  induction a with
  | nil => simp [findSub, List.isPrefixOf]
  | cons x a ih =>
    simp at h
    rw [List.cons_append, findSub]
    rw [if_neg (by simp [List.isPrefixOf]; exact h.1), ih h.2]
    simp

theorem append_in_tail {known : Str → Bool} {d : Char} {ps a b : List Str} (h : FirstFuncSplit known d ps a b) {x : Str} (hx : x ∈ funcOverrides) :
    x ∈ b ↔ x ∈ ps.tail := by
  obtain ⟨e, ha, -, hmin⟩ := h
  obtain ⟨y, a, rfl⟩ := List.exists_cons_of_ne_nil ha
  subst e
  simp only [List.cons_append, List.tail_cons, List.mem_append]
  refine ⟨Or.inr, ?_⟩
  rintro (h | h)
  · exfalso
    obtain ⟨u, v, rfl⟩ := List.append_of_mem h
    refine hmin (y :: u) (x :: (v ++ b)) (by simp) (by simp) (by simp) ⟨x, v ++ b, rfl, Or.inl hx⟩
  · exact h

end Oelint

import Verif.Lemmas.InlineValue
/-! A text with exactly one inline block. -/
set_option linter.unusedSectionVars false
set_option linter.unusedSimpArgs false
namespace Oelint
variable [Uni]
open Spec

theorem at_split {a b a' b' : Str} (h : a ++ '@' :: b = a' ++ '@' :: b') (ha : '@' ∉ a) (hb : '@' ∉ b) : a = a' ∧ b = b' := by
  rcases List.append_eq_append_iff.1 h with ⟨c, rfl, h2⟩ | ⟨c, rfl, h2⟩
  · cases c with
    | nil => simp at h2; simp [h2]
    | cons x c => simp at h2; rw [h2.2] at hb; simp at hb
  · cases c with
    | nil => simp at h2; simp [h2]
    | cons x c => simp at h2; rw [← h2.1] at ha; simp at ha

theorem isScope_plain {code post p : Str} (h1 : '{' ∉ code) (h2 : '}' ∉ code) (h : IsScope p (code ++ '}' :: post)) :
    p = code ++ ['}'] := by
  obtain ⟨hp, hmin, hend⟩ := h
  have hfull : code ++ ['}'] <+: code ++ '}' :: post := ⟨post, by simp⟩
  have hc : (code ++ ['}']).count '{' < (code ++ ['}']).count '}' := by
    simp [List.count_append, List.count_eq_zero_of_not_mem h1]
  by_cases hl : (code ++ ['}']).length ≤ p.length
  · have hpre := List.prefix_of_prefix_length_le hfull hp hl
    by_contra hne
    have := hmin _ hpre (fun h => hne h.symm)
    omega
  · have hpre := List.prefix_of_prefix_length_le hp hfull (by omega)
    exfalso
    have hpc : p <+: code := by
      obtain ⟨r, hr⟩ := hpre
      rcases List.eq_nil_or_concat r with rfl | ⟨r', x, rfl⟩
      · simp at hr; subst hr; simp at hl
      · rw [List.concat_eq_append, ← List.append_assoc] at hr
        exact ⟨r', (List.append_inj' hr rfl).1⟩
    have hz : p.count '}' = 0 := List.count_eq_zero_of_not_mem (fun hm => h2 (hpc.subset hm))
    rcases hend with h | h
    · omega
    · subst h; simp at hl

theorem replaced_one {a blk post v s' : Str} {x y : Str} (hb : blk = x ++ '@' :: y) (ha : '@' ∉ a ++ x) (hy : '@' ∉ y ++ post)
    (h : Replaced blk v (a ++ (blk ++ post)) s') : s' = a ++ (v ++ post) := by
  generalize hs : a ++ (blk ++ post) = s at h
  cases h with
  | none hno => exact absurd ⟨a, post, by rw [← hs]; simp⟩ hno
  | @some a' b b' _ hrest =>
    subst hb
    have e : (a ++ x) ++ '@' :: (y ++ post) = (a' ++ x) ++ '@' :: (y ++ b) := by simpa using hs
    obtain ⟨e1, e2⟩ := at_split e ha hy
    have e1 := List.append_cancel_right e1
    have e2 := List.append_cancel_left e2
    subst e1; subst e2
    cases hrest with
    | none _ => rfl
    | @some c d d' _ _ => exfalso; simp at hy

theorem substituted_one {value : Str → Str} {a code post out : Str} {bs : List (Str × Str)} (ha : '@' ∉ a) (hc : '@' ∉ code)
    (hp : '@' ∉ post) (h1 : '{' ∉ code) (h2 : '}' ∉ code) (hv : '@' ∉ value (c!"${@" ++ code ++ c!"}"))
    (h : Substituted value (a ++ (c!"${@" ++ code ++ c!"}") ++ post) bs out) :
    bs = [(c!"${@" ++ code ++ c!"}", value (c!"${@" ++ code ++ c!"}"))] ∧ out = a ++ value (c!"${@" ++ code ++ c!"}") ++ post := by
  generalize hs : a ++ (c!"${@" ++ code ++ c!"}") ++ post = s at h
  cases h with
  | done hno => exact absurd ⟨a, code ++ c!"}" ++ post, by rw [← hs]; simp [opening]⟩ hno
  | @step _ s' blk _ bs' hf hr hrest =>
    obtain ⟨a', p, t, e, -, hsc, rfl⟩ := hf
    have e' : (a ++ c!"${") ++ '@' :: (code ++ '}' :: post) = (a' ++ c!"${") ++ '@' :: t := by
      rw [e] at hs; simpa [opening] using hs
    obtain ⟨e1, e2⟩ := at_split e' (by simp [ha]) (by simp [hc, hp])
    have e1 := List.append_cancel_right e1
    subst e1; subst e2
    have := isScope_plain h1 h2 hsc
    subst this
    have eb : opening ++ (code ++ ['}']) = c!"${@" ++ code ++ c!"}" := by simp [opening]
    rw [eb] at hr ⊢
    have hs' : s = a ++ ((c!"${@" ++ code ++ c!"}") ++ post) := by rw [← hs]; simp
    rw [hs'] at hr
    have := replaced_one (x := c!"${") (y := code ++ c!"}") (by simp) (by simp [ha]) (by simp [hc, hp]) hr
    subst this
    have hno : ¬ opening <:+: a ++ (value (c!"${@" ++ code ++ c!"}") ++ post) := by
      intro hin
      have : '@' ∈ a ++ (value (c!"${@" ++ code ++ c!"}") ++ post) := hin.subset (by simp [opening])
      simp only [List.mem_append] at this
      rcases this with h | h | h
      · exact ha h
      · exact hv h
      · exact hp h
    obtain ⟨rfl, rfl⟩ := substituted_of_no_opening hrest hno
    exact ⟨rfl, by simp⟩

end Oelint

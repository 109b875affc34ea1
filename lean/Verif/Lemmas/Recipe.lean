import Verif.Lemmas.Forms4
import Verif.Spec.Recipe
/-! Lemmas for recipes as lists of statements (C76). -/
set_option linter.unusedSectionVars false
set_option linter.unusedSimpArgs false
namespace Oelint
variable [Uni]
open Spec

/-- the pattern matches nothing that consists of blanks and tabs -/
def Re.solid : Re → Bool
  | .lit p => p.any (fun c => c != ' ' && c != '\t')
  | .cls neg is => is.any (·.test ' ') == neg && is.any (·.test '\t') == neg
  | .seq a b => a.solid || b.solid
  | .alt a b => a.solid && b.solid
  | .grp _ r => r.solid
  | .look false r => r.solid
  | .atomic r => r.solid
  | _ => false

theorem ms_solid (r : Re) (h : r.solid = true) (s t : St) (hs : Tabs s.rest) : t ∉ ms r s := by
  induction r generalizing s t with
  | lit p =>
    rw [mem_ms_lit]
    rintro ⟨⟨q, hq⟩, -⟩
    simp only [Re.solid, List.any_eq_true] at h
    obtain ⟨c, hc, h⟩ := h
    have := hs c (by rw [← hq]; simp [hc])
    rcases this with rfl | rfl <;> simp at h
  | cls neg is =>
    rw [mem_ms_cls]
    rintro ⟨x, u, hx, hn, -⟩
    simp only [Re.solid, Bool.and_eq_true, beq_iff_eq] at h
    have := hs x (by rw [hx]; simp)
    rcases this with rfl | rfl
    · exact absurd h.1 (by simpa using hn)
    · exact absurd h.2 (by simpa using hn)
  | seq a b iha ihb =>
    rw [mem_ms_seq]
    rintro ⟨u, hu, ht⟩
    simp only [Re.solid, Bool.or_eq_true] at h
    rcases h with h | h
    · exact iha h _ _ hs hu
    · obtain ⟨w, e, -⟩ := ms_eats a s u hu
      exact ihb h _ _ (fun c hc => hs c (by rw [e]; simp [hc])) ht
  | alt a b iha ihb =>
    rw [mem_ms_alt]
    simp only [Re.solid, Bool.and_eq_true] at h
    rintro (ht | ht)
    · exact iha h.1 _ _ hs ht
    · exact ihb h.2 _ _ hs ht
  | grp n r ih =>
    intro ht
    simp only [ms, List.mem_map] at ht
    obtain ⟨u, hu, -⟩ := ht
    exact ih h _ _ hs hu
  | look neg r ih =>
    cases neg with
    | true => cases h
    | false =>
      intro ht
      simp only [ms, Bool.false_eq_true, if_false] at ht
      split at ht
      · cases ht
      · rename_i u l hl
        exact ih h s u hs (by rw [hl]; simp)
  | atomic r ih =>
    intro ht
    simp only [ms] at ht
    exact ih h _ _ hs (List.mem_of_mem_take ht)
  | _ => cases h

theorem classify_blank {W : World} {add : AddFn} {file : Str} {lineno : Int} {p : Params} {s s' : Stash} {it : Item} {d : Int} {ws : Str}
    (hws : Tabs ws) (h : classify W add file lineno p ws parseOrder s = (.ok (it, d), s')) : it.payload = .item := by
  rw [classify_at 17] at h
  · obtain ⟨uid, s1, h1, h2⟩ := bind_ok h
    cases h2
    rfl
  · intro kp hkp
    rw [reMatch_none_iff]
    have : ∀ kp ∈ parseOrder, kp.2.re.solid = true := by
      intro kp hkp
      simp only [parseOrder, List.mem_cons, List.not_mem_nil, or_false] at hkp
      rcases hkp with rfl | rfl | rfl | rfl | rfl | rfl | rfl | rfl | rfl | rfl | rfl | rfl | rfl | rfl | rfl | rfl | rfl <;> rfl
    exact fun t => ms_solid _ (this kp (List.mem_of_mem_take hkp)) _ _ hws

theorem replaceAll_drop (c : Char) (s : Str) : replaceAll [c] [] s = s.filter (fun x => x != c) := by
  rw [replaceAll_char]
  induction s with
  | nil => rfl
  | cons x s ih =>
    by_cases hx : x = c
    · simp [hx] at ih ⊢; exact ih
    · simp [hx] at ih ⊢; exact ih

/-- the body of a function without braces and newlines -/
theorem funcBodyStripped_eq (f : FuncData) :
    funcBodyStripped f = stripP pySpace (f.funcBody.filter (fun c => c != '{' && c != '}' && c != '\n')) := by
  unfold funcBodyStripped
  rw [replaceAll_drop, replaceAll_drop, replaceAll_drop, List.filter_filter, List.filter_filter]
  congr 2
  funext c
  cases c != '{' <;> cases c != '}' <;> cases c != '\n' <;> rfl

theorem strip_trimmed (p : Char → Bool) (v : Str) : Trimmed (fun c => p c = true) v (stripP p v) := by
  obtain ⟨l, hl, hla⟩ := dropWhile_eq_self_or (p := p) v
  obtain ⟨r, hr, hra⟩ := rstripP_spec (p := p) (lstripP p v)
  refine ⟨l, r, ?_, hla, hra, ?_, ?_⟩
  · rw [stripP, ← hr]; exact hl
  · intro c hc
    have h1 : c ∈ (lstripP p v).head? := by
      obtain ⟨q, hq⟩ := rstripP_prefix p (lstripP p v)
      rw [stripP] at hc
      rw [← hq]
      cases h : rstripP p (lstripP p v) with
      | nil => rw [h] at hc; cases hc
      | cons x t => rw [h] at hc; simpa using hc
    have := List.head?_dropWhile_not p v
    rw [lstripP] at h1
    rw [h1] at this
    simpa using this
  · intro c hc
    simp [rstripP_last _ c hc]

theorem blank_items {raw : Str} (h : Tabs (joined raw)) : safeLinesplit raw = [] := by
  have hall : ∀ c ∈ raw, reSpace c = true := by
    intro c hc
    by_cases hn : c = '\n'
    · subst hn; decide
    have := h (if c = '\\' then '\x1b' else c) (by
      unfold joined
      exact List.mem_map.2 ⟨c, List.mem_filter.2 ⟨hc, by simpa using hn⟩, rfl⟩)
    split at this
    · rcases this with h | h <;> exact absurd h (by decide)
    · rcases this with rfl | rfl <;> decide
  rw [List.eq_nil_iff_forall_not_mem]
  intro w hw
  obtain ⟨⟨h1, h2⟩, h3⟩ := tokens_isToken (safeLinesplit_iff.1 rfl) w hw
  obtain ⟨x, u, rfl⟩ := List.exists_cons_of_ne_nil h1
  have := h2 [] x u rfl
  exact this (Or.inl (hall x (h3.subset (by simp))))

end Oelint

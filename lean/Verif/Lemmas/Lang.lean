import Verif.Lemmas.Regex
import Verif.Spec.Regex
/-! The backtracking matcher finds what the expressions describe (C103). -/
set_option linter.unusedSectionVars false
set_option linter.unusedSimpArgs false
namespace Oelint
variable [Uni]
open Spec

/-- the place of a state -/
def St.place (s : St) : Place := (s.pos, s.rest)

/-- what the expression describes is a stretch of the text -/
theorem reads_adv (r : Re) (a b : Place) (h : Spells r a b) : ∃ w, a.2 = w ++ b.2 ∧ b.1 = a.1 + w.length := by
  induction r generalizing a b with
  | eps => cases h; exact ⟨[], rfl, rfl⟩
  | lit w => exact ⟨w, h⟩
  | any => obtain ⟨x, -, h1, h2⟩ := h; exact ⟨[x], h1, h2⟩
  | cls neg items => obtain ⟨x, -, h1, h2⟩ := h; exact ⟨[x], h1, h2⟩
  | seq r q ihr ihq =>
    obtain ⟨c, h1, h2⟩ := h
    obtain ⟨w, e1, e2⟩ := ihr a c h1
    obtain ⟨v, e3, e4⟩ := ihq c b h2
    exact ⟨w ++ v, by rw [e1, e3, List.append_assoc], by rw [e4, e2, List.length_append]; omega⟩
  | alt r q ihr ihq => exact h.elim (ihr a b) (ihq a b)
  | star g r ih =>
    have h : Relation.ReflTransGen (Spells r) a b := h
    induction h with
    | refl => exact ⟨[], rfl, rfl⟩
    | tail h1 h2 ih2 =>
      obtain ⟨w, e1, e2⟩ := ih2 ‹_›
      obtain ⟨v, e3, e4⟩ := ih _ _ h2
      exact ⟨w ++ v, by rw [e1, e3, List.append_assoc], by rw [e4, e2, List.length_append]; omega⟩
  | grp n r ih => exact ih a b h
  | bos => cases h.1; exact ⟨[], rfl, rfl⟩
  | eos => cases h.1; exact ⟨[], rfl, rfl⟩
  | look neg r ih => cases h.1; exact ⟨[], rfl, rfl⟩
  | atomic r ih => exact ih a b h

/-- the matcher is right and complete: it reaches exactly the places that the expression describes -/
theorem ms_reads (r : Re) (hb : Backtracks r) (s : St) (b : Place) : (∃ t ∈ ms r s, t.place = b) ↔ Spells r s.place b := by
  induction r generalizing s b with
  | eps => simp [ms, Spells]
  | lit w =>
    simp only [ms, Spells, St.place]
    constructor
    · rintro ⟨t, ht, rfl⟩
      split at ht
      · rename_i hp
        simp only [List.mem_singleton] at ht
        subst ht
        obtain ⟨v, hv⟩ := List.isPrefixOf_iff_prefix.1 hp
        simp [← hv]
      · simp at ht
    · rintro ⟨h1, h2⟩
      refine ⟨⟨s.pos + w.length, b.2, s.caps⟩, ?_, by rw [← h2]⟩
      rw [if_pos (List.isPrefixOf_iff_prefix.2 ⟨b.2, h1.symm⟩), h1]
      simp
  | any =>
    simp only [ms, Spells, St.place]
    constructor
    · rintro ⟨t, ht, rfl⟩
      split at ht
      · simp at ht
      · rename_i x u hs
        split at ht
        · simp at ht
        · rename_i hx
          simp only [List.mem_singleton] at ht
          subst ht
          exact ⟨x, by simpa using hx, hs, rfl⟩
    · rintro ⟨x, h0, h1, h2⟩
      refine ⟨⟨s.pos + 1, b.2, s.caps⟩, ?_, by rw [← h2]⟩
      rw [show s.rest = x :: b.2 from h1]
      simp [h0]
  | cls neg items =>
    simp only [ms, Spells, St.place]
    have key : ∀ x : Char, ((items.any fun i => i.test x) != neg) = true ↔ ((∃ i ∈ items, i.test x = true) ↔ neg = false) := by
      intro x
      rw [← List.any_eq_true]
      cases items.any (fun i => i.test x) <;> cases neg <;> simp
    constructor
    · rintro ⟨t, ht, rfl⟩
      split at ht
      · simp at ht
      · rename_i x u hs
        split at ht
        · rename_i hx
          simp only [List.mem_singleton] at ht
          subst ht
          exact ⟨x, (key x).1 hx, hs, rfl⟩
        · simp at ht
    · rintro ⟨x, h0, h1, h2⟩
      refine ⟨⟨s.pos + 1, b.2, s.caps⟩, ?_, by rw [← h2]⟩
      rw [show s.rest = x :: b.2 from h1]
      simp only
      rw [if_pos ((key x).2 h0)]
      simp
  | seq r q ihr ihq =>
    simp only [ms, Spells, List.mem_flatMap]
    constructor
    · rintro ⟨t, ⟨u, hu, ht⟩, rfl⟩
      exact ⟨u.place, (ihr hb.1 s _).1 ⟨u, hu, rfl⟩, (ihq hb.2 u _).1 ⟨t, ht, rfl⟩⟩
    · rintro ⟨c, h1, h2⟩
      obtain ⟨u, hu, rfl⟩ := (ihr hb.1 s c).2 h1
      obtain ⟨t, ht, rfl⟩ := (ihq hb.2 u b).2 h2
      exact ⟨t, ⟨u, hu, ht⟩, rfl⟩
  | alt r q ihr ihq =>
    simp only [ms, Spells, List.mem_append]
    rw [← ihr hb.1 s b, ← ihq hb.2 s b]
    constructor
    · rintro ⟨t, h | h, rfl⟩
      · exact .inl ⟨t, h, rfl⟩
      · exact .inr ⟨t, h, rfl⟩
    · rintro (⟨t, h, rfl⟩ | ⟨t, h, rfl⟩)
      · exact ⟨t, .inl h, rfl⟩
      · exact ⟨t, .inr h, rfl⟩
  | star g r ih =>
    have step : ∀ s t : St, t ∈ ms (.star g r) s ↔ t = s ∨ ∃ u ∈ ms r s, s.pos < u.pos ∧ t ∈ ms (.star g r) u := by
      intro s t
      rw [ms_star]
      cases g
      · simp [List.mem_flatMap, List.mem_filter, and_assoc]
      · simp [List.mem_flatMap, List.mem_filter, and_assoc, or_comm]
    have sound : ∀ n, ∀ s t : St, s.rest.length = n → t ∈ ms (.star g r) s → Relation.ReflTransGen (Spells r) s.place t.place := by
      intro n
      induction n using Nat.strong_induction_on with
      | _ n ihn =>
        intro s t hn ht
        rcases (step s t).1 ht with rfl | ⟨u, hu, hp, ht⟩
        · exact .refl
        · have := (ms_adv r s u hu).length
          exact .head ((ih hb s _).1 ⟨u, hu, rfl⟩) (ihn _ (by omega) u t rfl ht)
    constructor
    · rintro ⟨t, ht, rfl⟩
      exact sound _ s t rfl ht
    · intro h'
      have h : Relation.ReflTransGen (Spells r) s.place b := h'
      clear h'
      generalize ha : s.place = a at h
      induction h using Relation.ReflTransGen.head_induction_on generalizing s with
      | refl => exact ⟨s, (step s s).2 (.inl rfl), ha⟩
      | @head a c h1 h2 ih2 =>
        subst ha
        obtain ⟨u, hu, rfl⟩ := (ih hb s c).2 h1
        by_cases hp : s.pos < u.pos
        · obtain ⟨t, ht, e⟩ := ih2 u rfl
          exact ⟨t, (step s t).2 (.inr ⟨u, hu, hp, ht⟩), e⟩
        · have hadv := ms_adv r s u hu
          have e1 : u.pos = s.pos := by have := hadv.pos_le; omega
          have e2 : u.rest = s.rest := by rw [hadv.rest_eq, e1]; simp
          exact ih2 s (by unfold St.place; rw [e1, e2])
  | grp n r ih =>
    simp only [ms, Spells, List.mem_map]
    rw [← ih hb s b]
    constructor
    · rintro ⟨_, ⟨t, ht, rfl⟩, rfl⟩
      exact ⟨t, ht, rfl⟩
    · rintro ⟨t, ht, rfl⟩
      exact ⟨_, ⟨t, ht, rfl⟩, rfl⟩
  | bos =>
    simp only [ms, Spells, St.place]
    constructor
    · rintro ⟨t, ht, rfl⟩
      split at ht
      · rename_i h0
        simp only [List.mem_singleton] at ht
        subst ht
        exact ⟨rfl, by simpa using h0⟩
      · simp at ht
    · rintro ⟨rfl, h0⟩
      exact ⟨s, by simp [show s.pos = 0 from h0], rfl⟩
  | eos =>
    simp only [ms, Spells, St.place]
    constructor
    · rintro ⟨t, ht, rfl⟩
      split at ht
      · rename_i h0
        simp only [List.mem_singleton] at ht
        subst ht
        exact ⟨rfl, by simpa using h0⟩
      · simp at ht
    · rintro ⟨rfl, h0⟩
      exact ⟨s, by rw [if_pos (by simpa using h0)]; simp, rfl⟩
  | look neg r ih =>
    have some_ : (∃ c, Spells r s.place c) ↔ ms r s ≠ [] := by
      constructor
      · rintro ⟨c, hc⟩ e
        obtain ⟨t, ht, -⟩ := (ih hb s c).2 hc
        rw [e] at ht; simp at ht
      · intro hne
        obtain ⟨t, ht⟩ := List.exists_mem_of_ne_nil _ hne
        exact ⟨t.place, (ih hb s _).1 ⟨t, ht, rfl⟩⟩
    simp only [ms, Spells]
    rw [some_]
    cases neg
    · simp only [Bool.false_eq_true, if_false, iff_true]
      cases hm : ms r s with
      | nil => simp
      | cons x l =>
        simp only [List.mem_singleton, exists_eq_left, ne_eq, reduceCtorEq, not_false_eq_true, and_true]
        rfl
    · simp only [if_true, Bool.true_eq_false, iff_false, ne_eq, not_not]
      cases hm : ms r s with
      | nil => simp
      | cons x l => simp
  | atomic r ih => exact hb.elim

theorem matchAt_describes {r : Re} (hb : Backtracks r) (pos : Nat) (rest : Str) : (matchAt r pos rest).isSome ↔ ∃ b, Spells r (pos, rest) b := by
  unfold matchAt
  have key := ms_reads r hb ⟨pos, rest, []⟩
  cases hm : ms r ⟨pos, rest, []⟩ with
  | nil =>
    simp only [Option.isSome_none, Bool.false_eq_true, false_iff, not_exists]
    intro b hr
    obtain ⟨t, ht, -⟩ := (key b).2 hr
    rw [hm] at ht; simp at ht
  | cons t l =>
    simp only [Option.isSome_some, true_iff]
    exact ⟨t.place, (key _).1 ⟨t, by rw [hm]; simp, rfl⟩⟩

theorem matchAt_reads {r : Re} (hb : Backtracks r) {pos : Nat} {rest : Str} {m : Mt} (h : matchAt r pos rest = some m) :
    m.start = pos ∧ ∃ rest', Spells r (pos, rest) (m.stop, rest') ∧ rest = m.text ++ rest' ∧ m.stop = pos + m.text.length := by
  unfold matchAt at h
  cases hm : ms r ⟨pos, rest, []⟩ with
  | nil => rw [hm] at h; cases h
  | cons t l =>
    rw [hm] at h
    cases h
    have ht : t ∈ ms r ⟨pos, rest, []⟩ := by rw [hm]; simp
    have hr := (ms_reads r hb _ _).1 ⟨t, ht, rfl⟩
    obtain ⟨k, hk, hp, hre⟩ := ms_adv r _ t ht
    simp only at hk hp hre
    refine ⟨rfl, t.rest, hr, ?_, ?_⟩
    · simp only [mkMt, hp, hre, Nat.add_sub_cancel_left]
      exact (List.take_append_drop _ _).symm
    · simp only [mkMt, hp, Nat.add_sub_cancel_left, List.length_take]
      omega

end Oelint

import Verif.Model.Chunks
import Verif.Spec.Chunks
import Verif.Lemmas.Regex
/-! Lemmas about lines and their grouping. -/
set_option linter.unusedSectionVars false
set_option linter.unusedSimpArgs false
namespace Oelint
variable [Uni]
open Spec

/-! ## lines -/

theorem readlines_cons_nl (t : Str) : readlines ('\n' :: t) = ['\n'] :: readlines t := by simp [readlines]

theorem readlines_cons_ne {c : Char} (t : Str) (h : c ≠ '\n') :
    readlines (c :: t) = (c :: (readlines t).headD []) :: (readlines t).tail := by
  rw [readlines, if_neg (by simpa using h)]
  split
  · rename_i h2; rw [h2]; rfl
  · rename_i l ls h2; rw [h2]; rfl

theorem readlines_eq_nil {s : Str} : readlines s = [] ↔ s = [] := by
  cases s with
  | nil => simp [readlines]
  | cons c t =>
    by_cases h : c = '\n'
    · subst h; simp [readlines_cons_nl]
    · simp [readlines_cons_ne t h]

theorem readlines_isLines (s : Str) : IsLines s (readlines s) := by
  induction s with
  | nil => simp [readlines, IsLines]
  | cons c t ih =>
    obtain ⟨h1, h2, h3, h4⟩ := ih
    by_cases h : c = '\n'
    · subst h
      rw [readlines_cons_nl]
      refine ⟨by simp [h1], ?_, ?_, ?_⟩
      · simpa using h2
      · simpa using h3
      · intro l hl
        cases ht : readlines t with
        | nil => simp [ht] at hl
        | cons a r =>
          rw [ht] at hl h4
          rw [List.dropLast_cons_cons] at hl
          rcases List.mem_cons.1 hl with rfl | hl
          · simp
          · exact h4 l hl
    · rw [readlines_cons_ne t h]
      cases ht : readlines t with
      | nil =>
        have : t = [] := readlines_eq_nil.1 ht
        subst this
        simp [IsLines]
      | cons a r =>
        rw [ht] at h1 h2 h3 h4
        refine ⟨by simpa using h1, ?_, ?_, ?_⟩
        · simp; exact fun l hl => h2 l (by simp [hl])
        · simp only [List.headD_cons, List.tail_cons, List.mem_cons, forall_eq_or_imp]
          refine ⟨?_, fun l hl => h3 l (by simp [hl])⟩
          have ha := h3 a (by simp)
          have ha2 := h2 a (by simp)
          cases a with
          | nil => exact absurd rfl ha2
          | cons x y =>
            rw [List.dropLast_cons_cons, List.mem_cons, not_or]
            exact ⟨fun hh => h hh.symm, ha⟩
        · simp only [List.headD_cons, List.tail_cons]
          intro l hl
          cases r with
          | nil => simp at hl
          | cons b r =>
            rw [List.dropLast_cons_cons] at hl h4
            rcases List.mem_cons.1 hl with rfl | hl
            · have := h4 a (by simp)
              cases a with
              | nil => simp at this
              | cons x y => simpa using this
            · exact h4 l (by simp [hl])

/-- a line of a file: not empty, no newline but at the end -/
def IsLine (l : Str) : Prop := l ≠ [] ∧ '\n' ∉ l.dropLast

theorem readlines_isLine {s l : Str} (h : l ∈ readlines s) : IsLine l :=
  ⟨(readlines_isLines s).2.1 l h, (readlines_isLines s).2.2.1 l h⟩

/-! ## search -/

theorem searchFrom_isSome {r : Re} {pos : Nat} {s : Str} :
    (searchFrom r pos s).isSome ↔ ∃ n ≤ s.length, ∃ t, t ∈ ms r ⟨pos + n, s.drop n, []⟩ := by
  have hm : ∀ p q, (matchAt r p q).isSome ↔ ∃ t, t ∈ ms r ⟨p, q, []⟩ := by
    intro p q; rw [matchAt_eq_run, run_isSome]; simp
  induction s generalizing pos with
  | nil =>
    rw [searchFrom, hm]
    constructor
    · rintro ⟨t, ht⟩; exact ⟨0, by simp, t, by simpa using ht⟩
    · rintro ⟨n, hn, t, ht⟩
      have : n = 0 := by simpa using hn
      subst this; exact ⟨t, by simpa using ht⟩
  | cons c u ih =>
    rw [searchFrom]
    have h0 := hm pos (c :: u)
    split
    · rename_i m hmm
      simp only [Option.isSome_some, true_iff]
      rw [hmm] at h0
      obtain ⟨t, ht⟩ := h0.1 rfl
      exact ⟨0, by simp, t, by simpa using ht⟩
    · rename_i hmm
      rw [hmm] at h0
      have ih' := ih (pos := pos + 1)
      constructor
      · intro hh
        obtain ⟨n, hn, t, ht⟩ := ih'.1 hh
        exact ⟨n + 1, by simpa using hn, t, by simpa [Nat.add_assoc, Nat.add_comm 1 n] using ht⟩
      · rintro ⟨n, hn, t, ht⟩
        cases n with
        | zero => exact absurd (h0.2 ⟨t, by simpa using ht⟩) (by simp)
        | succ n => exact ih'.2 ⟨n, by simpa using hn, t, by simpa [Nat.add_assoc, Nat.add_comm 1 n] using ht⟩

theorem reSearch_isSome {r : Re} {s : Str} :
    (reSearch r s).isSome ↔ ∃ n ≤ s.length, ∃ t, t ∈ ms r ⟨n, s.drop n, []⟩ := by
  unfold reSearch; rw [searchFrom_isSome]; simp

/-! ## membership form for simple expressions -/

theorem mem_ms_seq {a b : Re} {s t : St} : t ∈ ms (.seq a b) s ↔ ∃ u ∈ ms a s, t ∈ ms b u := by
  simp [ms, List.mem_flatMap]

theorem mem_ms_alt {a b : Re} {s t : St} : t ∈ ms (.alt a b) s ↔ t ∈ ms a s ∨ t ∈ ms b s := by
  simp [ms]

theorem mem_ms_lit {p : Str} {s t : St} :
    t ∈ ms (.lit p) s ↔ p <+: s.rest ∧ t = ⟨s.pos + p.length, s.rest.drop p.length, s.caps⟩ := by
  simp only [ms, ← List.isPrefixOf_iff_prefix]
  split <;> simp_all

theorem mem_ms_eps {s t : St} : t ∈ ms .eps s ↔ t = s := by simp [ms]

theorem mem_ms_bos {s t : St} : t ∈ ms .bos s ↔ s.pos = 0 ∧ t = s := by
  simp only [ms]; split <;> simp_all

theorem mem_ms_star_of {g : Bool} {r : Re} {s t : St} :
    t ∈ ms (.star g r) s ↔ t = s ∨ ∃ u ∈ ms r s, s.pos < u.pos ∧ t ∈ ms (.star g r) u := by
  rw [ms_star]
  cases g <;> simp [and_assoc, or_comm]

theorem mem_ms_cls {neg : Bool} {is : List CItem} {s t : St} :
    t ∈ ms (.cls neg is) s ↔ ∃ x u, s.rest = x :: u ∧ (is.any (·.test x)) ≠ neg ∧ t = ⟨s.pos + 1, u, s.caps⟩ := by
  simp only [ms]
  split
  · rename_i h; simp [h]
  · rename_i x u h
    rw [h]
    constructor
    · intro ht
      split at ht
      · rename_i hc; exact ⟨x, u, rfl, by simpa using hc, by simpa using ht⟩
      · simp at ht
    · rintro ⟨x', u', he, hc, rfl⟩
      cases he
      rw [if_pos (by simpa using hc)]; simp

theorem mem_ms_any {s t : St} : t ∈ ms .any s ↔ ∃ x u, s.rest = x :: u ∧ x ≠ '\n' ∧ t = ⟨s.pos + 1, u, s.caps⟩ := by
  simp only [ms]
  split
  · rename_i h; simp [h]
  · rename_i x u h
    rw [h]
    constructor
    · intro ht
      split at ht
      · simp at ht
      · rename_i hc; exact ⟨x, u, rfl, by simpa using hc, by simpa using ht⟩
    · rintro ⟨x', u', he, hc, rfl⟩
      cases he
      rw [if_neg (by simpa using hc)]; simp

/-- a loop over a class: a run of characters of the class -/
theorem mem_ms_star_cls {g neg : Bool} {is : List CItem} {s t : St} :
    t ∈ ms (.star g (.cls neg is)) s ↔
      ∃ w, s.rest = w ++ t.rest ∧ (∀ c ∈ w, (is.any (·.test c)) ≠ neg) ∧ t.pos = s.pos + w.length ∧ t.caps = s.caps := by
  obtain ⟨pos, rest, caps⟩ := s
  induction rest generalizing pos with
  | nil =>
    rw [mem_ms_star_of]
    constructor
    · rintro (rfl | ⟨u, hu, _⟩)
      · exact ⟨[], by simp⟩
      · rw [mem_ms_cls] at hu; obtain ⟨x, v, hv, _⟩ := hu; simp at hv
    · rintro ⟨w, hw, _, hp, hc⟩
      left
      simp at hw
      obtain ⟨pos', rest', caps'⟩ := t
      simp_all
  | cons x u ih =>
    rw [mem_ms_star_of]
    constructor
    · rintro (rfl | ⟨v, hv, _, ht⟩)
      · exact ⟨[], by simp⟩
      · rw [mem_ms_cls] at hv
        obtain ⟨x', u', he, hx, rfl⟩ := hv
        cases he
        obtain ⟨w, hw, hall, hp, hc⟩ := (ih _).1 ht
        refine ⟨x :: w, by simpa using hw, ?_, by simp at hp ⊢; omega, hc⟩
        simpa using ⟨hx, hall⟩
    · rintro ⟨w, hw, hall, hp, hc⟩
      cases w with
      | nil =>
        left
        obtain ⟨pos', rest', caps'⟩ := t
        simp_all
      | cons y w =>
        right
        simp at hw
        obtain ⟨rfl, hw⟩ := hw
        refine ⟨⟨pos + 1, u, caps⟩, ?_, by simp, (ih _).2 ⟨w, hw, fun c hc => hall c (by simp [hc]), by simp at hp ⊢; omega, hc⟩⟩
        rw [mem_ms_cls]
        exact ⟨x, u, rfl, hall x (by simp), rfl⟩

/-- `.*`: a run of characters without newline -/
theorem mem_ms_star_any {g : Bool} {s t : St} :
    t ∈ ms (.star g .any) s ↔
      ∃ w, s.rest = w ++ t.rest ∧ '\n' ∉ w ∧ t.pos = s.pos + w.length ∧ t.caps = s.caps := by
  obtain ⟨pos, rest, caps⟩ := s
  induction rest generalizing pos with
  | nil =>
    rw [mem_ms_star_of]
    constructor
    · rintro (rfl | ⟨u, hu, _⟩)
      · exact ⟨[], by simp⟩
      · rw [mem_ms_any] at hu; obtain ⟨x, v, hv, _⟩ := hu; simp at hv
    · rintro ⟨w, hw, _, hp, hc⟩
      left
      simp at hw
      obtain ⟨pos', rest', caps'⟩ := t
      simp_all
  | cons x u ih =>
    rw [mem_ms_star_of]
    constructor
    · rintro (rfl | ⟨v, hv, _, ht⟩)
      · exact ⟨[], by simp⟩
      · rw [mem_ms_any] at hv
        obtain ⟨x', u', he, hx, rfl⟩ := hv
        cases he
        obtain ⟨w, hw, hall, hp, hc⟩ := (ih _).1 ht
        refine ⟨x :: w, by simpa using hw, ?_, by simp at hp ⊢; omega, hc⟩
        simp only [List.mem_cons, not_or]
        exact ⟨Ne.symm hx, hall⟩
    · rintro ⟨w, hw, hall, hp, hc⟩
      cases w with
      | nil =>
        left
        obtain ⟨pos', rest', caps'⟩ := t
        simp_all
      | cons y w =>
        right
        simp at hw
        obtain ⟨rfl, hw⟩ := hw
        simp only [List.mem_cons, not_or] at hall
        refine ⟨⟨pos + 1, u, caps⟩, ?_, by simp, (ih _).2 ⟨w, hw, hall.2, by simp at hp ⊢; omega, hc⟩⟩
        rw [mem_ms_any]
        exact ⟨x, u, rfl, Ne.symm hall.1, rfl⟩

theorem space_test (c : Char) : ([CItem.space].any (·.test c)) ≠ false ↔ reSpace c = true := by
  simp [CItem.test]

/-! ## the predicates on lines -/

theorem isCont_iff {l : Str} (hl : IsLine l) : isCont l = true ↔ Continued l := by
  unfold isCont Continued
  rw [reSearch_isSome]
  simp only [reNextLine, mem_ms_seq, mem_ms_lit, mem_ms_star_cls, space_test]
  constructor
  · rintro ⟨n, hn, t, u, ⟨hp, rfl⟩, v, ⟨w, hw, hall, _, _⟩, hq, _⟩
    simp only at hw hp hq
    obtain ⟨q, hq'⟩ := hp
    obtain ⟨q2, hq2⟩ := hq
    simp only [List.length_singleton] at hw
    have e1 : l = l.take n ++ '\\' :: (w ++ '\n' :: q2) := by
      conv => lhs; rw [← List.take_append_drop n l]
      rw [← hq'] at hw ⊢
      simp at hw
      rw [hw, ← hq2]; simp
    have : q2 = [] := by
      by_contra hne
      apply hl.2
      rw [e1]
      rw [show l.take n ++ '\\' :: (w ++ '\n' :: q2) = (l.take n ++ '\\' :: w ++ ['\n']) ++ q2 by simp]
      rw [List.dropLast_append_of_ne_nil hne]
      simp
    subst this
    exact ⟨l.take n, w, by simpa using e1, hall⟩
  · rintro ⟨a, w, rfl, hall⟩
    refine ⟨a.length, by simp, ⟨a.length + 1 + w.length + 1, [], []⟩, ⟨a.length + 1, w ++ ['\n'], []⟩, ?_,
      ⟨a.length + 1 + w.length, ['\n'], []⟩, ?_, ?_⟩
    · simp
    · exact ⟨w, by simp, hall, by simp, rfl⟩
    · simp

theorem isCommentLine_iff {l : Str} : isCommentLine l = true ↔ CommentLine l := by
  unfold isCommentLine CommentLine
  rw [reSearch_isSome]
  simp only [reCommentsPure, mem_ms_seq, mem_ms_bos, mem_ms_lit]
  constructor
  · rintro ⟨n, hn, t, u, ⟨h0, rfl⟩, v, ⟨v', ⟨hp, _⟩, _⟩, _⟩
    simp only at h0 hp
    subst h0
    obtain ⟨q, hq⟩ := hp
    simp at hq
    exact ⟨q, hq.symm⟩
  · rintro ⟨t, rfl⟩
    refine ⟨0, by simp, ⟨1, t, [(1, [])]⟩, ⟨0, '#' :: t, []⟩, by simp, ⟨1, t, []⟩,
      ⟨⟨1, t, []⟩, by simp, ?_⟩, ⟨1, t, []⟩, ?_, ?_⟩
    · rw [mem_ms_star_of]; exact Or.inl rfl
    · rw [mem_ms_star_of]; exact Or.inl rfl
    · simp only [ms, List.mem_map]
      refine ⟨⟨1, t, []⟩, ?_, by simp⟩
      have := (mem_ms_star_of (g := true) (r := .any) (s := ⟨1, t, []⟩) (t := ⟨1, t, []⟩)).2 (Or.inl rfl)
      simpa [ms] using this

theorem char_le_iff (a b : Char) : a ≤ b ↔ a.toNat ≤ b.toNat := by
  rw [Char.le_def, UInt32.le_iff_toNat_le]; rfl

theorem isValidName_iff {l : Str} : isValidName l = true ↔ NameStart l := by
  unfold isValidName NameStart
  rw [reMatch_isSome_iff]
  simp only [reValidFuncName, mem_ms_seq, mem_ms_bos, mem_ms_cls]
  have key : ∀ x : Char, ([CItem.range 'A' 'Z', CItem.range 'a' 'z', CItem.range '0' '9', CItem.one '#'].any
      (fun i => i.test x)) ≠ false ↔ (('A' ≤ x ∧ x ≤ 'Z') ∨ ('a' ≤ x ∧ x ≤ 'z') ∨ ('0' ≤ x ∧ x ≤ '9') ∨ x = '#') := by
    intro x
    simp only [CItem.test, char_le_iff, List.any_cons, List.any_nil, Bool.or_false, ne_eq, Bool.not_eq_false,
      Bool.or_eq_true, Bool.and_eq_true, decide_eq_true_eq, beq_iff_eq]
  constructor
  · rintro ⟨t, u, ⟨_, rfl⟩, v, ⟨x, w, hx, hc, _⟩, _⟩
    exact ⟨x, w, hx, (key x).1 hc⟩
  · rintro ⟨x, t, rfl, hx⟩
    refine ⟨⟨1, t, []⟩, ⟨0, x :: t, []⟩, by simp, ⟨1, t, []⟩, ⟨x, t, rfl, (key x).2 hx, rfl⟩, ?_⟩
    rw [mem_ms_star_of]; exact Or.inl rfl

theorem isFuncStart_iff {l : Str} (hl : IsLine l) : isFuncStart l = true ↔ FuncHeader l := by
  unfold isFuncStart FuncHeader
  rw [reMatch_isSome_iff]
  unfold reFuncStart
  simp only
  rw [exists_congr (fun t => mem_ms_seq)]
  constructor
  · rintro ⟨t, u, hu, ht⟩
    rw [mem_ms_seq] at ht
    obtain ⟨v, hv, ht⟩ := ht
    rw [mem_ms_seq] at ht
    obtain ⟨w, hw, ht⟩ := ht
    rw [mem_ms_seq] at ht
    obtain ⟨x, hx, ht⟩ := ht
    simp only [mem_ms_seq, mem_ms_lit, mem_ms_star_cls, space_test] at ht
    have hadv : Adv ⟨0, l, []⟩ x := (((ms_adv _ _ _ hu).trans (ms_adv _ _ _ hv)).trans (ms_adv _ _ _ hw)).trans (ms_adv _ _ _ hx)
    obtain ⟨y1, ⟨hp1, rfl⟩, y2, ⟨w1, hw1, hall1, _⟩, y3, ⟨hp3, rfl⟩, y4, ⟨w2, hw2, hall2, _⟩, hp5, _⟩ := ht
    simp only at hw1 hw2
    obtain ⟨q1, hq1⟩ := hp1
    obtain ⟨q3, hq3⟩ := hp3
    obtain ⟨q5, hq5⟩ := hp5
    rw [← hq1] at hw1
    rw [← hq3] at hw2
    simp at hw1 hw2
    obtain ⟨pre, hpre⟩ := hadv.suffix
    simp only at hpre
    refine ⟨pre, w1, w2, q5, ?_, hall1, hall2⟩
    rw [← hpre, ← hq1, hw1, ← hq3, hw2, ← hq5]
    simp
  · rintro ⟨a, w1, w2, b, rfl, h1, h2⟩
    have ha : '\n' ∉ a := by
      intro hm
      apply hl.2
      rw [List.append_assoc, List.append_assoc, List.dropLast_append_of_ne_nil (by simp)]
      simp [hm]
    set c := '(' :: w1 ++ ')' :: w2 ++ '{' :: b with hc
    have hcc : a ++ '(' :: w1 ++ ')' :: w2 ++ '{' :: b = a ++ c := by simp [hc]
    rw [hcc]
    refine ⟨⟨a.length + 1 + w1.length + 1 + w2.length + 1, b, []⟩, ⟨a.length, c, []⟩, ?_, ?_⟩
    · rw [mem_ms_star_any]; exact ⟨a, by simp, ha, by simp, rfl⟩
    · rw [mem_ms_seq]
      refine ⟨⟨a.length, c, []⟩, ?_, ?_⟩
      · rw [mem_ms_star_of]; exact Or.inl rfl
      rw [mem_ms_seq]
      refine ⟨⟨a.length, c, []⟩, ?_, ?_⟩
      · rw [mem_ms_alt, mem_ms_eps]; exact Or.inr rfl
      rw [mem_ms_seq]
      refine ⟨⟨a.length, c, []⟩, ?_, ?_⟩
      · rw [mem_ms_star_of]; exact Or.inl rfl
      simp only [mem_ms_seq, mem_ms_lit, mem_ms_star_cls, space_test]
      refine ⟨⟨a.length + 1, w1 ++ ')' :: w2 ++ '{' :: b, []⟩, by simp [hc],
        ⟨a.length + 1 + w1.length, ')' :: w2 ++ '{' :: b, []⟩, ⟨w1, by simp, h1, by simp, rfl⟩,
        ⟨a.length + 1 + w1.length + 1, w2 ++ '{' :: b, []⟩, by simp,
        ⟨a.length + 1 + w1.length + 1 + w2.length, '{' :: b, []⟩, ⟨w2, by simp, h2, by simp, rfl⟩, by simp⟩

theorem dropWhile_eq_self_or {p : Char → Bool} (s : Str) :
    ∃ w, s = w ++ s.dropWhile p ∧ (∀ c ∈ w, p c = true) := by
  refine ⟨s.takeWhile p, (List.takeWhile_append_dropWhile).symm, ?_⟩
  intro c hc
  exact List.mem_takeWhile_imp hc

theorem rstripP_spec {p : Char → Bool} (s : Str) :
    ∃ w, s = rstripP p s ++ w ∧ (∀ c ∈ w, p c = true) := by
  obtain ⟨w, hw, hall⟩ := dropWhile_eq_self_or (p := p) s.reverse
  refine ⟨w.reverse, ?_, by simpa using hall⟩
  unfold rstripP
  rw [← List.reverse_append, ← hw, List.reverse_reverse]

theorem rstripP_last {p : Char → Bool} (s : Str) (c : Char) (h : (rstripP p s).getLast? = some c) : p c = false := by
  unfold rstripP at h
  rw [List.getLast?_reverse] at h
  have := List.head?_dropWhile_not p s.reverse
  rw [h] at this
  simpa using this

theorem isDefStart_iff {l : Str} : isDefStart l = true ↔ DefLine l := by
  unfold isDefStart DefLine startsWith stripP
  rw [List.isPrefixOf_iff_prefix]
  constructor
  · rintro ⟨t, ht⟩
    obtain ⟨w, hw, hall⟩ := dropWhile_eq_self_or (p := pySpace) l
    obtain ⟨w2, hw2, hall2⟩ := rstripP_spec (p := pySpace) (lstripP pySpace l)
    -- the last character of the stripped text is not a blank
    have hne : t ≠ [] := by
      rintro rfl
      have := rstripP_last (p := pySpace) (lstripP pySpace l) ' ' (by rw [← ht]; rfl)
      revert this; decide
    obtain ⟨t', x, rfl⟩ : ∃ t' x, t = t' ++ [x] := ⟨t.dropLast, t.getLast hne, (List.dropLast_append_getLast hne).symm⟩
    have hx : pySpace x = false := rstripP_last (p := pySpace) (lstripP pySpace l) x (by rw [← ht, ← List.append_assoc, List.getLast?_concat])
    refine ⟨w, t', x, w2, ?_, hall, hx⟩
    rw [hw]
    unfold lstripP at hw2 ht
    rw [hw2, ← ht]; simp
  · rintro ⟨w, a, x, b, rfl, hall, hx⟩
    have h1 : lstripP pySpace (w ++ ['d', 'e', 'f', ' '] ++ a ++ x :: b) = ['d', 'e', 'f', ' '] ++ a ++ x :: b := by
      rw [List.append_assoc, List.append_assoc, lstripP_append_all _ _ hall]
      unfold lstripP
      rw [List.cons_append, List.dropWhile_cons_of_neg (by decide)]
      simp
    rw [h1]
    -- rstrip keeps everything up to `x`
    have h2 : ['d', 'e', 'f', ' '] ++ a ++ [x] <+: rstripP pySpace (['d', 'e', 'f', ' '] ++ a ++ x :: b) := by
      obtain ⟨w2, hw2, hall2⟩ := rstripP_spec (p := pySpace) (['d', 'e', 'f', ' '] ++ a ++ x :: b)
      by_contra hcon
      have hpre : ['d', 'e', 'f', ' '] ++ a ++ [x] <+: rstripP pySpace (['d', 'e', 'f', ' '] ++ a ++ x :: b) ++ w2 := by
        rw [← hw2]; exact ⟨b, by simp⟩
      obtain ⟨b', hb'⟩ := hpre
      rcases List.append_eq_append_iff.1 hb' with ⟨t, ht, _⟩ | ⟨t, ht, hpw⟩
      · exact hcon ⟨t, ht.symm⟩
      · by_cases hne : t = []
        · subst hne; rw [List.append_nil] at ht; exact hcon (by rw [ht])
        have : x ∈ t := by
          have h3 : (['d', 'e', 'f', ' '] ++ a ++ [x]).getLast? = some x := by rw [List.getLast?_concat]
          rw [ht, List.getLast?_append_of_ne_nil _ hne] at h3
          exact List.mem_of_getLast? h3
        have := hall2 x (by rw [hpw]; simp [this])
        rw [hx] at this; cases this
    exact List.IsPrefix.trans ⟨a ++ [x], by simp⟩ h2

end Oelint

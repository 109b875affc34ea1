import Verif.Spec.Breaks
import Verif.Lemmas.Words
import Verif.Lemmas.Forms4
/-! The items of a value over several lines (for C112). -/
set_option linter.unusedSectionVars false
set_option linter.unusedSimpArgs false
namespace Oelint
variable [Uni]
open Spec

theorem joined_append (a b : Str) : joined (a ++ b) = joined a ++ joined b := by
  unfold joined; rw [List.filter_append, List.map_append]

theorem joined_plain {a : Str} (h1 : '\n' ∉ a) (h2 : '\\' ∉ a) : joined a = a := by
  unfold joined
  rw [List.filter_eq_self.2 (by intro c hc; simp only [bne_iff_ne, ne_eq]; rintro rfl; exact h1 hc)]
  have : a.map (fun c => if c = '\\' then '\x1b' else c) = a.map id :=
    List.map_congr_left (fun c hc => by rw [if_neg (by rintro rfl; exact h2 hc)]; rfl)
  rw [this, List.map_id]

/-- the lines with a mark at each break -/
def marked : List Str → Str
  | [] => []
  | [l] => l
  | l :: l' :: ls => l ++ contMark :: marked (l' :: ls)

theorem joined_broken {ls : List Str} (h : ∀ l ∈ ls, PlainPart l) : joined (broken ls) = marked ls := by
  match ls with
  | [] => rfl
  | [l] => exact joined_plain (h l (by simp)).1 (h l (by simp)).2.1
  | l :: l' :: ls =>
    have hp := h l (by simp)
    rw [broken, marked, joined_append, joined_plain hp.1 hp.2.1, show '\\' :: '\n' :: broken (l' :: ls) = c!"\\\n" ++ broken (l' :: ls) from rfl,
      joined_append, joined_broken (fun x hx => h x (by simp at hx ⊢; exact Or.inr hx))]
    rfl

theorem marked_ends (ls : List Str) : (∀ c, (marked ls).head? = some c → c = contMark ∨ ∃ l ∈ ls.head?, l.head? = some c) ∧
    ∀ c, (marked ls).getLast? = some c → c = contMark ∨ ∃ l ∈ ls.getLast?, l.getLast? = some c := by
  match ls with
  | [] => simp [marked]
  | [l] => exact ⟨fun c h => Or.inr ⟨l, rfl, h⟩, fun c h => Or.inr ⟨l, rfl, h⟩⟩
  | l :: l' :: ls =>
    have ih := (marked_ends (l' :: ls)).2
    constructor
    · intro c h
      rw [marked] at h
      cases l with
      | nil => simp at h; exact Or.inl h.symm
      | cons a l => simp at h; exact Or.inr ⟨_, rfl, by simp [h]⟩
    · intro c h
      rw [marked, List.getLast?_append, List.getLast?_cons] at h
      cases hm : (marked (l' :: ls)).getLast? with
      | none => rw [hm] at h; simp at h; exact Or.inl h.symm
      | some x =>
        rw [hm] at h
        simp at h
        subst h
        rcases ih _ hm with h | ⟨y, hy, h⟩
        · exact Or.inl h
        · exact Or.inr ⟨y, by simpa using hy, h⟩

theorem tokens_break {a b : Str} {ta tb : List Str} (ha : Tokens a ta) (hm : contMark ∉ a) (hx : b.head? ≠ some 'x') (hb : Tokens b tb) :
    Tokens (a ++ contMark :: b) (ta ++ tb) := by
  induction ha with
  | nil => exact .skip (Or.inr ⟨rfl, hx⟩) hb
  | @skip c t ts h _ ih =>
    refine .skip ?_ (ih (fun h => hm (by simp [h])))
    rcases h with h | ⟨h, -⟩
    · exact Or.inl h
    · exact absurd (by simp [h]) hm
  | @token w t ts hw h hs _ ih =>
    rw [List.append_assoc]
    refine .token hw ?_ ?_ (ih (fun h => hm (by simp [h])))
    · rintro x c y rfl (h1 | ⟨h1, -⟩)
      · exact h x c y rfl (Or.inl h1)
      · exact hm (by simp [h1])
    · intro c u e
      cases t with
      | nil => cases e; exact Or.inr ⟨rfl, hx⟩
      | cons d t =>
        simp at e
        obtain ⟨rfl, -⟩ := e
        rcases hs d t rfl with h1 | ⟨h1, -⟩
        · exact Or.inl h1
        · exact absurd (by simp [h1]) hm

theorem words_append {sep : Char → Prop} {a b : Str} {wa wb : List Str} (ha : Words sep a wa) (hb : Words sep b wb)
    (h : (∀ c ∈ a.getLast?, sep c) ∨ ∀ c ∈ b.head?, sep c) : Words sep (a ++ b) (wa ++ wb) := by
  induction ha with
  | nil => exact hb
  | @skip c s ws hc _ ih =>
    refine .skip hc (ih ?_)
    rcases h with h | h
    · refine Or.inl (fun x hx => h x ?_)
      rw [List.getLast?_cons]
      cases hl : s.getLast? <;> rw [hl] at hx <;> simp at hx ⊢
      exact hx
    · exact Or.inr h
  | @word w s ws hw hwc hs _ ih =>
    rw [List.append_assoc]
    refine .word hw hwc ?_ (ih ?_)
    · intro c hc
      cases s with
      | cons d s => exact hs c (by simpa using hc)
      | nil =>
        rcases h with h | h
        · rw [List.append_nil] at h
          obtain ⟨w', x, rfl⟩ := List.eq_nil_or_concat w |>.resolve_left hw
          exact absurd (h x (by simp)) (hwc x (by simp))
        · exact h c (by simpa using hc)
    · rcases h with h | h
      · refine Or.inl (fun x hx => h x ?_)
        rw [List.getLast?_append]
        rw [Option.mem_def] at hx
        rw [hx]; rfl
      · exact Or.inr h

theorem words_total (s : Str) : ∃ ws, Words (fun c => reSpace c = true) s ws := by
  induction s with
  | nil => exact ⟨_, .nil⟩
  | cons c t ih =>
    obtain ⟨ws, h⟩ := ih
    by_cases hc : reSpace c = true
    · exact ⟨ws, .skip hc h⟩
    · cases h with
      | nil => exact ⟨[[c]], .word (w := [c]) (s := []) (by simp) (by simpa using hc) (by simp) .nil⟩
      | @skip d s ws hd h => exact ⟨_, .word (w := [c]) (s := d :: s) (by simp) (by simpa using hc) (by simpa using hd) (.skip hd h)⟩
      | @word w s ws hw hwc hs h =>
        exact ⟨(c :: w) :: ws, .word (w := c :: w) (by simp) (by
          intro x hx
          rcases List.mem_cons.1 hx with rfl | hx
          · exact hc
          · exact hwc x hx) hs h⟩

theorem atBlanks_tail {l : Str} {ls : List Str} (h : AtBlanks (l :: ls)) : AtBlanks ls := by
  intro xs ys e
  rcases h (l :: xs) ys (by rw [e]; rfl) with h | h
  · refine Or.inl (fun c hc => h c ?_)
    rw [List.flatten_cons, List.getLast?_append]
    rw [Option.mem_def] at hc
    rw [hc]; rfl
  · exact Or.inr h

/-- the items of the lines are the words of the text without the breaks -/
theorem tokens_marked {ls : List Str} (hp : ∀ l ∈ ls, '\x1b' ∉ l) (hb : AtBlanks ls) (hx : ∀ l ∈ ls.tail, l.head? ≠ some 'x') :
    ∃ ws, Words (fun c => reSpace c = true) ls.flatten ws ∧ Tokens (marked ls) ws := by
  match ls with
  | [] => exact ⟨[], .nil, .nil⟩
  | [l] =>
    obtain ⟨ws, h⟩ := words_total l
    exact ⟨ws, by simpa using h, tokens_of_words h (hp l (by simp))⟩
  | l :: l' :: ls =>
    obtain ⟨wt, h1, h2⟩ := tokens_marked (ls := l' :: ls) (fun x hx => hp x (by simp at hx ⊢; exact Or.inr hx)) (atBlanks_tail hb)
      (fun x hx' => hx x (by simp at hx' ⊢; exact Or.inr hx'))
    obtain ⟨wl, h⟩ := words_total l
    refine ⟨wl ++ wt, words_append h h1 ?_, tokens_break (tokens_of_words h (hp l (by simp))) (hp l (by simp)) ?_ h2⟩
    · simpa using hb [l] (l' :: ls) rfl
    · intro e
      rcases (marked_ends (l' :: ls)).1 _ e with h | ⟨y, hy, h⟩
      · exact absurd h (by decide)
      · simp at hy; subst hy
        exact hx _ (by simp) h

end Oelint

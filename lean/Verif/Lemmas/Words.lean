import Verif.Lemmas.Inline
import Verif.Lemmas.Tokens
import Verif.Lemmas.Names
/-! Removing a word from a text. -/
set_option linter.unusedSectionVars false
namespace Oelint
variable [Uni]
open Spec

theorem replaceAll_cons {w new : Str} (hw : w ≠ []) {c : Char} {t : Str} (h : ¬ w <+: c :: t) :
    replaceAll w new (c :: t) = c :: replaceAll w new t := by
  unfold replaceAll
  rw [if_neg (by simpa using hw), if_neg (by simpa using hw), replaceGo]
  rw [if_neg (by rwa [List.isPrefixOf_iff_prefix])]

theorem replaceAll_hit {w new : Str} (hw : w ≠ []) (t : Str) : replaceAll w new (w ++ t) = new ++ replaceAll w new t :=
  (replaced_eq hw (Replaced.some (a := []) (by simp) (replaced_replaceAll hw t))).symm

theorem replaceAll_word {sep : Char → Prop} {w new : Str} (hw : w ≠ []) (hws : ∀ c ∈ w, ¬ sep c) {u s : Str} (hu : ¬ w <:+: u)
    (hs : ∀ c ∈ s.head?, sep c) : replaceAll w new (u ++ s) = u ++ replaceAll w new s := by
  induction u with
  | nil => rfl
  | cons c u ih =>
    have h1 : ¬ w <+: c :: (u ++ s) := by
      intro hp
      have : w <+: c :: u := by
        cases s with
        | nil => rwa [List.append_nil] at hp
        | cons d s =>
          obtain ⟨q, hq⟩ := hp
          rcases List.append_eq_append_iff.1 (show w ++ q = (c :: u) ++ d :: s from hq) with ⟨x, h3, h4⟩ | ⟨x, h3, h4⟩
          · exact ⟨x, h3.symm⟩
          · cases x with
            | nil => simp at h3; rw [h3]
            | cons e x =>
              simp at h4
              exact absurd (hs d (by simp)) (hws d (by rw [h3, h4.1]; simp))
      exact hu this.isInfix
    rw [List.cons_append, replaceAll_cons hw h1, ih (fun h => hu (h.trans (List.suffix_cons _ _).isInfix))]
    rfl

/-- removing a word from a text in which it occurs in no other word removes the word -/
theorem words_remove {sep : Char → Prop} {w t : Str} {ws : List Str} (h : Words sep t ws) (hw : w ≠ []) (hws : ∀ c ∈ w, ¬ sep c)
    (hno : ∀ u ∈ ws, u ≠ w → ¬ w <:+: u) : Words sep (replaceAll w [] t) (ws.filter (fun u => u ≠ w)) := by
  induction h with
  | nil =>
    rw [replaceAll_of_not_infix (by simpa using hw)]
    exact Words.nil
  | @skip c s ws hc _ ih =>
    have h1 : ¬ w <+: c :: s := by
      rintro ⟨q, hq⟩
      cases w with
      | nil => exact hw rfl
      | cons d w => simp at hq; exact hws d (by simp) (hq.1 ▸ hc)
    rw [replaceAll_cons hw h1]
    exact Words.skip hc (ih hno)
  | @word u s ws hu huc hs hr ih =>
    have ih' := ih (fun x hx => hno x (List.mem_cons_of_mem _ hx))
    by_cases he : u = w
    · subst he
      rw [replaceAll_hit hw]
      simpa using ih'
    · rw [replaceAll_word hw hws (hno u (by simp) he) hs]
      have : (u :: ws).filter (fun x => x ≠ w) = u :: ws.filter (fun x => x ≠ w) := by simp [he]
      rw [this]
      refine Words.word hu huc ?_ ih'
      intro c hc
      -- the character behind the word is still there
      cases s with
      | nil => rw [replaceAll_of_not_infix (by simpa using hw)] at hc; simp at hc
      | cons d s =>
        have hd := hs d (by simp)
        have h1 : ¬ w <+: d :: s := by
          rintro ⟨q, hq⟩
          cases w with
          | nil => exact hw rfl
          | cons e w => simp at hq; exact hws e (by simp) (hq.1 ▸ hd)
        rw [replaceAll_cons hw h1] at hc
        simp at hc
        exact hc ▸ hd

theorem words_remove_all {sep : Char → Prop} {t : Str} {ws rs : List Str} (h : Words sep t ws)
    (hr : ∀ w ∈ rs, w ≠ [] ∧ (∀ c ∈ w, ¬ sep c) ∧ ∀ u ∈ ws, u ≠ w → ¬ w <:+: u) :
    Words sep (rs.foldl (fun t w => replaceAll w [] t) t) (ws.filter (fun u => u ∉ rs)) := by
  induction rs generalizing t ws with
  | nil => simpa using h
  | cons w rs ih =>
    rw [List.foldl_cons]
    obtain ⟨h1, h2, h3⟩ := hr w (by simp)
    have := ih (words_remove h h1 h2 h3) (by
      intro x hx
      obtain ⟨h4, h5, h6⟩ := hr x (by simp [hx])
      exact ⟨h4, h5, fun u hu => h6 u (List.mem_of_mem_filter hu)⟩)
    rw [List.filter_filter] at this
    convert this using 2
    funext u
    simp [not_or]
    rw [Bool.and_comm]

theorem words_infix_of_mem {sep : Char → Prop} {t : Str} {ws : List Str} (h : Words sep t ws) : ∀ w ∈ ws, w <:+: t := by
  induction h with
  | nil => simp
  | @skip c s ws _ _ ih => exact fun w hw => (ih w hw).trans (List.suffix_cons _ _).isInfix
  | @word u s ws _ _ _ _ ih =>
    intro w hw
    rcases List.mem_cons.1 hw with rfl | hw
    · exact (List.prefix_append _ _).isInfix
    · exact (ih w hw).trans (List.suffix_append _ _).isInfix

theorem replaceAll_mem {w t : Str} {c : Char} (h : c ∈ replaceAll w [] t) : c ∈ t := by
  by_cases hw : w = []
  · subst hw
    unfold replaceAll at h
    simp only [List.isEmpty_nil, if_true] at h
    have : ∀ t : Str, replaceEmpty [] t = t := by
      intro t
      induction t with
      | nil => rfl
      | cons a t ih => simp [replaceEmpty, ih]
    rwa [this] at h
  · have hr := replaced_replaceAll hw (new := []) t
    generalize replaceAll w [] t = r at h hr
    induction hr with
    | none _ => exact h
    | @some a b b' _ _ ih =>
      simp only [List.nil_append, List.mem_append] at h ⊢
      rcases h with h | h
      · exact Or.inl h
      · exact Or.inr (Or.inr (ih h))

theorem removes_mem {rs : List Str} {t : Str} {c : Char} (h : c ∈ rs.foldl (fun t w => replaceAll w [] t) t) : c ∈ t := by
  induction rs generalizing t with
  | nil => exact h
  | cons w rs ih => exact replaceAll_mem (ih h)

/-- without continuation marks the items of a value are its words -/
theorem tokens_of_words {t : Str} {ws : List Str} (h : Words (fun c => reSpace c = true) t ws) (hm : contMark ∉ t) : Tokens t ws := by
  induction h with
  | nil => exact .nil
  | @skip c s ws hc _ ih => exact .skip (Or.inl hc) (ih (fun h => hm (by simp [h])))
  | @word u s ws hu huc hs _ ih =>
    refine .token hu ?_ ?_ (ih (fun h => hm (by simp [h])))
    · rintro a c b rfl (h1 | ⟨h1, -⟩)
      · exact huc c (by simp) h1
      · exact hm (by simp [h1])
    · rintro c v rfl
      exact Or.inl (hs c (by simp))

end Oelint

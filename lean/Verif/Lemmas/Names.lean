import Verif.Spec.Names
import Verif.Model.Item
import Verif.Lemmas.Str
import Verif.Lemmas.Regex
set_option linter.unusedSectionVars false
set_option linter.unusedSimpArgs false
namespace Oelint
open Spec
theorem pieces_splitC (d : Char) (s : Str) : Pieces d s (splitC d s) :=
  ⟨splitC_ne_nil d s, joinS_splitC d s, fun _ h => splitC_no_sep h⟩

theorem pieces_unique {d : Char} {s : Str} {ps : List Str} (h : Pieces d s ps) : ps = splitC d s := by
  obtain ⟨h1, h2, h3⟩ := h
  rw [← h2, splitC_joinS ps h1 h3]

variable [Uni]

/-! ## overrides -/

theorem toNat_le {a b : Char} : a ≤ b ↔ a.toNat ≤ b.toNat := by
  rw [Char.le_def, UInt32.le_iff_toNat_le]; rfl

theorem reId_test (c : Char) :
    ([CItem.range 'a' 'z', .range '0' '9', .one '{', .one '}', .one '$'].any (·.test c)) = true ↔ OverrideChar c := by
  simp [CItem.test, OverrideChar, toNat_le]

theorem mem_ms_star_self (g : Bool) (r : Re) (s : St) : s ∈ ms (.star g r) s := by
  rw [ms_star]; cases g <;> simp

theorem reId_match (s : Str) : (reMatch reId.re s).isSome ↔ ∃ c t, s = c :: t ∧ OverrideChar c := by
  rw [reMatch_isSome_iff]
  cases s with
  | nil => simp [reId, ms]
  | cons x t =>
    have : (∃ c t_1, x :: t = c :: t_1 ∧ OverrideChar c) ↔ OverrideChar x := by
      constructor
      · rintro ⟨c, t', h, hc⟩; cases h; exact hc
      · intro h; exact ⟨_, _, rfl, h⟩
    rw [this, ← reId_test]
    have hs := mem_ms_star_self true (.cls false [.range 'a' 'z', .range '0' '9', .one '{', .one '}', .one '$']) ⟨0 + 1, t, []⟩
    simp only [reId]
    rw [show ∀ (a b : Re) (s : St), ms (.seq a b) s = (ms a s).flatMap (ms b) from fun _ _ _ => rfl]
    generalize hb : (List.any _ _ : Bool) = b
    simp only [ms, hb]
    cases b
    · simp
    · simp only [ms] at hs
      exact ⟨fun _ => rfl, fun _ => ⟨_, by simpa using hs⟩⟩

theorem splitC_headD (d : Char) (s : Str) : (splitC d s).headD [] = s.takeWhile (fun c => c != d) := by
  induction s with
  | nil => rfl
  | cons x t ih =>
    by_cases h : x = d
    · subst h; simp [splitC_cons_eq]
    · rw [splitC_cons_ne t h, List.headD_cons, ih]; simp [h]

theorem isOverridePiece_iff (first i : Str) : isOverridePiece first i = true ↔ Override first i := by
  have hpre : (if i.contains '-' then (splitC '-' i).headD [] else i) = beforeDash i := by
    split
    · exact splitC_headD '-' i
    · rename_i h
      have h : '-' ∉ i := by simpa using h
      unfold beforeDash
      symm; rw [List.takeWhile_eq_self_iff]
      intro c hc; simp; rintro rfl; exact h hc
  unfold isOverridePiece Override
  simp only [hpre, Bool.or_eq_true, Bool.and_eq_true, reId_match, beq_iff_eq, bne_iff_ne]
  constructor
  · rintro (⟨a, b⟩ | a)
    · exact Or.inl ⟨b, a⟩
    · exact Or.inr a
  · rintro (⟨a, b⟩ | a)
    · exact Or.inl ⟨b, a⟩
    · exact Or.inr a

theorem pieceText_eq (i : Str) : pieceText i = i := by
  unfold pieceText
  split
  · rename_i h
    have h : '-' ∈ i := by simpa using h
    have hj := joinS_splitC '-' i
    cases hs : splitC '-' i with
    | nil => exact absurd hs (splitC_ne_nil _ _)
    | cons a l =>
      rw [hs] at hj
      cases l with
      | nil =>
        simp [joinS] at hj
        have := splitC_no_sep (c := '-') (s := i) (p := a) (by simp [hs])
        rw [hj] at this; exact absurd h this
      | cons b r =>
        rw [joinS_cons _ _ _ (by simp)] at hj
        simpa using hj
  · rfl

theorem extractLoop_eq (first : Str) (l var suf : List Str) :
    extractLoop first l var suf =
      (var ++ l.filter (fun i => !isOverridePiece first i), suf ++ l.filter (isOverridePiece first)) := by
  induction l generalizing var suf with
  | nil => simp [extractLoop]
  | cons i rest ih =>
    rw [extractLoop]
    cases h : isOverridePiece first i <;> simp [h, ih, pieceText_eq]

theorem distributed_filter (P : Str → Prop) (b : Str → Bool) (hb : ∀ x, b x = true ↔ P x) (l : List Str) :
    Distributed P l (l.filter (fun x => !b x)) (l.filter b) := by
  induction l with
  | nil => exact .nil
  | cons x t ih =>
    cases h : b x
    · have : ¬ P x := by rw [← hb]; simp [h]
      simpa [h] using Distributed.left this ih
    · have : P x := (hb x).1 h
      simpa [h] using Distributed.right this ih

theorem distributed_unique {P : Str → Prop} {l vs ss vs' ss' : List Str} (h : Distributed P l vs ss)
    (h' : Distributed P l vs' ss') : vs = vs' ∧ ss = ss' := by
  induction h generalizing vs' ss' with
  | nil => cases h'; exact ⟨rfl, rfl⟩
  | left hp _ ih =>
    cases h' with
    | left _ h' => obtain ⟨rfl, rfl⟩ := ih h'; exact ⟨rfl, rfl⟩
    | right hq => exact absurd hq hp
  | right hp _ ih =>
    cases h' with
    | left hq => exact absurd hp hq
    | right _ h' => obtain ⟨rfl, rfl⟩ := ih h'; exact ⟨rfl, rfl⟩

/-! ## words -/

theorem words_unique {sep : Char → Prop} {s : Str} {ws ws' : List Str} (h : Words sep s ws) (h' : Words sep s ws') :
    ws = ws' := by
  induction h generalizing ws' with
  | nil =>
    generalize hs : ([] : Str) = s at h'
    cases h' with
    | nil => rfl
    | skip => cases hs
    | word hw => exact absurd (List.append_eq_nil_iff.1 hs.symm).1 hw
  | @skip c s ws hc _ ih =>
    generalize hs : c :: s = s' at h'
    cases h' with
    | nil => cases hs
    | skip _ h' => cases hs; exact ih h'
    | @word w t ws' hw hn _ _ =>
      cases w with
      | nil => exact absurd rfl hw
      | cons x w => cases hs; exact absurd hc (hn _ (by simp))
  | @word w s ws hw hn hs _ ih =>
    generalize he : w ++ s = s' at h'
    cases h' with
    | nil => exact absurd (List.append_eq_nil_iff.1 he).1 hw
    | @skip c t ws' hc h' =>
      cases w with
      | nil => exact absurd rfl hw
      | cons x w => cases he; exact absurd hc (hn _ (by simp))
    | @word w' s' ws' hw' hn' hs' h' =>
      have : w = w' ∧ s = s' := by
        clear ih hw hw'
        induction w generalizing w' with
        | nil =>
          cases w' with
          | nil => exact ⟨rfl, by simpa using he⟩
          | cons x w' =>
            simp only [List.nil_append] at he
            subst he
            exact absurd (hs x (by simp)) (hn' _ (by simp))
        | cons y w ihw =>
          cases w' with
          | nil =>
            simp only [List.nil_append] at he
            subst he
            exact absurd (hs' y (by simp)) (hn _ (by simp))
          | cons x w' =>
            simp only [List.cons_append, List.cons.injEq] at he
            obtain ⟨rfl, he⟩ := he
            obtain ⟨rfl, rfl⟩ := ihw (fun c hc => hn c (by simp [hc])) (w' := w') (fun c hc => hn' c (by simp [hc])) he
            exact ⟨rfl, rfl⟩
      obtain ⟨rfl, rfl⟩ := this
      rw [ih h']

/-- splitting at separators and dropping empty pieces gives the words -/
theorem words_of_pieces {sep : Char → Prop} {c : Char} (hc : sep c) {ps : List Str}
    (h : ∀ p ∈ ps, ∀ x ∈ p, ¬ sep x) : Words sep (joinS [c] ps) (ps.filter (fun x => !x.isEmpty)) := by
  induction ps with
  | nil => exact .nil
  | cons a l ih =>
    have ih := ih (fun p hp => h p (by simp [hp]))
    cases l with
    | nil =>
      cases a with
      | nil => exact .nil
      | cons x t =>
        have := Words.word (sep := sep) (w := x :: t) (s := []) (by simp) (h _ (by simp)) (by simp) .nil
        simpa [joinS] using this
    | cons b r =>
      rw [joinS_cons _ _ _ (by simp)]
      cases a with
      | nil => simpa using Words.skip hc ih
      | cons x t =>
        have := Words.word (sep := sep) (w := x :: t) (s := c :: joinS [c] (b :: r)) (by simp)
          (h _ (by simp)) (by simpa using hc) (.skip hc ih)
        simpa using this

theorem splitNE_words (c : Char) (s : Str) : Words (· = c) s (splitNE c s) := by
  have := words_of_pieces (sep := (· = c)) (c := c) rfl (ps := splitC c s)
    (fun p hp x hx he => splitC_no_sep hp (he ▸ hx))
  rwa [joinS_splitC] at this

theorem firstWhere_spec (p : Str → Bool) (l : List Str) : FirstOr (fun x => p x = true) l (firstWhere p l) := by
  induction l with
  | nil => exact Or.inr ⟨rfl, by simp⟩
  | cons x t ih =>
    rw [firstWhere]
    cases h : p x
    · rcases ih with ⟨pre, post, h1, h2, h3⟩ | ⟨h1, h2⟩
      · refine Or.inl ⟨x :: pre, post, by simp [← h1], by simpa using h2, ?_⟩
        intro y hy; rcases List.mem_cons.1 hy with rfl | hy
        · simp [h]
        · exact h3 y hy
      · refine Or.inr ⟨by simpa using h1, ?_⟩
        intro y hy; rcases List.mem_cons.1 hy with rfl | hy
        · simp [h]
        · exact h2 y hy
    · exact Or.inl ⟨[], t, by simp, by simpa using h, by simp⟩

theorem filter_headD_spec (p : Str → Bool) (l : List Str) :
    FirstOr (fun x => p x = true) l ((l.filter p).headD []) := by
  have : (l.filter p).headD [] = firstWhere p l := by
    induction l with
    | nil => rfl
    | cons x t ih => rw [firstWhere, ← ih]; cases h : p x <;> simp only [List.filter_cons, h] <;> simp
  rw [this]; exact firstWhere_spec p l

theorem FirstOr.congr {P Q : Str → Prop} {l : List Str} {r : Str} (h : FirstOr P l r) (hpq : ∀ x, P x ↔ Q x) :
    FirstOr Q l r := by
  rcases h with ⟨pre, post, h1, h2, h3⟩ | ⟨h1, h2⟩
  · exact Or.inl ⟨pre, post, h1, (hpq _).1 h2, fun x hx hq => h3 x hx ((hpq x).2 hq)⟩
  · exact Or.inr ⟨h1, fun x hx hq => h2 x hx ((hpq x).2 hq)⟩

/-! ## function names -/

theorem indexOf_append {i : Str} {a b : List Str} (h : i ∉ a) : indexOf i (a ++ i :: b) = a.length := by
  induction a with
  | nil => simp [indexOf]
  | cons x t ih =>
    have : x ≠ i := fun he => h (by simp [he])
    simp [indexOf, this, ih (fun hh => h (by simp [hh]))]

/-- the loop splits the pieces where it stops, if the piece it stops at has not occurred before -/
theorem extractFuncLoop_spec (known : Str → Bool) (d : Char) (chunks : List Str) (l var : List Str) (hv : var ≠ [])
    (hc : chunks = var ++ l) (hn : chunks.Nodup)
    (hno : ∀ a' b', a' ++ b' = chunks → a' ≠ [] → a'.length < var.length → ¬ FuncSplit known d a' b') :
    FirstFuncSplit known d chunks (extractFuncLoop known d chunks l var).1 (extractFuncLoop known d chunks l var).2 := by
  induction l generalizing var with
  | nil => exact ⟨by simp [extractFuncLoop, hc], hv, Or.inl rfl, hno⟩
  | cons i rest ih =>
    rw [extractFuncLoop]
    split
    · rename_i hstop
      have hi : i ∉ var := by
        intro hi
        rw [hc] at hn
        exact (List.nodup_append.1 hn).2.2 i hi i (by simp) rfl
      have hdrop : chunks.drop (indexOf i chunks) = i :: rest := by
        rw [hc, indexOf_append hi, List.drop_left]
      simp only [hdrop]
      refine ⟨hc, hv, Or.inr ⟨i, rest, rfl, ?_⟩, hno⟩
      simpa [funcMarkers, funcOverrides] using hstop
    · rename_i hstop
      refine ih (var ++ [i]) (by simp) (by simp [hc]) ?_
      intro a' b' he hne hlen
      by_cases hl : a'.length < var.length
      · exact hno a' b' he hne hl
      · have hl : a'.length = var.length := by simp at hlen; omega
        rw [hc] at he
        obtain ⟨rfl, rfl⟩ := List.append_inj he hl
        rintro ⟨j, r, hj, h⟩
        cases hj
        exact hstop (by simpa [funcMarkers, funcOverrides] using h)

end Oelint

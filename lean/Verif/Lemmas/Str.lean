import Verif.Model.Str
import Mathlib.Data.List.Basic
import Mathlib.Data.List.TakeWhile
import Mathlib.Data.List.Infix
/-! Lemmas about the string, sorting and dictionary functions of `Verif.Model.Str`. -/
namespace Oelint

/-! ## substrings -/

theorem hasSub_iff {p s : Str} : hasSub p s = true ↔ p <:+: s := by
  induction s with
  | nil => simp [hasSub, List.isEmpty_iff]
  | cons c t ih =>
    simp only [hasSub, Bool.or_eq_true, ih, List.isPrefixOf_iff_prefix, List.infix_cons_iff]

theorem hasSub_false_iff {p s : Str} : hasSub p s = false ↔ ¬ p <:+: s := by
  rw [← hasSub_iff]; simp

theorem findSub_none_iff {p s : Str} : findSub p s = none ↔ ¬ p <:+: s := by
  induction s with
  | nil => simp [findSub, List.isEmpty_iff]
  | cons c t ih =>
    unfold findSub
    by_cases h : p.isPrefixOf (c :: t)
    · simp only [h, if_true, reduceCtorEq, false_iff, not_not]
      exact (List.isPrefixOf_iff_prefix.1 h).isInfix
    · simp only [h, Bool.false_eq_true, if_false, Option.map_eq_none_iff, ih, List.infix_cons_iff]
      simp only [List.isPrefixOf_iff_prefix] at h
      simp [h]

/-- `findSub` returns the leftmost occurrence. -/
theorem findSub_some {p s : Str} {i : Nat} (h : findSub p s = some i) :
    p <+: s.drop i ∧ ∀ j < i, ¬ p <+: s.drop j := by
  induction s generalizing i with
  | nil =>
    unfold findSub at h
    split at h
    · rename_i hp
      simp only [Option.some.injEq] at h
      subst h
      simp [List.isEmpty_iff.1 hp]
    · cases h
  | cons c t ih =>
    unfold findSub at h
    split at h
    · rename_i hp
      simp only [Option.some.injEq] at h
      subst h
      exact ⟨by simpa using List.isPrefixOf_iff_prefix.1 hp, by simp⟩
    · rename_i hp
      simp only [List.isPrefixOf_iff_prefix] at hp
      simp only [Option.map_eq_some_iff] at h
      obtain ⟨k, hk, rfl⟩ := h
      obtain ⟨h1, h2⟩ := ih hk
      refine ⟨by simpa using h1, ?_⟩
      intro j hj
      cases j with
      | zero => simpa using hp
      | succ j => simpa using h2 j (by omega)

theorem findSub_le {p s : Str} {i : Nat} (h : findSub p s = some i) : i + p.length ≤ s.length := by
  induction s generalizing i with
  | nil =>
    unfold findSub at h
    split at h
    · rename_i hp; simp only [Option.some.injEq] at h; subst h; simp [List.isEmpty_iff.1 hp]
    · cases h
  | cons c t ih =>
    unfold findSub at h
    split at h
    · rename_i hp
      simp only [Option.some.injEq] at h
      subst h
      simpa using (List.isPrefixOf_iff_prefix.1 hp).length_le
    · simp only [Option.map_eq_some_iff] at h
      obtain ⟨k, hk, rfl⟩ := h
      have := ih hk
      simp; omega

/-! ## replace -/

theorem replaceGo_of_not_infix {old new : Str} (s : Str) (h : ¬ old <:+: s) : replaceGo old new 0 s = s := by
  induction s with
  | nil => rfl
  | cons c t ih =>
    rw [List.infix_cons_iff, not_or] at h
    unfold replaceGo
    rw [if_neg (by simpa [List.isPrefixOf_iff_prefix] using h.1), ih h.2]

theorem replaceGo_drop {old new : Str} (k : Nat) (s : Str) :
    replaceGo old new k s = replaceGo old new 0 (s.drop k) := by
  induction k generalizing s with
  | zero => simp
  | succ k ih =>
    cases s with
    | nil => simp [replaceGo]
    | cons c t => simp only [replaceGo, List.drop_succ_cons, ih t]

/-- `replaceGo` on a text that starts with the pattern. -/
theorem replaceGo_prefix {old new : Str} (h : old ≠ []) (t : Str) :
    replaceGo old new 0 (old ++ t) = new ++ replaceGo old new 0 t := by
  cases old with
  | nil => exact absurd rfl h
  | cons c o =>
    rw [List.cons_append]
    rw [replaceGo, if_pos (by simp [List.isPrefixOf_iff_prefix])]
    rw [replaceGo_drop]
    simp only [List.length_cons, Nat.add_sub_cancel, List.drop_left]

theorem replaceGo_not_prefix {old new : Str} (c : Char) (t : Str) (h : ¬ old <+: c :: t) :
    replaceGo old new 0 (c :: t) = c :: replaceGo old new 0 t := by
  rw [replaceGo, if_neg (by simpa [List.isPrefixOf_iff_prefix] using h)]

theorem replaceAll_of_not_infix {old new s : Str} (h : ¬ old <:+: s) : replaceAll old new s = s := by
  unfold replaceAll
  have : old ≠ [] := by rintro rfl; exact h (List.nil_infix)
  rw [if_neg (by simpa using this), replaceGo_of_not_infix s h]

/-- Replacing a one-character text. -/
theorem replaceAll_char (c : Char) (new : Str) (s : Str) :
    replaceAll [c] new s = s.flatMap (fun x => if x = c then new else [x]) := by
  unfold replaceAll
  simp only [List.isEmpty_cons, Bool.false_eq_true, if_false]
  induction s with
  | nil => rfl
  | cons x t ih =>
    by_cases h : x = c
    · subst h
      rw [show x :: t = [x] ++ t from rfl, replaceGo_prefix (by simp), ih]
      simp
    · rw [replaceGo_not_prefix _ _ (by simp [List.cons_prefix_cons]; exact fun hc => h hc.symm), ih]
      simp [h]

/-! ## split and join -/

theorem splitC_ne_nil (c : Char) (s : Str) : splitC c s ≠ [] := by
  cases s with
  | nil => simp [splitC]
  | cons x t =>
    unfold splitC
    split
    · simp
    · split <;> simp

theorem splitC_cons_eq (c : Char) (t : Str) : splitC c (c :: t) = [] :: splitC c t := by
  simp [splitC]

theorem splitC_cons_ne {c x : Char} (t : Str) (h : x ≠ c) :
    splitC c (x :: t) = (x :: (splitC c t).headD []) :: (splitC c t).tail := by
  have := splitC_ne_nil c t
  rw [splitC, if_neg (by simpa using h)]
  split
  · rename_i h2; exact absurd h2 this
  · rename_i h r h2; rw [h2]; rfl

theorem joinS_cons (sep a : Str) (l : List Str) (h : l ≠ []) : joinS sep (a :: l) = a ++ sep ++ joinS sep l := by
  cases l with
  | nil => exact absurd rfl h
  | cons b r => rfl

theorem joinS_splitC (c : Char) (s : Str) : joinS [c] (splitC c s) = s := by
  induction s with
  | nil => rfl
  | cons x t ih =>
    by_cases h : x = c
    · subst h
      rw [splitC_cons_eq, joinS_cons _ _ _ (splitC_ne_nil _ _), ih]; rfl
    · rw [splitC_cons_ne _ h]
      have hne := splitC_ne_nil c t
      cases hs : splitC c t with
      | nil => exact absurd hs hne
      | cons a r =>
        rw [hs] at ih
        simp only [List.headD_cons, List.tail_cons]
        cases r with
        | nil => simp only [joinS] at ih ⊢; rw [ih]
        | cons b r => rw [joinS] at ih ⊢; rw [← ih]; rfl

theorem splitC_no_sep {c : Char} {s p : Str} (h : p ∈ splitC c s) : c ∉ p := by
  induction s generalizing p with
  | nil => simp [splitC] at h; simp [h]
  | cons x t ih =>
    by_cases hx : x = c
    · subst hx
      rw [splitC_cons_eq] at h
      rcases List.mem_cons.1 h with rfl | h
      · simp
      · exact ih h
    · rw [splitC_cons_ne _ hx] at h
      rcases List.mem_cons.1 h with rfl | h
      · simp only [List.mem_cons, not_or]
        refine ⟨fun hc => hx hc.symm, ?_⟩
        have hne := splitC_ne_nil c t
        apply ih
        cases hs : splitC c t with
        | nil => exact absurd hs hne
        | cons a r => simp
      · exact ih (List.mem_of_mem_tail h)

theorem splitC_of_not_mem {c : Char} {s : Str} (h : c ∉ s) : splitC c s = [s] := by
  induction s with
  | nil => rfl
  | cons x t ih =>
    simp only [List.mem_cons, not_or] at h
    rw [splitC_cons_ne _ (fun hx => h.1 hx.symm), ih h.2]; rfl

theorem splitC_append_sep {c : Char} (a b : Str) (h : c ∉ a) : splitC c (a ++ c :: b) = a :: splitC c b := by
  induction a with
  | nil => exact splitC_cons_eq c b
  | cons x t ih =>
    simp only [List.mem_cons, not_or] at h
    rw [List.cons_append, splitC_cons_ne _ (fun hx => h.1 hx.symm), ih h.2]; rfl

theorem splitC_joinS {c : Char} (l : List Str) (hne : l ≠ []) (h : ∀ p ∈ l, c ∉ p) : splitC c (joinS [c] l) = l := by
  induction l with
  | nil => exact absurd rfl hne
  | cons a r ih =>
    cases r with
    | nil => simpa [joinS] using splitC_of_not_mem (h a (by simp))
    | cons b r =>
      rw [joinS_cons _ _ _ (by simp), List.append_assoc]
      rw [show [c] ++ joinS [c] (b :: r) = c :: joinS [c] (b :: r) from rfl]
      rw [splitC_append_sep _ _ (h a (by simp)), ih (by simp) (fun p hp => h p (List.mem_cons_of_mem _ hp))]

/-! ## strip -/

theorem rstripP_append_all {p : Char → Bool} (s t : Str) (h : ∀ c ∈ t, p c = true) :
    rstripP p (s ++ t) = rstripP p s := by
  unfold rstripP
  rw [List.reverse_append, List.dropWhile_append]
  rw [if_pos]
  rw [List.isEmpty_iff, List.dropWhile_eq_nil_iff]
  intro c hc; exact h c (by simpa using hc)

theorem rstripP_concat_not {p : Char → Bool} (s : Str) (c : Char) (h : p c = false) :
    rstripP p (s ++ [c]) = s ++ [c] := by
  unfold rstripP; simp [h]

theorem lstripP_append_all {p : Char → Bool} (s t : Str) (h : ∀ c ∈ s, p c = true) :
    lstripP p (s ++ t) = lstripP p t := by
  unfold lstripP
  rw [List.dropWhile_append, if_pos]
  rw [List.isEmpty_iff, List.dropWhile_eq_nil_iff]
  exact h

theorem lstripP_suffix (p : Char → Bool) (s : Str) : lstripP p s <:+ s := List.dropWhile_suffix _

theorem rstripP_prefix (p : Char → Bool) (s : Str) : rstripP p s <+: s := by
  have := List.dropWhile_suffix (l := s.reverse) p
  obtain ⟨t, ht⟩ := this
  refine ⟨t.reverse, ?_⟩
  unfold rstripP
  rw [← List.reverse_append, ht, List.reverse_reverse]

theorem stripP_infix (p : Char → Bool) (s : Str) : stripP p s <:+: s :=
  (rstripP_prefix p _).isInfix.trans (lstripP_suffix p s).isInfix

/-! ## dictionaries -/

theorem dget_dset_same {α} (k : Str) (v : α) (d : List (Str × α)) : dget k (dset k v d) = some v := by
  induction d with
  | nil => simp [dset, dget]
  | cons kv t ih =>
    obtain ⟨k', v'⟩ := kv
    by_cases h : k' = k
    · simp [dset, dget, h]
    · simp [dset, dget, h, ih]

theorem dget_dset_ne {α} {k j : Str} (v : α) (d : List (Str × α)) (h : j ≠ k) : dget j (dset k v d) = dget j d := by
  induction d with
  | nil => simp [dset, dget, Ne.symm h]
  | cons kv t ih =>
    obtain ⟨k', v'⟩ := kv
    by_cases hk : k' = k
    · subst hk; simp [dset, dget, Ne.symm h]
    · by_cases hj : k' = j
      · subst hj; simp [dset, dget, h]
      · simp [dset, dget, hk, hj, ih]

theorem dget_dset {α} (k j : Str) (v : α) (d : List (Str × α)) :
    dget j (dset k v d) = if j = k then some v else dget j d := by
  split
  · rename_i h; subst h; exact dget_dset_same _ _ _
  · rename_i h; exact dget_dset_ne _ _ h

theorem dget_ddel {α} (k j : Str) (d : List (Str × α)) :
    dget j (ddel k d) = if j = k then none else dget j d := by
  induction d with
  | nil => simp [ddel, dget]
  | cons kv t ih =>
    obtain ⟨k', v'⟩ := kv
    unfold ddel at ih ⊢
    by_cases hk : k' = k
    · subst hk
      simp only [List.filter_cons, beq_self_eq_true, Bool.not_true, Bool.false_eq_true, if_false, ih, dget]
      by_cases hj : j = k'
      · simp [hj]
      · simp [hj, Ne.symm hj]
    · simp only [List.filter_cons, dget]
      simp only [show (k' == k) = false by simpa using hk, Bool.not_false, if_true, dget, ih]
      by_cases hj : k' = j
      · subst hj; simp [hk]
      · simp [hj]

theorem dget_isSome_iff {α} {k : Str} {d : List (Str × α)} : (dget k d).isSome ↔ k ∈ d.map (·.1) := by
  induction d with
  | nil => simp [dget]
  | cons kv t ih =>
    obtain ⟨k', v'⟩ := kv
    by_cases h : k' = k
    · simp [dget, h]
    · simp [dget, h, ih, Ne.symm h]

theorem dget_eq_none_iff {α} {k : Str} {d : List (Str × α)} : dget k d = none ↔ k ∉ d.map (·.1) := by
  rw [← dget_isSome_iff]; simp

theorem dget_mem {α} {k : Str} {v : α} {d : List (Str × α)} (h : dget k d = some v) : (k, v) ∈ d := by
  induction d with
  | nil => simp [dget] at h
  | cons kv t ih =>
    obtain ⟨k', v'⟩ := kv
    by_cases hk : k' = k
    · simp [dget, hk] at h; simp [hk, h]
    · simp [dget, hk] at h; exact List.mem_cons_of_mem _ (ih h)

theorem dset_keys {α} (k : Str) (v : α) (d : List (Str × α)) :
    (dset k v d).map (·.1) = if k ∈ d.map (·.1) then d.map (·.1) else d.map (·.1) ++ [k] := by
  induction d with
  | nil => simp [dset]
  | cons kv t ih =>
    obtain ⟨k', v'⟩ := kv
    by_cases h : k' = k
    · simp [dset, h]
    · simp only [dset, beq_iff_eq, h, if_false, List.map_cons, ih, List.mem_cons, Ne.symm h, false_or]
      split <;> rfl

theorem dset_keys_mem {α} {k j : Str} {v : α} {d : List (Str × α)} :
    j ∈ (dset k v d).map (·.1) ↔ j = k ∨ j ∈ d.map (·.1) := by
  rw [dset_keys]; split
  · rename_i h; constructor
    · exact Or.inr
    · rintro (rfl | h') <;> assumption
  · simp [or_comm]

theorem dset_nodup {α} {k : Str} {v : α} {d : List (Str × α)} (h : (d.map (·.1)).Nodup) :
    ((dset k v d).map (·.1)).Nodup := by
  rw [dset_keys]; split
  · exact h
  · rename_i hk
    rw [List.nodup_append]
    refine ⟨h, by simp, ?_⟩
    intro a ha b hb
    simp at hb; subst hb; rintro rfl; exact hk ha

/-! ## dedup -/

theorem mem_dedup {α} [BEq α] [LawfulBEq α] {x : α} {l : List α} : x ∈ dedup l ↔ x ∈ l := by
  induction l with
  | nil => simp [dedup]
  | cons y t ih =>
    simp only [dedup, List.mem_cons, List.mem_filter, ih]
    by_cases h : x = y
    · simp [h]
    · simp [h]

theorem nodup_dedup {α} [BEq α] [LawfulBEq α] (l : List α) : (dedup l).Nodup := by
  induction l with
  | nil => simp [dedup]
  | cons y t ih =>
    simp only [dedup, List.nodup_cons, List.mem_filter]
    exact ⟨by simp, ih.filter _⟩

theorem dedup_of_nodup {α} [BEq α] [LawfulBEq α] {l : List α} (h : l.Nodup) : dedup l = l := by
  induction l with
  | nil => rfl
  | cons y t ih =>
    rw [List.nodup_cons] at h
    simp only [dedup, ih h.2]
    congr 1
    rw [List.filter_eq_self]
    intro a ha
    have : a ≠ y := fun hh => h.1 (hh ▸ ha)
    simpa using this

theorem dedup_filter {α} [BEq α] [LawfulBEq α] (p : α → Bool) (l : List α) :
    dedup (l.filter p) = (dedup l).filter p := by
  induction l with
  | nil => rfl
  | cons y t ih =>
    by_cases h : p y
    · simp only [List.filter_cons, h, if_true, dedup, ih]
      simp only [List.filter_filter, Bool.and_comm]
    · simp only [List.filter_cons, h, dedup, Bool.false_eq_true, if_false, ih, List.filter_filter]
      apply List.filter_congr
      intro x _
      by_cases hx : x = y
      · subst hx; simp [h]
      · simp [hx]

/-! ## sorting -/

theorem insertBy_perm {α} (le : α → α → Bool) (x : α) (l : List α) : (insertBy le x l).Perm (x :: l) := by
  induction l with
  | nil => exact List.Perm.refl _
  | cons y ys ih =>
    unfold insertBy
    split
    · exact List.Perm.refl _
    · exact (ih.cons y).trans (List.Perm.swap x y ys)

theorem sortBy_perm {α} (le : α → α → Bool) (l : List α) : (sortBy le l).Perm l := by
  induction l with
  | nil => exact List.Perm.refl _
  | cons x xs ih => exact (insertBy_perm le x _).trans (ih.cons x)

theorem insertBy_sorted {α} {le : α → α → Bool} (tot : ∀ a b, le a b = true ∨ le b a = true)
    (tr : ∀ a b c, le a b = true → le b c = true → le a c = true) (x : α) {l : List α}
    (h : l.Pairwise (fun a b => le a b = true)) : (insertBy le x l).Pairwise (fun a b => le a b = true) := by
  induction l with
  | nil => simp [insertBy]
  | cons y ys ih =>
    unfold insertBy
    rw [List.pairwise_cons] at h
    split
    · rename_i hxy
      rw [List.pairwise_cons]
      refine ⟨?_, List.pairwise_cons.2 h⟩
      intro a ha
      rcases List.mem_cons.1 ha with rfl | ha
      · exact hxy
      · exact tr _ _ _ hxy (h.1 a ha)
    · rename_i hxy
      rw [List.pairwise_cons]
      refine ⟨?_, ih h.2⟩
      intro a ha
      have := (insertBy_perm le x ys).mem_iff.1 ha
      rcases List.mem_cons.1 this with rfl | ha
      · rcases tot y a with h1 | h1
        · exact h1
        · exact absurd h1 hxy
      · exact h.1 a ha

theorem sortBy_sorted {α} {le : α → α → Bool} (tot : ∀ a b, le a b = true ∨ le b a = true)
    (tr : ∀ a b c, le a b = true → le b c = true → le a c = true) (l : List α) :
    (sortBy le l).Pairwise (fun a b => le a b = true) := by
  induction l with
  | nil => simp [sortBy]
  | cons x xs ih => exact insertBy_sorted tot tr x ih

theorem insertBy_of_le_all {α} {le : α → α → Bool} (x : α) {l : List α} (h : ∀ y ∈ l, le x y = true) :
    insertBy le x l = x :: l := by
  cases l with
  | nil => rfl
  | cons y ys => unfold insertBy; rw [if_pos (h y (by simp))]

/-- A sorted list is not changed by the stable sort. -/
theorem sortBy_of_sorted {α} {le : α → α → Bool} {l : List α} (h : l.Pairwise (fun a b => le a b = true)) :
    sortBy le l = l := by
  induction l with
  | nil => rfl
  | cons x xs ih =>
    rw [List.pairwise_cons] at h
    unfold sortBy
    rw [ih h.2, insertBy_of_le_all x h.1]

theorem strLe_refl (a : Str) : strLe a a = true := by
  induction a with
  | nil => rfl
  | cons c s ih => simp [strLe, ih]

theorem strLe_total (a b : Str) : strLe a b = true ∨ strLe b a = true := by
  induction a generalizing b with
  | nil => simp [strLe]
  | cons c s ih =>
    cases b with
    | nil => simp [strLe]
    | cons d t =>
      unfold strLe
      rcases Nat.lt_trichotomy c.toNat d.toNat with h | h | h
      · simp [h]
      · simpa [h] using ih t
      · simp [h]

theorem strLe_trans (a b c : Str) (h1 : strLe a b = true) (h2 : strLe b c = true) : strLe a c = true := by
  induction a generalizing b c with
  | nil => simp [strLe]
  | cons x s ih =>
    cases b with
    | nil => simp [strLe] at h1
    | cons y t =>
      cases c with
      | nil => simp [strLe] at h2
      | cons z u =>
        unfold strLe at h1 h2 ⊢
        by_cases hxy : x.toNat < y.toNat
        · by_cases hyz : y.toNat < z.toNat
          · simp [show x.toNat < z.toNat by omega]
          · by_cases hzy : z.toNat < y.toNat
            · simp [hyz, hzy] at h2
            · simp [show x.toNat < z.toNat by omega]
        · by_cases hyx : y.toNat < x.toNat
          · simp [hxy, hyx] at h1
          · simp only [hxy, hyx, if_false] at h1
            by_cases hyz : y.toNat < z.toNat
            · simp [show x.toNat < z.toNat by omega]
            · by_cases hzy : z.toNat < y.toNat
              · simp [hyz, hzy] at h2
              · simp only [hyz, hzy, if_false] at h2
                rw [if_neg (by omega), if_neg (by omega)]
                exact ih _ _ h1 h2

theorem strLe_antisymm (a b : Str) (h1 : strLe a b = true) (h2 : strLe b a = true) : a = b := by
  induction a generalizing b with
  | nil =>
    cases b with
    | nil => rfl
    | cons d t => simp [strLe] at h2
  | cons c s ih =>
    cases b with
    | nil => simp [strLe] at h1
    | cons d t =>
      unfold strLe at h1 h2
      rcases Nat.lt_trichotomy c.toNat d.toNat with h | h | h
      · simp [h, show ¬ d.toNat < c.toNat by omega] at h2
      · simp only [h, Nat.lt_irrefl, if_false] at h1 h2
        rw [ih t h1 h2, show c = d from Char.toNat_inj.1 h]
      · simp [h, show ¬ c.toNat < d.toNat by omega] at h1

end Oelint

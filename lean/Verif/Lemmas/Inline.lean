import Verif.Lemmas.Groups
import Verif.Spec.Inline
/-! Inline blocks: scope, termination of the substitution loop. -/
set_option linter.unusedSectionVars false
set_option linter.unusedSimpArgs false
namespace Oelint
variable [Uni]
open Spec

/-! ## replaceAll -/

theorem replaced_replaceGo {old new : Str} (hne : old ≠ []) (s : Str) : Replaced old new s (replaceGo old new 0 s) := by
  obtain ⟨n, hn⟩ : ∃ n, n = s.length := ⟨_, rfl⟩
  induction n using Nat.strongRecOn generalizing s with
  | ind n ih =>
    cases hf : findSub old s with
    | none =>
      have h := findSub_none_iff.1 hf
      rw [replaceGo_of_not_infix s h]
      exact .none h
    | some i =>
      obtain ⟨⟨b, hb⟩, hmin⟩ := findSub_some hf
      have hle := findSub_le hf
      have hs : s = s.take i ++ (old ++ b) := by rw [hb]; simp
      have hlen : (s.take i).length = i := by simp; omega
      have hgo : ∀ (a : Str), (∀ j < a.length, ¬ old <+: (a ++ (old ++ b)).drop j) →
          replaceGo old new 0 (a ++ (old ++ b)) = a ++ (new ++ replaceGo old new 0 b) := by
        intro a
        induction a with
        | nil => intro _; simpa using replaceGo_prefix hne b
        | cons c t iht =>
          intro h
          rw [List.cons_append, replaceGo_not_prefix _ _ (by simpa using h 0 (by simp)), iht]
          · rfl
          · intro j hj; simpa using h (j + 1) (by simpa using hj)
      have hmin' : ∀ j < (s.take i).length, ¬ old <+: (s.take i ++ (old ++ b)).drop j := by
        intro j hj; rw [← hs]; exact hmin j (by omega)
      have hlt : b.length < n := by
        have := congrArg List.length hs
        simp only [List.length_append] at this
        have : 0 < old.length := List.length_pos_iff.2 hne
        omega
      have := Replaced.some (new := new) hmin' (ih b.length hlt b rfl)
      rw [← hgo _ hmin', ← hs] at this
      exact this

theorem replaced_replaceAll {old new : Str} (hne : old ≠ []) (s : Str) : Replaced old new s (replaceAll old new s) := by
  unfold replaceAll
  rw [if_neg (by simpa using hne)]
  exact replaced_replaceGo hne s

/-- `Replaced` determines its result -/
theorem replaced_eq {old new s s' : Str} (hne : old ≠ []) (h : Replaced old new s s') : s' = replaceAll old new s := by
  unfold replaceAll
  rw [if_neg (by simpa using hne)]
  induction h with
  | none h => rw [replaceGo_of_not_infix _ h]
  | @some a b b' hmin _ ih =>
    subst ih
    induction a with
    | nil => simpa using (replaceGo_prefix hne b).symm
    | cons c t iht =>
      rw [List.cons_append, List.cons_append, replaceGo_not_prefix _ _ (by simpa using hmin 0 (by simp)), iht]
      intro j hj; simpa using hmin (j + 1) (by simpa using hj)

theorem replaced_count_le {old new s s' : Str} (c : Char) (hc : new.count c ≤ old.count c) (h : Replaced old new s s') :
    s'.count c ≤ s.count c := by
  induction h with
  | none => exact Nat.le_refl _
  | some _ _ ih => simp only [List.count_append]; omega

theorem replaced_count_lt {old new s s' : Str} (c : Char) (hc : new.count c < old.count c) (h : Replaced old new s s')
    (hin : old <:+: s) : s'.count c < s.count c := by
  cases h with
  | none h => exact absurd hin h
  | some _ h =>
    have := replaced_count_le c (Nat.le_of_lt hc) h
    simp only [List.count_append]; omega

/-! ## scope -/

theorem scopeLen_spec (t : Str) (level : Int) (h0 : 0 ≤ level) :
    (∀ q, q <+: t.take (scopeLen '{' '}' level t) → q ≠ t.take (scopeLen '{' '}' level t) →
      (q.count '}' : Int) ≤ level + q.count '{') ∧
    (level + (t.take (scopeLen '{' '}' level t)).count '{' < ((t.take (scopeLen '{' '}' level t)).count '}' : Int) ∨
      t.take (scopeLen '{' '}' level t) = t) := by
  induction t generalizing level with
  | nil => simp [scopeLen]
  | cons c t ih =>
    obtain ⟨lv, hlv⟩ : ∃ lv, lv = (if c = '{' then level + 1 else if c = '}' then level - 1 else level) := ⟨_, rfl⟩
    have hc1 : ([c].count '{' : Int) = if c = '{' then 1 else 0 := by
      by_cases h : c = '{' <;> simp [h]
    have hc2 : ([c].count '}' : Int) = if c = '}' then 1 else 0 := by
      by_cases h : c = '}' <;> simp [h]
    have hcnt : lv = level + ([c].count '{' : Int) - ([c].count '}' : Int) := by
      rw [hc1, hc2, hlv]
      by_cases h : c = '{'
      · subst h; simp
      · by_cases h' : c = '}' <;> simp [h, h']
    have hcons : ∀ (x : Char) (q : Str), (c :: q).count x = [c].count x + q.count x := by
      intro x q; rw [← List.singleton_append, List.count_append]
    rw [scopeLen]
    simp only [beq_iff_eq]
    rw [← hlv]
    split
    · rename_i hneg
      simp only [List.take_succ_cons, List.take_zero]
      refine ⟨?_, Or.inl (by omega)⟩
      intro q hq hne
      have : q = [] := by
        cases q with
        | nil => rfl
        | cons a b =>
          obtain ⟨u, hu⟩ := hq
          simp at hu
          obtain ⟨rfl, rfl, _⟩ := hu
          exact absurd rfl hne
      subst this; simpa using h0
    · rename_i hge
      obtain ⟨h1, h2⟩ := ih lv (by omega)
      rw [Nat.add_comm, List.take_succ_cons]
      refine ⟨?_, ?_⟩
      · intro q hq hne
        cases q with
        | nil => simpa using h0
        | cons a q =>
          rw [List.cons_prefix_cons] at hq
          obtain ⟨rfl, hq⟩ := hq
          have := h1 q hq (by rintro rfl; exact hne rfl)
          have e1 := hcons '{' q
          have e2 := hcons '}' q
          omega
      · rcases h2 with h2 | h2
        · left
          have e1 := hcons '{' (t.take (scopeLen '{' '}' lv t))
          have e2 := hcons '}' (t.take (scopeLen '{' '}' lv t))
          omega
        · right; rw [h2]

theorem getFullScope_spec (pre t : Str) :
    ∃ p, getFullScope (pre ++ t) pre.length '{' '}' = pre ++ p ∧ IsScope p t := by
  refine ⟨t.take (scopeLen '{' '}' 0 t), ?_, List.take_prefix _ _, ?_, ?_⟩
  · unfold getFullScope
    rw [List.drop_left, Nat.add_comm, List.take_length_add_append]
  · intro q h1 h2
    have := (scopeLen_spec t 0 (by omega)).1 q h1 h2
    omega
  · rcases (scopeLen_spec t 0 (by omega)).2 with h | h
    · left; omega
    · right; exact h

/-! ## the replacement has fewer `@` -/

theorem infix_count_le {a b : Str} (c : Char) (h : a <:+: b) : a.count c ≤ b.count c := h.sublist.count_le c

theorem cleanInline_count (t : Str) : (cleanInline (c!"${@" ++ t)).count '@' ≤ t.count '@' := by
  unfold cleanInline
  have h1 : lstripP (oneOf c!"${@") (c!"${@" ++ t) = lstripP (oneOf c!"${@") t :=
    lstripP_append_all _ _ (by decide)
  rw [h1]
  exact infix_count_le _ ((rstripP_prefix _ _).isInfix.trans (lstripP_suffix _ _).isInfix)

theorem stripQuotes_infix (s : Str) : stripQuotes s <:+: s := stripP_infix _ _

theorem group_count {r : Re} {s : Str} {m : Mt} (h : reMatch r s = some m) (n : Nat) (c : Char) :
    (stripQuotes ((m.group n).getD [])).count c ≤ s.count c := by
  refine le_trans (infix_count_le c (stripQuotes_infix _)) ?_
  cases hg : m.group n with
  | none => simp
  | some g => exact infix_count_le c (reMatch_group h hg)

theorem group_count' {r : Re} {s : Str} {m : Mt} (h : reMatch r s = some m) (n : Nat) (d : Str) (c : Char)
    (hd : d.count c = 0) : (stripQuotes (orDefault d (m.group n))).count c ≤ s.count c := by
  refine le_trans (infix_count_le c (stripQuotes_infix _)) ?_
  cases hg : m.group n with
  | none => simp [orDefault, hd]
  | some g =>
    have := infix_count_le c (reMatch_group h hg)
    cases g with
    | nil => simp [orDefault, hd]
    | cons a b => simpa [orDefault] using this

theorem twoBranch_count {needle : Str} {p : Pattern} {inp : Str} {neg : Bool} {r : Str}
    (h : twoBranch needle p inp neg = some r) : r.count '@' ≤ inp.count '@' := by
  unfold twoBranch at h
  split at h
  · split at h
    · rename_i m hm
      split at h <;> cases h <;> exact group_count hm _ _
    · cases h
  · cases h

theorem oneBranch_count {needle : Str} {p : Pattern} {inp : Str} {neg : Bool} {r : Str}
    (h : oneBranch needle p inp neg = some r) : r.count '@' ≤ inp.count '@' := by
  unfold oneBranch at h
  split at h
  · split at h
    · rename_i m hm
      split at h <;> cases h
      · simp
      · exact group_count hm _ _
    · cases h
  · cases h

theorem featBranch_count {needle : Str} {p : Pattern} {inp : Str} {neg : Bool} {r : Str}
    (h : featBranch needle p inp neg = some r) : r.count '@' ≤ inp.count '@' := by
  unfold featBranch at h
  split at h
  · split at h
    · rename_i m hm
      simp only at h
      split at h <;> cases h
      · exact group_count' hm _ _ _ (by decide)
      · exact group_count' hm _ _ _ (by decide)
    · cases h
  · cases h

theorem dGetvar_count {inp : Str} {r : Str}
    (h : dGetvar inp = some r) : r.count '@' ≤ inp.count '@' := by
  unfold dGetvar at h
  split at h
  · split at h
    · rename_i m hm
      cases h
      have := group_count hm (reDGetvar.idx c!"val") '@'
      simp only [List.count_append, Pattern.group]
      have h1 : List.count '@' c!"${" = 0 := by decide
      have h2 : List.count '@' c!"}" = 0 := by decide
      omega
    · cases h
  · cases h

theorem inlinerep_count {t : Str} {neg : Bool} {r : Str} (h : inlinerep (c!"${@" ++ t) neg = some r) :
    r.count '@' ≤ t.count '@' := by
  refine le_trans ?_ (cleanInline_count t)
  unfold inlinerep at h
  simp only at h
  rw [List.findSome?_eq_some_iff] at h
  obtain ⟨l1, a, l2, hl, ha, _⟩ := h
  have hm : a ∈ l1 ++ a :: l2 := by simp
  rw [← hl] at hm
  simp only [id] at ha
  subst ha
  simp only [List.mem_cons, List.not_mem_nil, or_false] at hm
  rcases hm with h | h | h | h | h | h | h | h | h | h | h | h
  all_goals
    first
      | exact twoBranch_count h.symm
      | exact oneBranch_count h.symm
      | exact featBranch_count h.symm
      | exact dGetvar_count h.symm

/-- what an inline block is replaced by -/
def inlineValue (neg : Bool) (blk : Str) : Str := (inlinerep blk neg).getD inlineBlock

theorem inlineValue_count (neg : Bool) (t : Str) : (inlineValue neg (c!"${@" ++ t)).count '@' < (c!"${@" ++ t).count '@' := by
  have h3 : List.count '@' (c!"${@" ++ t) = t.count '@' + 1 := by
    rw [List.count_append]; have : List.count '@' c!"${@" = 1 := by decide
    omega
  rw [h3]
  unfold inlineValue
  cases h : inlinerep (c!"${@" ++ t) neg with
  | none =>
    have : List.count '@' inlineBlock = 0 := by decide
    simp only [Option.getD_none]; omega
  | some r => have := inlinerep_count h; simp only [Option.getD_some]; omega

/-- The substitution loop ends with a text without inline blocks; its result is described by the specification. -/
theorem inlineLoop_spec (neg : Bool) (n : Nat) (raw : Str) (blocks : List (Str × Str)) (hn : raw.count '@' ≤ n) :
    ∃ bs, (inlineLoop neg n raw blocks).2 = blocks ++ bs ∧
      Substituted (inlineValue neg) raw bs (inlineLoop neg n raw blocks).1 := by
  have hno : ∀ s : Str, s.count '@' = 0 → ¬ opening <:+: s := by
    intro s hs h
    have := infix_count_le '@' h
    have h1 : List.count '@' opening = 1 := by decide
    omega
  induction n generalizing raw blocks with
  | zero => exact ⟨[], by simp [inlineLoop], .done (hno _ (by omega))⟩
  | succ n ih =>
    rw [inlineLoop]
    cases hf : findSub c!"${@" raw with
    | none => exact ⟨[], by simp, .done (findSub_none_iff.1 hf)⟩
    | some i =>
      obtain ⟨⟨t, ht⟩, hmin⟩ := findSub_some hf
      have hle := findSub_le hf
      have hs : raw = raw.take i ++ (c!"${@" ++ t) := by rw [ht]; simp
      have hlen : (raw.take i).length = i := by
        have : 0 < c!"${@".length := by decide
        simp; omega
      obtain ⟨p, hp, hsc⟩ := getFullScope_spec c!"${@" t
      have hp' : getFullScope (raw.drop i) 3 '{' '}' = c!"${@" ++ p := by rw [← ht]; exact hp
      simp only [hp']
      have hne : (c!"${@" ++ p) ≠ [] := by simp
      have hrep := replaced_replaceAll (new := inlineValue neg (c!"${@" ++ p)) hne raw
      have hfb : FirstBlock raw (c!"${@" ++ p) :=
        ⟨raw.take i, p, t, hs, fun j hj => hmin j (by omega), hsc, rfl⟩
      have hin : (c!"${@" ++ p) <:+: raw := by
        obtain ⟨u, hu⟩ := hsc.1
        exact ⟨raw.take i, u, by rw [hs, ← hu]; simp [hlen]⟩
      have hlt := replaced_count_lt '@' (inlineValue_count neg p) hrep hin
      obtain ⟨bs, h1, h2⟩ := ih (replaceAll (c!"${@" ++ p) (inlineValue neg (c!"${@" ++ p)) raw)
        (blocks ++ [(c!"${@" ++ p, inlineValue neg (c!"${@" ++ p))]) (by omega)
      refine ⟨(c!"${@" ++ p, inlineValue neg (c!"${@" ++ p)) :: bs, ?_, ?_⟩
      · have h1' := h1
        simp only [List.append_assoc, List.singleton_append] at h1'
        exact h1'
      · exact .step hfb hrep h2

theorem inlineSub_spec (neg : Bool) (raw : Str) :
    Substituted (inlineValue neg) raw (inlineSub neg raw).2 (inlineSub neg raw).1 := by
  obtain ⟨bs, h1, h2⟩ := inlineLoop_spec neg (countC '@' raw) raw [] (Nat.le_refl _)
  simp only [List.nil_append] at h1
  unfold inlineSub
  rw [h1]; exact h2

theorem substituted_no_opening {value : Str → Str} {s out : Str} {bs : List (Str × Str)} (h : Substituted value s bs out) :
    ¬ opening <:+: out := by
  induction h with
  | done h => exact h
  | step _ _ _ ih => exact ih

theorem firstBlock_infix {s blk : Str} (h : FirstBlock s blk) : opening <:+: s ∧ blk <:+: s := by
  obtain ⟨a, p, t, rfl, _, ⟨⟨u, rfl⟩, _⟩, rfl⟩ := h
  exact ⟨⟨a, p ++ u, by simp⟩, ⟨a, u, by simp⟩⟩

theorem substituted_of_no_opening {value : Str → Str} {s out : Str} {bs : List (Str × Str)}
    (h : Substituted value s bs out) (hs : ¬ opening <:+: s) : bs = [] ∧ out = s := by
  cases h with
  | done => exact ⟨rfl, rfl⟩
  | step hf => exact absurd (firstBlock_infix hf).1 hs

theorem substituted_value {value : Str → Str} {s out : Str} {bs : List (Str × Str)}
    (h : Substituted value s bs out) : ∀ b ∈ bs, b.2 = value b.1 := by
  induction h with
  | done => simp
  | step _ _ _ ih => simpa using ih

/-- no known helper in the block ⇒ no replacement -/
theorem inlinerep_none {blk : Str} (neg : Bool) (h : ∀ n ∈ helperNames, ¬ n.toList <:+: blk) :
    inlinerep blk neg = none := by
  have hsub : ∀ n ∈ helperNames, hasSub n.toList (cleanInline blk) = false := by
    intro n hn
    rw [hasSub_false_iff]
    intro hc
    exact h n hn (hc.trans ((rstripP_prefix _ _).isInfix.trans (lstripP_suffix _ _).isInfix))
  unfold inlinerep
  simp only [helperNames, List.mem_cons, List.not_mem_nil, or_false, forall_eq_or_imp, forall_eq] at hsub
  obtain ⟨h1, h2, h3, h4, h5, h6, h7, h8, h9, h10, h11, h12⟩ := hsub
  simp only [List.findSome?_eq_none_iff]
  intro x hx
  simp only [List.mem_cons, List.not_mem_nil, or_false] at hx
  rcases hx with rfl | rfl | rfl | rfl | rfl | rfl | rfl | rfl | rfl | rfl | rfl | rfl
  · exact if_neg (by rw [Bool.not_eq_true]; exact h1)
  · exact if_neg (by rw [Bool.not_eq_true]; exact h2)
  · exact if_neg (by rw [Bool.not_eq_true]; exact h3)
  · exact if_neg (by rw [Bool.not_eq_true]; exact h4)
  · exact if_neg (by rw [Bool.not_eq_true]; exact h5)
  · exact if_neg (by rw [Bool.not_eq_true]; exact h6)
  · exact if_neg (by rw [Bool.not_eq_true]; exact h7)
  · exact if_neg (by rw [Bool.not_eq_true]; exact h8)
  · exact if_neg (by rw [Bool.not_eq_true]; exact h9)
  · exact if_neg (by rw [Bool.not_eq_true]; exact h10)
  · exact if_neg (by rw [Bool.not_eq_true]; exact h11)
  · exact if_neg (by rw [Bool.not_eq_true]; exact h12)

end Oelint

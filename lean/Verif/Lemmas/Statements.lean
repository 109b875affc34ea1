import Verif.Lemmas.ReTools
import Verif.Lemmas.Terminates
import Verif.Lemmas.File
import Verif.Lemmas.Inline
import Verif.Spec.Statements
/-! Which pattern a statement matches. -/
set_option linter.unusedSectionVars false
set_option linter.unusedSimpArgs false
namespace Oelint
variable [Uni]
open Spec

/-! ## two ways to see that a pattern does not match -/

/-- the expression cannot match where `d` comes before the first `e` -/
def Gated (r : Re) (d e : Char) : Prop := ∀ (st t : St) (u v : Str), st.rest = u ++ d :: v → e ∉ u → t ∉ ms r st

theorem gated_lit {p : Str} {b : Re} {d e : Char} (hp : p.head? = some e) (hde : d ≠ e) : Gated (.seq (.lit p) b) d e := by
  intro st t u v hs he ht
  rw [mem_ms_seq] at ht
  obtain ⟨s2, h2, -⟩ := ht
  rw [mem_ms_lit] at h2
  obtain ⟨⟨q, hq⟩, -⟩ := h2
  cases p with
  | nil => cases hp
  | cons x p =>
    simp at hp; subst hp
    rw [hs] at hq
    cases u with
    | nil => simp at hq; exact hde hq.1.symm
    | cons y u => simp at hq; exact he (by simp [hq.1])

theorem gated_seq {a b : Re} {d e : Char} (ha : a.eats d = false) (hb : Gated b d e) : Gated (.seq a b) d e := by
  intro st t u v hs he ht
  rw [mem_ms_seq] at ht
  obtain ⟨s1, h1, h2⟩ := ht
  obtain ⟨w, hw, -, hall⟩ := ms_eats _ _ _ h1
  rw [hs] at hw
  rcases List.append_eq_append_iff.1 hw with ⟨x, h3, h4⟩ | ⟨x, h3, h4⟩
  · cases x with
    | nil => exact hb s1 t [] v (by simpa using h4.symm) (by simp) h2
    | cons y x =>
      simp at h4
      have := hall d (by rw [h3, h4.1]; simp)
      rw [ha] at this; cases this
  · exact hb s1 t x v h4 (fun h => he (by rw [h3]; simp [h])) h2

theorem gated_first {a b : Re} {d e : Char} (ha : Gated a d e) : Gated (.seq a b) d e := by
  intro st t u v hs he ht
  rw [mem_ms_seq] at ht
  obtain ⟨s1, h1, -⟩ := ht
  exact ha st s1 u v hs he h1

theorem gated_grp {r : Re} {n : Nat} {d e : Char} (h : Gated r d e) : Gated (.grp n r) d e := by
  intro st t u v hs he ht
  simp only [ms, List.mem_map] at ht
  obtain ⟨x, hx, -⟩ := ht
  exact h st x u v hs he hx

theorem Gated.none {r : Re} {d e : Char} (h : Gated r d e) {u v : Str} (he : e ∉ u) : reMatch r (u ++ d :: v) = none :=
  reMatch_none_iff.2 (fun t => h _ t u v rfl he)

/-- an expression that cannot match where a name starts -/
def Blocked (r : Re) (n : Str) : Prop :=
  ∀ (st t : St) (v : Str), st.rest = n ++ v → (∀ c ∈ v.head?, ¬ (NameChar c ∧ c ≠ ':' ∧ c ≠ '.')) → t ∉ ms r st

/-- an expression that ends within the name -/
def EndsInside (r : Re) (n : Str) : Prop :=
  ∀ (st t : St) (v : Str), st.rest = n ++ v → (∀ c ∈ v.head?, ¬ (NameChar c ∧ c ≠ ':' ∧ c ≠ '.')) → t ∈ ms r st →
    ∃ c w, t.rest = c :: w ∧ NameChar c

theorem blocked_skip {a b : Re} {n : Str} (hn : n ≠ []) (hc : ∀ c ∈ n, NameChar c) (ha : ∀ c, NameChar c → a.first c = false)
    (hb : Blocked b n) : Blocked (.seq a b) n := by
  intro st t v hs hv ht
  rw [mem_ms_seq] at ht
  obtain ⟨s1, h1, h2⟩ := ht
  by_cases hp : st.pos < s1.pos
  · obtain ⟨c, u, e, hf⟩ := ms_first _ _ _ h1 hp
    cases n with
    | nil => exact hn rfl
    | cons x n =>
      rw [hs] at e
      simp at e
      rw [ha c (hc c (by simp [e.1]))] at hf
      cases hf
  · obtain ⟨w, hw, p, -⟩ := ms_eats _ _ _ h1
    have : w = [] := List.eq_nil_of_length_eq_zero (by omega)
    subst this
    exact hb s1 t v (by rw [← hs, hw]; rfl) hv h2

theorem blocked_seq {a b : Re} {n : Str} (ha : EndsInside a n) (hb : ∀ c, NameChar c → b.first c = false)
    (hn : b.nullable = false) : Blocked (.seq a b) n := by
  intro st t v hs hv ht
  rw [mem_ms_seq] at ht
  obtain ⟨s1, h1, h2⟩ := ht
  obtain ⟨c, w, e, hcn⟩ := ha _ _ v hs hv h1
  obtain ⟨c', u, e', hf⟩ := ms_first _ _ _ h2 (ms_progress _ hn _ _ h2)
  rw [e] at e'
  cases e'
  rw [hb _ hcn] at hf
  cases hf

theorem blocked_tail {a b c : Re} {n : Str} (h : Blocked (.seq a b) n) : Blocked (.seq a (.seq b c)) n := by
  intro st t v hs hv ht
  rw [mem_ms_seq] at ht
  obtain ⟨s1, h1, h2⟩ := ht
  rw [mem_ms_seq] at h2
  obtain ⟨s2, h2, -⟩ := h2
  exact h st s2 v hs hv (mem_ms_seq.2 ⟨s1, h1, h2⟩)

/-- letters and `_` -/
def KwChar (c : Char) : Prop := NameChar c ∧ c ≠ ':' ∧ c ≠ '.'

theorem prefix_inside {kw n v q : Str} (hkw : ∀ c ∈ kw, KwChar c) (hv : ∀ c ∈ v.head?, ¬ KwChar c)
    (h : kw ++ q = n ++ v) : ∃ m, n = kw ++ m ∧ q = m ++ v := by
  rcases List.append_eq_append_iff.1 h with ⟨x, h3, h4⟩ | ⟨x, h3, h4⟩
  · exact ⟨x, h3, h4⟩
  · cases x with
    | nil => exact ⟨[], by simpa using h3.symm, by simpa using h4.symm⟩
    | cons y x =>
      exact absurd (hkw y (by rw [h3]; simp)) (hv y (by rw [h4]; simp))

theorem endsInside_lit {kw n : Str} (hkw : ∀ c ∈ kw, KwChar c) (hc : ∀ c ∈ n, NameChar c) (hn : n ≠ kw) :
    EndsInside (.lit kw) n := by
  intro st t v hs hv ht
  rw [mem_ms_lit] at ht
  obtain ⟨⟨q, hq⟩, rfl⟩ := ht
  obtain ⟨m, h1, h2⟩ := prefix_inside hkw hv (hq.trans hs)
  cases m with
  | nil => exact absurd (by simpa using h1) hn
  | cons c m => exact ⟨c, m ++ v, by simp [← hq, h2], hc c (by rw [h1]; simp)⟩

theorem endsInside_grp {r : Re} {k : Nat} {n : Str} (h : EndsInside r n) : EndsInside (.grp k r) n := by
  intro st t v hs hv ht
  simp only [ms, List.mem_map] at ht
  obtain ⟨x, hx, rfl⟩ := ht
  exact h st x v hs hv hx

theorem endsInside_alt {a b : Re} {n : Str} (ha : EndsInside a n) (hb : EndsInside b n) : EndsInside (.alt a b) n := by
  intro st t v hs hv ht
  rw [mem_ms_alt] at ht
  rcases ht with ht | ht
  · exact ha st t v hs hv ht
  · exact hb st t v hs hv ht

theorem Blocked.none {r : Re} {n v : Str} (h : Blocked r n) (hv : ∀ c ∈ v.head?, ¬ KwChar c) :
    reMatch r (n ++ v) = none := reMatch_none_iff.2 (fun t => h _ t v rfl hv)

/-- `inherit` with any number of `_defer` -/
theorem endsInside_inherit {n : Str} (hc : ∀ c ∈ n, NameChar c)
    (hd : ∀ k : Nat, n ≠ c!"inherit" ++ (List.replicate k c!"_defer").flatten) (g g' : Nat) :
    EndsInside (.grp g (.seq (.lit c!"inherit") (.star true (.grp g' (.lit c!"_defer"))))) n := by
  refine endsInside_grp ?_
  intro st t v hs hv ht
  rw [mem_ms_seq] at ht
  obtain ⟨s1, h1, h2⟩ := ht
  rw [mem_ms_lit] at h1
  obtain ⟨⟨q, hq⟩, rfl⟩ := h1
  have h3 : ∃ k : Nat, (st.rest.drop (c!"inherit" : Str).length) = (List.replicate k c!"_defer").flatten ++ t.rest := by
    simp only [ms] at h2
    refine iter_mem (R := fun s t => ∃ k : Nat, s.rest = (List.replicate k c!"_defer").flatten ++ t.rest)
      (fun s => ⟨0, by simp⟩) ?_ ?_ _ _ _ h2
    · rintro a b c ⟨k, hk⟩ ⟨l, hl⟩
      exact ⟨k + l, by rw [hk, hl, ← List.append_assoc, ← List.flatten_append, List.replicate_append_replicate]⟩
    · intro s u hu
      simp only [List.mem_map] at hu
      obtain ⟨x, hx, rfl⟩ := hu
      split at hx
      · rename_i hp
        simp at hx
        subst hx
        obtain ⟨q, hq⟩ := List.isPrefixOf_iff_prefix.1 hp
        exact ⟨1, by simp [← hq]⟩
      · simp at hx
  obtain ⟨k, hk⟩ := h3
  have hq' : q = (List.replicate k c!"_defer").flatten ++ t.rest := by
    rw [← hk, ← hq]; simp
  have hall : ∀ c ∈ c!"inherit" ++ (List.replicate k c!"_defer").flatten, KwChar c := by
    intro c hc
    have h4 : c ∈ c!"inherit" ∨ c ∈ c!"_defer" := by
      rcases List.mem_append.1 hc with h | h
      · exact Or.inl h
      · obtain ⟨l, hl, hcl⟩ := List.mem_flatten.1 h
        rw [List.mem_replicate] at hl
        rw [hl.2] at hcl
        exact Or.inr hcl
    have : ∀ c ∈ c!"inherit_defer", KwChar c := by unfold KwChar; decide
    refine this c ?_
    rcases h4 with h4 | h4 <;> (simp at h4 ⊢; grind)
  obtain ⟨m, h5, h6⟩ := prefix_inside (q := t.rest) hall hv (by rw [List.append_assoc, ← hq', hq, hs])
  cases m with
  | nil => exact absurd (by simpa using h5) (hd k)
  | cons c m => exact ⟨c, m ++ v, h6, hc c (by rw [h5]; simp)⟩

/-! ## the patterns before the one for variables -/

theorem nameChar_not_space {c : Char} (h : NameChar c) : reSpace c = false ∧ c ≠ '#' := by
  have e : ∀ a b : Char, (a ≤ b) = (a.toNat ≤ b.toNat) := fun a b => by
    simp [Char.le_def, UInt32.le_iff_toNat_le]
  unfold NameChar at h
  simp only [e, List.mem_cons, List.not_mem_nil, or_false] at h
  constructor
  · rcases h with h | h | h | h | h | h | h | h | h | h
    · simp at h; simp [reSpace]; omega
    · simp at h; simp [reSpace]; omega
    · simp at h; simp [reSpace]; omega
    all_goals subst h; decide
  · rintro rfl
    revert h; decide

theorem nameChar_ne_tab {c : Char} (h : NameChar c) : ¬ '\t' = c := by
  rintro rfl
  revert h; decide

/-- the expression cannot start with a character of a name -/
macro "nostart" : tactic => `(tactic| (intro c h; have h1 := (nameChar_not_space h).1; have h2 := nameChar_ne_tab h; have h3 := (nameChar_not_space h).2.symm; simp [Re.first, Re.nullable, CItem.test, h1, h2, h3]))

section
variable {n v : Str} (hn : AssignName n) (hv : ∀ c ∈ v.head?, ¬ KwChar c)
include hn hv

theorem not_comments : reMatch reComments.re (n ++ v) = none := by
  obtain ⟨c, t, rfl⟩ : ∃ c t, n = c :: t := List.exists_cons_of_ne_nil hn.ne
  refine reMatch_none_first rfl ?_
  have : ∀ c, NameChar c → reComments.re.first c = false := by unfold reComments; nostart
  exact this c (hn.chars c (by simp))

theorem not_inherit : reMatch reInherit.re (n ++ v) = none := by
  refine Blocked.none (blocked_skip hn.ne hn.chars ?_ (blocked_skip hn.ne hn.chars ?_ (blocked_tail (blocked_seq ?_ ?_ rfl)))) hv
  · nostart
  · nostart
  · exact endsInside_inherit hn.chars hn.defer _ _
  · nostart

theorem ne_keyword {k : Str} (h : k ∈ keywords) : n ≠ k := fun e => hn.keyword (e ▸ h)

theorem inside_keyword {k : Str} (h : k ∈ keywords) : EndsInside (.lit k) n :=
  endsInside_lit (by revert h; revert k; unfold KwChar; decide) hn.chars (ne_keyword hn hv h)

theorem not_exportWval : reMatch reExportWval.re (n ++ v) = none := by
  refine Blocked.none (blocked_skip hn.ne hn.chars ?_ (blocked_skip hn.ne hn.chars ?_ (blocked_tail (blocked_seq ?_ ?_ rfl)))) hv
  · nostart
  · nostart
  · exact inside_keyword hn hv (by decide)
  · nostart

theorem not_exportWoval : reMatch reExportWoval.re (n ++ v) = none := by
  refine Blocked.none (blocked_skip hn.ne hn.chars ?_ (blocked_skip hn.ne hn.chars ?_ (blocked_tail (blocked_seq ?_ ?_ rfl)))) hv
  · nostart
  · nostart
  · exact inside_keyword hn hv (by decide)
  · nostart

theorem not_python : reMatch rePython.re (n ++ v) = none := by
  refine Blocked.none (blocked_skip hn.ne hn.chars ?_ (blocked_skip hn.ne hn.chars ?_ (blocked_tail (blocked_seq ?_ ?_ rfl)))) hv
  · nostart
  · nostart
  · exact inside_keyword hn hv (by decide)
  · nostart

theorem not_include : reMatch reInclude.re (n ++ v) = none := by
  refine Blocked.none (blocked_skip hn.ne hn.chars ?_ (blocked_skip hn.ne hn.chars ?_ (blocked_tail (blocked_seq ?_ ?_ rfl)))) hv
  · nostart
  · nostart
  · exact endsInside_grp (endsInside_alt (inside_keyword hn hv (by decide)) (inside_keyword hn hv (by decide)))
  · nostart

theorem not_includeall : reMatch reIncludeall.re (n ++ v) = none := by
  refine Blocked.none (blocked_tail (blocked_seq ?_ ?_ rfl)) hv
  · exact inside_keyword hn hv (by decide)
  · nostart

theorem not_addtask : reMatch reAddtask.re (n ++ v) = none := by
  refine Blocked.none (blocked_skip hn.ne hn.chars ?_ (blocked_skip hn.ne hn.chars ?_ (blocked_tail (blocked_seq ?_ ?_ rfl)))) hv
  · nostart
  · nostart
  · exact inside_keyword hn hv (by decide)
  · nostart

theorem not_deltask : reMatch reDeltask.re (n ++ v) = none := by
  refine Blocked.none (blocked_skip hn.ne hn.chars ?_ (blocked_skip hn.ne hn.chars ?_ (blocked_tail (blocked_seq ?_ ?_ rfl)))) hv
  · nostart
  · nostart
  · exact inside_keyword hn hv (by decide)
  · nostart

theorem not_unset : reMatch reUnset.re (n ++ v) = none := by
  refine Blocked.none (blocked_skip hn.ne hn.chars ?_ (blocked_skip hn.ne hn.chars ?_ (blocked_tail (blocked_seq ?_ ?_ rfl)))) hv
  · nostart
  · nostart
  · exact inside_keyword hn hv (by decide)
  · nostart

theorem not_exportFunc : reMatch reExportFunc.re (n ++ v) = none := by
  refine Blocked.none (blocked_skip hn.ne hn.chars ?_ (blocked_tail (blocked_seq ?_ ?_ rfl))) hv
  · nostart
  · exact inside_keyword hn hv (by decide)
  · nostart

theorem not_addpylib : reMatch reAddpylib.re (n ++ v) = none := by
  refine Blocked.none (blocked_skip hn.ne hn.chars ?_ (blocked_skip hn.ne hn.chars ?_ (blocked_tail (blocked_seq ?_ ?_ rfl)))) hv
  · nostart
  · nostart
  · exact inside_keyword hn hv (by decide)
  · nostart

theorem not_addfragments : reMatch reAddfragments.re (n ++ v) = none := by
  refine Blocked.none (blocked_tail (blocked_seq ?_ ?_ rfl)) hv
  · exact inside_keyword hn hv (by decide)
  · nostart

end

/-- the texts before the first `=` in which no function and no flag can be found -/
theorem not_func {u v : Str} (h : '(' ∉ u) : reMatch reFunc.re (u ++ '=' :: v) = none := by
  refine Gated.none (e := '(') (gated_seq rfl (gated_seq rfl (gated_seq ?_ (gated_seq rfl (gated_lit rfl (by decide)))))) h
  simp [Re.eats, CItem.test, isWord]

theorem not_flagass {u v : Str} (h : '[' ∉ u) : reMatch reFlagass.re (u ++ '=' :: v) = none :=
  Gated.none (e := '[') (gated_seq rfl (gated_seq rfl (gated_seq rfl (gated_lit rfl (by decide))))) h

/-- the expression for an operator -/
def opRe (g1 g2 g3 g4 : Nat) : Re :=
  .seq (.star true (.grp g1 (.alt (.cls false [.space]) (.lit c!"\t"))))
    (.seq (.star true (.grp g2 (.alt (.lit c!"+") (.alt (.lit c!"?") (.alt (.lit c!":") (.lit c!"."))))))
      (.seq (.lit c!"=") (.seq (.star true (.grp g3 (.alt (.lit c!"+") (.lit c!"."))))
        (.star true (.grp g4 (.alt (.cls false [.space]) (.lit c!"\t")))))))

theorem eats_blank {c : Char} (h : NameChar c) (g : Nat) :
    (Re.star true (.grp g (.alt (.cls false [.space]) (.lit c!"\t")))).eats c = false := by
  simp [Re.eats, CItem.test, (nameChar_not_space h).1, Ne.symm (nameChar_ne_tab h)]

theorem eats_pre {c : Char} (h : NameChar c) (h1 : c ≠ ':') (h2 : c ≠ '.') (g : Nat) :
    (Re.star true (.grp g (.alt (.lit c!"+") (.alt (.lit c!"?") (.alt (.lit c!":") (.lit c!".")))))).eats c = false := by
  have h3 : c ≠ '+' := by rintro rfl; revert h; decide
  have h4 : c ≠ '?' := by rintro rfl; revert h; decide
  simp [Re.eats, h1, h2, h3, h4]

theorem gated_op {c : Char} (h : NameChar c) (h1 : c ≠ ':') (h2 : c ≠ '.') (g1 g2 g3 g4 : Nat) :
    Gated (opRe g1 g2 g3 g4) c '=' := by
  refine gated_seq (eats_blank h _) (gated_seq (eats_pre h h1 h2 _) (gated_lit rfl ?_))
  rintro rfl; revert h; decide

theorem assignName_last {n : Str} (hn : AssignName n) : ∃ i z, n = i ++ [z] ∧ NameChar z ∧ z ≠ ':' ∧ z ≠ '.' := by
  have h : n = n.dropLast ++ [n.getLast hn.ne] := (List.dropLast_append_getLast hn.ne).symm
  refine ⟨n.dropLast, n.getLast hn.ne, h, hn.chars _ (List.getLast_mem _), ?_, ?_⟩
  · intro e; exact hn.last.1 (by rw [List.getLast?_eq_some_getLast hn.ne, e])
  · intro e; exact hn.last.2 (by rw [List.getLast?_eq_some_getLast hn.ne, e])

theorem nameChar_ne_eq {c : Char} (h : NameChar c) : c ≠ '=' := by rintro rfl; revert h; decide

theorem not_inheritGlob {n v : Str} (hn : AssignName n) (hv : ∀ c ∈ v.head?, ¬ KwChar c) :
    reMatch reInheritGlob.re (n ++ v) = none := by
  rw [reMatch_none_iff]
  intro t ht
  have h0 : t ∈ ms (.seq .bos (.seq (.lit c!"INHERIT") (.seq (.grp 1 (opRe 2 3 4 5)) (.seq (.grp 6 (.alt (.lit c!"'") (.lit c!"\""))) (.seq (.grp 7 (.star true .any)) (.grp 8 (.alt (.lit c!"'") (.lit c!"\""))))))))
    ⟨0, n ++ v, []⟩ := ht
  rw [mem_ms_seq] at h0
  obtain ⟨s1, h1, h2⟩ := h0
  rw [mem_ms_bos] at h1
  obtain ⟨-, rfl⟩ := h1
  rw [mem_ms_seq] at h2
  obtain ⟨s2, h1, h2⟩ := h2
  rw [mem_ms_lit] at h1
  obtain ⟨⟨q, hq⟩, rfl⟩ := h1
  obtain ⟨m, h3, h4⟩ := prefix_inside (by unfold KwChar; decide) hv hq
  have hm : m ≠ [] := by
    rintro rfl
    exact hn.keyword (by simp at h3; rw [h3]; decide)
  obtain ⟨i, z, hz, h5, h6, h7⟩ := assignName_last hn
  have hmz : m = m.dropLast ++ [z] := by
    conv => lhs; rw [← List.dropLast_append_getLast hm]
    congr 2
    have e : n.getLast? = some z := by rw [hz]; simp
    rw [h3, List.getLast?_append_of_ne_nil _ hm, List.getLast?_eq_some_getLast hm] at e
    simpa using e
  refine gated_first (gated_grp (gated_op h5 h6 h7 2 3 4 5)) _ t m.dropLast v ?_ ?_ h2
  · show List.drop _ (n ++ v) = _
    rw [show n ++ v = c!"INHERIT" ++ (m ++ v) by rw [h3, List.append_assoc], List.drop_left]
    conv => lhs; rw [hmz]
    simp
  · intro h
    exact nameChar_ne_eq (hn.chars '=' (by rw [h3]; exact List.mem_append_right _ (List.mem_of_mem_dropLast h))) rfl

/-! ## the pattern for variables -/

theorem charRe_blank : CharRe (.alt (.cls false [.space]) (.lit c!"\t")) reSpace := by
  refine (charRe_alt (charRe_cls false [.space]) (charRe_lit '\t')).congr ?_
  intro x
  by_cases h : x = '\t'
  · subst h; rfl
  · simp [CItem.test, h]

/-- the characters before and after the `=` of an operator -/
def preOp (c : Char) : Bool := c == '+' || c == '?' || c == ':' || c == '.'
def postOp (c : Char) : Bool := c == '+' || c == '.'

theorem charRe_pre : CharRe (.alt (.lit c!"+") (.alt (.lit c!"?") (.alt (.lit c!":") (.lit c!".")))) preOp :=
  (charRe_alt (charRe_lit '+') (charRe_alt (charRe_lit '?') (charRe_alt (charRe_lit ':') (charRe_lit '.')))).congr
    (fun x => by simp [preOp, Bool.or_assoc])

theorem charRe_post : CharRe (.alt (.lit c!"+") (.lit c!".")) postOp :=
  (charRe_alt (charRe_lit '+') (charRe_lit '.')).congr (fun x => by simp [postOp])

/-- the test for the characters of names in the patterns -/
def nameTest (c : Char) : Bool :=
  [CItem.range 'A' 'Z', .range '0' '9', .range 'a' 'z', .one '_', .one '.', .one '-'].any (·.test c)
    || (c == '$' || (c == '{' || (c == '}' || c == ':')))

theorem charRe_name : CharRe (.alt (.cls false [.range 'A' 'Z', .range '0' '9', .range 'a' 'z', .one '_', .one '.', .one '-'])
    (.alt (.lit c!"$") (.alt (.lit c!"{") (.alt (.lit c!"}") (.lit c!":"))))) nameTest :=
  (charRe_alt (charRe_cls _ _) (charRe_alt (charRe_lit '$') (charRe_alt (charRe_lit '{') (charRe_alt (charRe_lit '}')
    (charRe_lit ':'))))).congr (fun x => by simp [nameTest])

theorem nameTest_iff {c : Char} : nameTest c = true ↔ NameChar c := by
  have e : ∀ a b : Char, (a ≤ b) = (a.toNat ≤ b.toNat) := fun a b => by
    simp [Char.le_def, UInt32.le_iff_toNat_le]
  simp [nameTest, NameChar, CItem.test, e]
  grind

/-- an operator with blanks, as the patterns see it -/
structure IsOp (ws1 pre post ws2 val : Str) : Prop where
  blanks1 : ∀ c ∈ ws1, reSpace c = true
  pre : ∀ c ∈ pre, preOp c = true
  post : ∀ c ∈ post, postOp c = true
  blanks2 : ∀ c ∈ ws2, reSpace c = true
  valHead : ∀ c u, val = c :: u → reSpace c = false
  postEnd : ∀ c u, ws2 ++ val = c :: u → postOp c = false

theorem run_op {α : Type} {ws1 pre post ws2 val : Str} (h : IsOp ws1 pre post ws2 val) (g1 g2 g3 g4 : Nat) (k : St → Option α)
    (pos : Nat) (caps : List (Nat × Str))
    (hk : ∀ pos caps, (k ⟨pos, val, caps⟩).isSome) :
    run (opRe g1 g2 g3 g4) k ⟨pos, ws1 ++ (pre ++ '=' :: (post ++ (ws2 ++ val))), caps⟩ =
      k ⟨pos + (ws1 ++ (pre ++ '=' :: (post ++ ws2))).length, val,
        pushes g4 ws2 (pushes g3 post (pushes g2 pre (pushes g1 ws1 caps)))⟩ := by
  have k4 : ∀ pos caps, run (.star true (.grp g4 (.alt (.cls false [.space]) (.lit c!"\t")))) k ⟨pos, ws2 ++ val, caps⟩ =
      k ⟨pos + ws2.length, val, pushes g4 ws2 caps⟩ := fun pos caps =>
    run_star_grp_greedy charRe_blank k pos ws2 val caps h.blanks2 h.valHead (hk _ _)
  have k3 : ∀ pos caps, run (.seq (.star true (.grp g3 (.alt (.lit c!"+") (.lit c!"."))))
      (.star true (.grp g4 (.alt (.cls false [.space]) (.lit c!"\t"))))) k ⟨pos, post ++ (ws2 ++ val), caps⟩ =
      k ⟨pos + post.length + ws2.length, val, pushes g4 ws2 (pushes g3 post caps)⟩ := by
    intro pos caps
    rw [run_seq, run_star_grp_greedy charRe_post _ pos post (ws2 ++ val) caps h.post h.postEnd, k4]
    rw [k4]; exact hk _ _
  have k2 : ∀ pos caps, run (.seq (.lit c!"=") (.seq (.star true (.grp g3 (.alt (.lit c!"+") (.lit c!"."))))
      (.star true (.grp g4 (.alt (.cls false [.space]) (.lit c!"\t")))))) k ⟨pos, '=' :: (post ++ (ws2 ++ val)), caps⟩ =
      k ⟨pos + 1 + post.length + ws2.length, val, pushes g4 ws2 (pushes g3 post caps)⟩ := by
    intro pos caps
    rw [run_seq]
    have := run_lit_append c!"=" (run (.seq (.star true (.grp g3 (.alt (.lit c!"+") (.lit c!"."))))
      (.star true (.grp g4 (.alt (.cls false [.space]) (.lit c!"\t"))))) k) pos (post ++ (ws2 ++ val)) caps
    simp only [List.cons_append, List.nil_append] at this
    rw [this, k3]; rfl
  have k1 : ∀ pos caps, run (.seq (.star true (.grp g2 (.alt (.lit c!"+") (.alt (.lit c!"?") (.alt (.lit c!":") (.lit c!"."))))))
      (.seq (.lit c!"=") (.seq (.star true (.grp g3 (.alt (.lit c!"+") (.lit c!"."))))
      (.star true (.grp g4 (.alt (.cls false [.space]) (.lit c!"\t"))))))) k
      ⟨pos, pre ++ ('=' :: (post ++ (ws2 ++ val))), caps⟩ =
      k ⟨pos + pre.length + 1 + post.length + ws2.length, val, pushes g4 ws2 (pushes g3 post (pushes g2 pre caps))⟩ := by
    intro pos caps
    rw [run_seq, run_star_grp_greedy charRe_pre _ pos pre _ caps h.pre, k2]
    · intro c u e; cases e; rfl
    · rw [k2]; exact hk _ _
  have hhead : ∀ c u, pre ++ ('=' :: (post ++ (ws2 ++ val))) = c :: u → reSpace c = false := by
    intro c u e
    cases hp : pre with
    | nil => rw [hp] at e; cases e; rfl
    | cons x p =>
      rw [hp] at e; cases e
      have := h.pre c (by rw [hp]; simp)
      simp [preOp] at this
      rcases this with ((rfl | rfl) | rfl) | rfl <;> rfl
  rw [opRe, run_seq, run_star_grp_greedy charRe_blank _ pos ws1 _ caps h.blanks1 hhead, k1]
  · congr 2
    simp; omega
  · rw [k1]; exact hk _ _

/-- name characters before anything else: the operator does not match within the name -/
theorem op_none {α : Type} {n w : Str} {k : St → Option α} (hn : AssignName n) (hw : w ≠ []) (hs : ∃ i, n = i ++ w) (g g1 g2 g3 g4 : Nat)
    (r : Re) (pos : Nat) (v : Str) (caps : List (Nat × Str)) :
    run (.seq (.grp g (opRe g1 g2 g3 g4)) r) k ⟨pos, w ++ v, caps⟩ = none := by
  rw [run_none]
  intro t ht
  exfalso
  obtain ⟨i, hi⟩ := hs
  obtain ⟨j, z, hz, h5, h6, h7⟩ := assignName_last hn
  have hmz : w = w.dropLast ++ [z] := by
    conv => lhs; rw [← List.dropLast_append_getLast hw]
    congr 2
    have e : n.getLast? = some z := by rw [hz]; simp
    rw [hi, List.getLast?_append_of_ne_nil _ hw, List.getLast?_eq_some_getLast hw] at e
    simpa using e
  refine gated_first (gated_grp (gated_op h5 h6 h7 g1 g2 g3 g4)) _ t w.dropLast v ?_ ?_ ht
  · show w ++ v = _
    conv => lhs; rw [hmz]
    simp
  · intro h
    exact nameChar_ne_eq (hn.chars '=' (by rw [hi]; exact List.mem_append_right _ (List.mem_of_mem_dropLast h))) rfl

theorem reVar_match {n ws1 pre post ws2 val : Str} (hn : AssignName n) (h : IsOp ws1 pre post ws2 val) (hnl : '\n' ∉ val) :
    ∃ m, reMatch reVar.re (n ++ (ws1 ++ (pre ++ '=' :: (post ++ (ws2 ++ val))))) = some m ∧
      reVar.group m c!"varname" = some n ∧ reVar.group m c!"varop" = some (ws1 ++ (pre ++ '=' :: (post ++ ws2))) ∧
      reVar.group m c!"varval" = some val := by
  obtain ⟨c0, n', e⟩ : ∃ c t, n = c :: t := List.exists_cons_of_ne_nil hn.ne
  have hshape : reVar.re = .seq .bos (.seq (.grp 1 (.seq (.grp 2 (.alt (.cls false [.range 'A' 'Z', .range '0' '9', .range 'a' 'z', .one '_', .one '.', .one '-'])
    (.alt (.lit c!"$") (.alt (.lit c!"{") (.alt (.lit c!"}") (.lit c!":"))))))
    (.star false (.grp 2 (.alt (.cls false [.range 'A' 'Z', .range '0' '9', .range 'a' 'z', .one '_', .one '.', .one '-'])
    (.alt (.lit c!"$") (.alt (.lit c!"{") (.alt (.lit c!"}") (.lit c!":")))))))))
    (.seq (.grp 3 (opRe 4 5 6 7)) (.grp 8 (.star true .any)))) := rfl
  generalize hL : n ++ (ws1 ++ (pre ++ '=' :: (post ++ (ws2 ++ val)))) = L
  generalize hk : (fun t => some (mkMt ⟨0, L, []⟩ t)) = kf
  have hkf : ∀ t, kf t = some (mkMt ⟨0, L, []⟩ t) := fun t => by rw [← hk]
  have k8 : ∀ pos caps, run (.grp 8 (.star true .any)) kf ⟨pos, val, caps⟩ =
      some (mkMt ⟨0, L, []⟩ ⟨pos + val.length, [], (8, val) :: caps⟩) := by
    intro pos caps
    rw [run_grp]
    have := run_star_greedy_all charRe_any (fun t => kf ⟨t.pos, t.rest, (8, val.take (t.pos - pos)) :: t.caps⟩) pos val [] caps
      (by intro c hc; simp; rintro rfl; exact hnl hc) (by simp) (by rw [hkf]; rfl)
    simp only [List.append_nil] at this
    rw [this, hkf]; simp
  have k3 : ∀ pos caps, run (.seq (.grp 3 (opRe 4 5 6 7)) (.grp 8 (.star true .any))) kf
      ⟨pos, ws1 ++ (pre ++ '=' :: (post ++ (ws2 ++ val))), caps⟩ =
      some (mkMt ⟨0, L, []⟩ ⟨pos + (ws1 ++ (pre ++ '=' :: (post ++ ws2))).length + val.length, [],
        (8, val) :: (3, ws1 ++ (pre ++ '=' :: (post ++ ws2))) :: pushes 7 ws2 (pushes 6 post (pushes 5 pre (pushes 4 ws1 caps)))⟩) := by
    intro pos caps
    rw [run_seq, run_grp, run_op h]
    · simp only [k8]
      congr 4
      rw [show ws1 ++ (pre ++ '=' :: (post ++ (ws2 ++ val))) = (ws1 ++ (pre ++ '=' :: (post ++ ws2))) ++ val by simp]
      rw [Nat.add_sub_cancel_left, List.take_left]
    · intro pos caps; simp only [k8]; rfl
  have hc : ∀ c ∈ n, nameTest c = true := fun c hc => nameTest_iff.2 (hn.chars c hc)
  rw [reMatch_eq_run, hk, hshape, run_seq, run_bos, if_pos rfl, run_seq, run_grp, run_seq, ← hL]
  rw [e, List.cons_append, run_grp_char charRe_name]
  simp only [hc c0 (by rw [e]; simp), if_true]
  rw [run_star_grp_lazy charRe_name]
  · simp only [k3]
    refine ⟨_, rfl, ?_, ?_, ?_⟩
    · show Mt.group _ 1 = _
      simp only [Mt.group, mkMt, List.find?_cons]
      simp only [show ((8 : Nat) == 1) = false from rfl, show ((3 : Nat) == 1) = false from rfl]
      rw [find_pushes (by decide), find_pushes (by decide), find_pushes (by decide), find_pushes (by decide)]
      simp [Nat.add_comm 1]
    · show Mt.group _ 3 = _
      simp [Mt.group, mkMt]
    · show Mt.group _ 8 = _
      simp [Mt.group, mkMt]
  · intro c hc'; exact hc c (by rw [e]; simp [hc'])
  · intro w1 w2 pos caps he hne
    exact op_none hn hne ⟨c0 :: w1, by rw [e, he]; rfl⟩ 3 4 5 6 7 _ _ _ _
  · simp only [k3]; rfl

/-! ## from items to patterns -/

theorem cntOf_eq (raw : Str) : cntOf raw = (raw.filter (· != '\n')).map (fun c => if c = '\\' then esc else c) := by
  unfold cntOf
  rw [replaceAll_char, replaceAll_char]
  induction raw with
  | nil => rfl
  | cons c t ih =>
    by_cases h : c = '\n'
    · simp [h, ih]
    · simp only [List.flatMap_cons, if_neg h, List.singleton_append, List.flatMap_append, ih, List.filter_cons]
      by_cases h2 : c = '\\' <;> simp [h, h2]

theorem cntOf_line {line nl : Str} (hnl : nl = [] ∨ nl = c!"\n") (h1 : '\n' ∉ line) (h2 : '\\' ∉ line) :
    cntOf (line ++ nl) = line := by
  rw [cntOf_eq, List.filter_append]
  have e1 : line.filter (· != '\n') = line := by
    rw [List.filter_eq_self]; intro c hc; simp; rintro rfl; exact h1 hc
  have e2 : nl.filter (· != '\n') = [] := by rcases hnl with rfl | rfl <;> rfl
  rw [e1, e2, List.append_nil]
  conv => rhs; rw [← List.map_id line]
  refine List.map_congr_left ?_
  intro c hc
  rw [if_neg (by rintro rfl; exact h2 hc)]; rfl

theorem traced_classify {W : World} {add : AddFn} {file : Str} {lo off : Int} {ns : Bool} {cs : List Chunk} {its : List Item}
    (h : Traced W add file lo off ns cs its) {it : Item} (hi : it ∈ its) :
    ∃ c ∈ cs, ∃ off' ns' s s' d,
      classify W add file c.line (chunkParams file lo off' ns' c) c.cnt parseOrder s = (.ok (it, d), s') := by
  induction h with
  | nil => cases hi
  | @cons off d ns c cs x its s s' h1 h2 ih =>
    rcases List.mem_cons.1 hi with rfl | hi
    · exact ⟨c, by simp, off, ns, s, s', d, h1⟩
    · obtain ⟨c', hc', r⟩ := ih hi
      exact ⟨c', List.mem_cons_of_mem _ hc', r⟩

/-- every item is what the loop over the patterns makes of its text -/
theorem FileOk.classified {W : World} {fuel : Nat} {file t : Str} {off : Int} {ns neg : Bool} {res : List Item}
    (h : FileOk W fuel file t off ns neg res) {it : Item} (hi : it ∈ res) :
    ∃ line p s s' d it0, classify W (addFile W fuel) file line p (cntOf it.raw) parseOrder s = (.ok (it0, d), s') ∧
      it = { it0 with line := it0.line + h.mx } ∧ Substituted (inlineValue neg) it.realRaw it.inlineBlocks it.raw := by
  have hi' := hi
  rw [h.res_eq] at hi'
  simp only [shiftLines, List.mem_map] at hi'
  obtain ⟨x, hx, rfl⟩ := hi'
  obtain ⟨c, hc, off', ns', s, s', d, h1⟩ := traced_classify h.traced hx
  obtain ⟨hp, -, -⟩ := classify_post W _ file (addPos_addFile W fuel) _ _ _ _ _ _ _ h1
  have hne := h.realraw_ne c hc
  obtain ⟨g, hg, k, rfl⟩ := chunksFrom_mem hc
  refine ⟨(mkChunk off k neg g.flatten).line, chunkParams file off off' ns' (mkChunk off k neg g.flatten), s, s', d, x, ?_, rfl, ?_⟩
  · have : x.raw = (mkChunk off k neg g.flatten).raw := hp.raw
    simp only [this]
    exact h1
  · have e1 : x.raw = (inlineSub neg g.flatten).1 := hp.raw
    have e2 : x.realRaw = g.flatten := by
      have := hp.realRaw
      have h0 : ¬ (chunkParams file off off' ns' (mkChunk off k neg g.flatten)).realraw.isEmpty = true :=
        fun h0 => hne (List.isEmpty_iff.1 h0)
      rw [if_neg h0] at this
      exact this
    have e3 : x.inlineBlocks = (inlineSub neg g.flatten).2 := hp.inlineBlocks
    simp only [e1, e2, e3]
    exact inlineSub_spec neg g.flatten

theorem substituted_none {value : Str → Str} {s out : Str} {bs : List (Str × Str)} (h : Substituted value s bs out)
    (hno : ¬ opening <:+: s) : out = s ∧ bs = [] := by
  cases h with
  | done => exact ⟨rfl, rfl⟩
  | step hfb =>
    obtain ⟨a, p, t, e, -⟩ := hfb
    exact absurd ⟨a, t, by rw [e]; simp⟩ hno

theorem substituted_prefix {value : Str → Str} {s out : Str} {bs : List (Str × Str)} (h : Substituted value s bs out)
    {p r : Str} (hs : s = p ++ r) (hp : '$' ∉ p) : ∃ r', out = p ++ r' := by
  induction h generalizing r with
  | done => exact ⟨r, hs⟩
  | @step s s' blk out bs hfb hrep hsub ih =>
    obtain ⟨a0, p0, t0, -, -, -, hblk⟩ := hfb
    have hrest : ∃ r1, s' = p ++ r1 := by
      cases hrep with
      | none => exact ⟨r, hs⟩
      | @some a b b' _ _ =>
        rcases List.append_eq_append_iff.1 hs with ⟨x, h3, h4⟩ | ⟨x, h3, h4⟩
        · cases x with
          | nil => exact ⟨value blk ++ b', by rw [h3]; simp⟩
          | cons y x =>
            rw [hblk, opening] at h4
            simp at h4
            exact absurd (by rw [h3, ← h4.1]; simp) hp
        · exact ⟨x ++ (value blk ++ b'), by rw [h3]; simp⟩
    obtain ⟨r1, h1⟩ := hrest
    exact ih h1

/-! ## assignments -/

theorem operators_split {op : Str} (h : op ∈ operators) :
    ∃ pre post, op = pre ++ '=' :: post ∧ (∀ c ∈ pre, preOp c = true) ∧ (∀ c ∈ post, postOp c = true) := by
  simp only [operators, List.mem_cons, List.not_mem_nil, or_false] at h
  rcases h with rfl | rfl | rfl | rfl | rfl | rfl | rfl | rfl
  · exact ⟨[], [], rfl, by decide, by decide⟩
  · exact ⟨c!"?", [], rfl, by decide, by decide⟩
  · exact ⟨c!"??", [], rfl, by decide, by decide⟩
  · exact ⟨c!":", [], rfl, by decide, by decide⟩
  · exact ⟨c!"+", [], rfl, by decide, by decide⟩
  · exact ⟨c!".", [], rfl, by decide, by decide⟩
  · exact ⟨[], c!"+", rfl, by decide, by decide⟩
  · exact ⟨[], c!".", rfl, by decide, by decide⟩

theorem assigns_isOp {line n ws1 op ws2 val : Str} (h : Assignment line n ws1 op ws2 val) :
    ∃ pre post, op = pre ++ '=' :: post ∧ IsOp ws1 pre post ws2 val := by
  obtain ⟨pre, post, e, h1, h2⟩ := operators_split h.op
  refine ⟨pre, post, e, fun c hc => (h.blanks1 c hc).1, h1, h2, fun c hc => (h.blanks2 c hc).1, ?_, ?_⟩
  · rintro c u rfl
    exact (h.val.2 c (by simp)).1
  · intro c u hcu
    cases hw : ws2 with
    | nil =>
      rw [hw] at hcu
      have := (h.val.2 c (by simp at hcu; rw [hcu]; simp)).2 hw
      simp [postOp, this]
    | cons x w =>
      rw [hw] at hcu
      simp at hcu
      have := (h.blanks2 x (by rw [hw]; simp)).1
      rw [hcu.1] at this
      cases hpc : postOp c with
      | false => rfl
      | true =>
        simp [postOp] at hpc
        rcases hpc with rfl | rfl <;> revert this <;> decide

/-- what follows the name in an assignment does not prolong a keyword -/
theorem assigns_tail {line n ws1 op ws2 val : Str} (h : Assignment line n ws1 op ws2 val) :
    ∀ c ∈ (ws1 ++ (op ++ (ws2 ++ val))).head?, ¬ KwChar c := by
  intro c hc hk
  cases hw : ws1 with
  | cons x w =>
    rw [hw] at hc; simp at hc; subst hc
    have := (h.blanks1 x (by rw [hw]; simp)).1
    rw [(nameChar_not_space hk.1).1] at this; cases this
  | nil =>
    rw [hw] at hc
    have hop := h.op
    simp only [operators, List.mem_cons, List.not_mem_nil, or_false] at hop
    unfold KwChar at hk
    rcases hop with rfl | rfl | rfl | rfl | rfl | rfl | rfl | rfl <;>
      (simp at hc; subst hc; revert hk; decide)

theorem nameChar_ne_paren {c : Char} (h : NameChar c) : c ≠ '(' ∧ c ≠ '[' := by
  constructor <;> (rintro rfl; revert h; decide)

theorem classify_assigns (W : World) (add : AddFn) (file : Str) (lineno : Int) (p : Params) (s : Stash)
    {line n ws1 op ws2 val : Str} (h : Assignment line n ws1 op ws2 val) :
    classify W add file lineno p line parseOrder s =
      (.ok (mkVariable s.nextUid p n val (ws1 ++ (op ++ ws2)), 0), { s with nextUid := s.nextUid + 1 }) := by
  obtain ⟨pre, post, rfl, hop⟩ := assigns_isOp h
  have htail := assigns_tail h
  have hline := h.eq
  have hname := h.name
  have hv2 : line = (n ++ (ws1 ++ pre)) ++ '=' :: (post ++ (ws2 ++ val)) := by rw [hline]; simp
  have hno : '(' ∉ n ++ (ws1 ++ pre) ∧ '[' ∉ n ++ (ws1 ++ pre) := by
    constructor
    · intro hc
      rcases List.mem_append.1 hc with hc | hc
      · exact (nameChar_ne_paren (hname.chars _ hc)).1 rfl
      · rcases List.mem_append.1 hc with hc | hc
        · have := hop.blanks1 _ hc; revert this; decide
        · have := hop.pre _ hc; revert this; decide
    · intro hc
      rcases List.mem_append.1 hc with hc | hc
      · exact (nameChar_ne_paren (hname.chars _ hc)).2 rfl
      · rcases List.mem_append.1 hc with hc | hc
        · have := hop.blanks1 _ hc; revert this; decide
        · have := hop.pre _ hc; revert this; decide
  obtain ⟨m, hm, g1, g2, g3⟩ := reVar_match hname hop h.val.1
  have hvar : reMatch reVar.re line = some m := by
    rw [hline, ← hm]; simp
  have hskip := classify_skip (W := W) (file := file) (add := add) (line := lineno) (p := p) (cnt := line)
    (parseOrder.dropLast) [(.vars, reVar)] (by
      intro kp hkp
      simp only [parseOrder, List.dropLast, List.mem_cons, List.not_mem_nil, or_false] at hkp
      rcases hkp with rfl | rfl | rfl | rfl | rfl | rfl | rfl | rfl | rfl | rfl | rfl | rfl | rfl | rfl | rfl | rfl
      · rw [hline]; exact not_comments hname htail
      · rw [hv2]; exact not_func hno.1
      · rw [hline]; exact not_inherit hname htail
      · rw [hline]; exact not_inheritGlob hname htail
      · rw [hline]; exact not_exportWval hname htail
      · rw [hline]; exact not_exportWoval hname htail
      · rw [hline]; exact not_python hname htail
      · rw [hline]; exact not_include hname htail
      · rw [hline]; exact not_includeall hname htail
      · rw [hline]; exact not_addtask hname htail
      · rw [hline]; exact not_deltask hname htail
      · rw [hline]; exact not_unset hname htail
      · rw [hv2]; exact not_flagass hno.2
      · rw [hline]; exact not_exportFunc hname htail
      · rw [hline]; exact not_addpylib hname htail
      · rw [hline]; exact not_addfragments hname htail)
  rw [show parseOrder = parseOrder.dropLast ++ [(.vars, reVar)] from rfl, hskip, classify]
  simp only [hvar, handleKind, g1, g2, g3, M.bind_def, freshUid, M.pure_def, Option.getD_some]
  simp [List.append_assoc]

end Oelint

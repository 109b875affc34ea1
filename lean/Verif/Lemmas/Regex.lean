import Verif.Model.Regex
import Verif.Lemmas.Str
/-! Lemmas about the backtracking semantics: progress, captures, and the continuation form `run`. -/
set_option linter.unusedSectionVars false
set_option linter.unusedSimpArgs false
namespace Oelint
variable [Uni]

/-- `t` lies `n` characters behind `s` in the same text -/
def Adv (s t : St) : Prop := ∃ n ≤ s.rest.length, t.pos = s.pos + n ∧ t.rest = s.rest.drop n

theorem Adv.refl (s : St) : Adv s s := ⟨0, by simp, by simp, by simp⟩

theorem Adv.trans {a b c : St} (h1 : Adv a b) (h2 : Adv b c) : Adv a c := by
  obtain ⟨n, hn, hp, hr⟩ := h1
  obtain ⟨m, hm, hq, hs⟩ := h2
  rw [hr, List.length_drop] at hm
  refine ⟨n + m, by omega, by omega, ?_⟩
  rw [hs, hr, List.drop_drop]

theorem Adv.length {a b : St} (h : Adv a b) : b.pos + b.rest.length = a.pos + a.rest.length := by
  obtain ⟨n, hn, hp, hr⟩ := h
  rw [hr, hp, List.length_drop]; omega

theorem Adv.suffix {a b : St} (h : Adv a b) : b.rest <:+ a.rest := by
  obtain ⟨n, hn, hp, hr⟩ := h
  rw [hr]; exact List.drop_suffix _ _

theorem Adv.pos_le {a b : St} (h : Adv a b) : a.pos ≤ b.pos := by
  obtain ⟨n, hn, hp, hr⟩ := h; omega

/-- `b` is determined by its position -/
theorem Adv.rest_eq {a b : St} (h : Adv a b) : b.rest = a.rest.drop (b.pos - a.pos) := by
  obtain ⟨n, hn, hp, hr⟩ := h
  rw [hr, hp]; congr 1; omega

theorem iter_mem {g : Bool} {f : St → List St} {R : St → St → Prop} (hr : ∀ s, R s s)
    (ht : ∀ a b c, R a b → R b c → R a c) (hf : ∀ s t, t ∈ f s → R s t) (n : Nat) (s t : St)
    (h : t ∈ iter g f n s) : R s t := by
  induction n generalizing s with
  | zero => simp [iter] at h; subst h; exact hr _
  | succ n ih =>
    have : t = s ∨ ∃ u ∈ f s, t ∈ iter g f n u := by
      unfold iter at h
      cases g
      · simp only [Bool.false_eq_true, if_false, List.mem_cons, List.mem_flatMap, List.mem_filter] at h
        rcases h with h | ⟨u, ⟨hu, _⟩, h⟩
        · exact Or.inl h
        · exact Or.inr ⟨u, hu, h⟩
      · simp only [if_true, List.mem_append, List.mem_flatMap, List.mem_filter, List.mem_singleton] at h
        rcases h with ⟨u, ⟨hu, _⟩, h⟩ | h
        · exact Or.inr ⟨u, hu, h⟩
        · exact Or.inl h
    rcases this with rfl | ⟨u, hu, h⟩
    · exact hr _
    · exact ht _ _ _ (hf _ _ hu) (ih _ h)

theorem adv_one (s : St) (x : Char) (t : Str) (c : List (Nat × Str)) (h : s.rest = x :: t) :
    Adv s ⟨s.pos + 1, t, c⟩ := ⟨1, by simp [h], rfl, by simp [h]⟩

theorem ms_adv (r : Re) (s t : St) (h : t ∈ ms r s) : Adv s t := by
  induction r generalizing s t with
  | eps => simp [ms] at h; subst h; exact .refl _
  | lit p =>
    simp only [ms] at h
    split at h
    · rename_i hp
      simp at h; subst h
      have := List.isPrefixOf_iff_prefix.1 hp
      exact ⟨p.length, this.length_le, rfl, rfl⟩
    · simp at h
  | any =>
    simp only [ms] at h
    split at h
    · simp at h
    · rename_i x u hs
      split at h
      · simp at h
      · simp at h; subst h; exact adv_one _ _ _ _ hs
  | cls neg items =>
    simp only [ms] at h
    split at h
    · simp at h
    · rename_i x u hs
      split at h
      · simp at h; subst h; exact adv_one _ _ _ _ hs
      · simp at h
  | seq a b iha ihb =>
    simp only [ms, List.mem_flatMap] at h
    obtain ⟨u, hu, h⟩ := h
    exact (iha _ _ hu).trans (ihb _ _ h)
  | alt a b iha ihb =>
    simp only [ms, List.mem_append] at h
    exact h.elim (iha _ _) (ihb _ _)
  | star g r ih => exact iter_mem Adv.refl (fun _ _ _ => Adv.trans) ih _ _ _ h
  | grp n r ih =>
    simp only [ms, List.mem_map] at h
    obtain ⟨u, hu, rfl⟩ := h
    exact ih _ u hu
  | bos =>
    simp only [ms] at h
    split at h
    · simp at h; subst h; exact .refl _
    · simp at h
  | eos =>
    simp only [ms] at h
    split at h
    · simp at h; subst h; exact .refl _
    · simp at h
  | look neg r ih =>
    simp only [ms] at h
    split at h
    · split at h
      · simp at h; subst h; exact .refl _
      · simp at h
    · split at h
      · simp at h
      · simp at h; subst h; exact ⟨0, by simp, by simp, by simp⟩
  | atomic r ih =>
    simp only [ms] at h
    exact ih _ _ (List.mem_of_mem_take h)

/-- an expression that is not nullable consumes something -/
theorem ms_progress (r : Re) (hn : r.nullable = false) (s t : St) (h : t ∈ ms r s) : s.pos < t.pos := by
  induction r generalizing s t with
  | eps => simp [Re.nullable] at hn
  | lit p =>
    simp only [ms] at h
    split at h
    · simp at h; subst h
      simp only [Re.nullable] at hn
      cases p with
      | nil => simp at hn
      | cons c q => simp
    · simp at h
  | any =>
    simp only [ms] at h
    split at h
    · simp at h
    · split at h
      · simp at h
      · simp at h; subst h; simp
  | cls neg items =>
    simp only [ms] at h
    split at h
    · simp at h
    · split at h
      · simp at h; subst h; simp
      · simp at h
  | seq a b iha ihb =>
    simp only [ms, List.mem_flatMap] at h
    obtain ⟨u, hu, h⟩ := h
    simp only [Re.nullable, Bool.and_eq_false_iff] at hn
    rcases hn with hn | hn
    · exact Nat.lt_of_lt_of_le (iha hn _ _ hu) (ms_adv _ _ _ h).pos_le
    · exact Nat.lt_of_le_of_lt (ms_adv _ _ _ hu).pos_le (ihb hn _ _ h)
  | alt a b iha ihb =>
    simp only [Re.nullable, Bool.or_eq_false_iff] at hn
    simp only [ms, List.mem_append] at h
    exact h.elim (iha hn.1 _ _) (ihb hn.2 _ _)
  | star g r ih => simp [Re.nullable] at hn
  | grp n r ih =>
    simp only [ms, List.mem_map] at h
    obtain ⟨u, hu, rfl⟩ := h
    exact ih hn _ u hu
  | bos => simp [Re.nullable] at hn
  | eos => simp [Re.nullable] at hn
  | look neg r ih => simp [Re.nullable] at hn
  | atomic r ih =>
    simp only [ms] at h
    exact ih hn _ _ (List.mem_of_mem_take h)

/-! ## captures are parts of the text -/

/-- all captures are parts of `full` -/
def CapsIn (full : Str) (s : St) : Prop := s.rest <:+ full ∧ ∀ c ∈ s.caps, c.2 <:+: full

theorem ms_capsIn (full : Str) (r : Re) (s t : St) (hs : CapsIn full s) (h : t ∈ ms r s) : CapsIn full t := by
  refine ⟨(ms_adv _ _ _ h).suffix.trans hs.1, ?_⟩
  induction r generalizing s t with
  | eps => simp [ms] at h; subst h; exact hs.2
  | lit p =>
    simp only [ms] at h
    split at h
    · simp at h; subst h; exact hs.2
    · simp at h
  | any =>
    simp only [ms] at h
    split at h
    · simp at h
    · split at h
      · simp at h
      · simp at h; subst h; exact hs.2
  | cls neg items =>
    simp only [ms] at h
    split at h
    · simp at h
    · split at h
      · simp at h; subst h; exact hs.2
      · simp at h
  | seq a b iha ihb =>
    simp only [ms, List.mem_flatMap] at h
    obtain ⟨u, hu, h⟩ := h
    exact ihb _ _ ⟨(ms_adv _ _ _ hu).suffix.trans hs.1, iha _ _ hs hu⟩ h
  | alt a b iha ihb =>
    simp only [ms, List.mem_append] at h
    exact h.elim (iha _ _ hs) (ihb _ _ hs)
  | star g r ih =>
    have := iter_mem (g := g) (f := ms r) (R := fun s t => CapsIn full s → CapsIn full t) (fun _ => id)
      (fun _ _ _ h1 h2 => h2 ∘ h1)
      (fun s t h hs => ⟨(ms_adv _ _ _ h).suffix.trans hs.1, ih _ _ hs h⟩) _ _ _ h
    exact (this hs).2
  | grp n r ih =>
    simp only [ms, List.mem_map] at h
    obtain ⟨u, hu, rfl⟩ := h
    intro c hc
    rcases List.mem_cons.1 hc with rfl | hc
    · exact (List.take_prefix _ _).isInfix.trans hs.1.isInfix
    · exact ih _ _ hs hu c hc
  | bos =>
    simp only [ms] at h
    split at h
    · simp at h; subst h; exact hs.2
    · simp at h
  | eos =>
    simp only [ms] at h
    split at h
    · simp at h; subst h; exact hs.2
    · simp at h
  | look neg r ih =>
    simp only [ms] at h
    split at h
    · split at h
      · simp at h; subst h; exact hs.2
      · simp at h
    · split at h
      · simp at h
      · rename_i u us hu
        simp at h; subst h
        exact ih _ u hs (by rw [hu]; simp)
  | atomic r ih =>
    simp only [ms] at h
    exact ih _ _ hs (List.mem_of_mem_take h)

theorem matchAt_caps {r : Re} {pos : Nat} {rest : Str} {m : Mt} (h : matchAt r pos rest = some m) :
    ∀ c ∈ m.caps, c.2 <:+: rest := by
  unfold matchAt at h
  split at h
  · cases h
  · rename_i t ts ht
    simp only [Option.some.injEq] at h
    subst h
    exact (ms_capsIn rest r ⟨pos, rest, []⟩ t ⟨List.suffix_rfl, by simp⟩ (by rw [ht]; simp)).2

theorem reMatch_caps {r : Re} {s : Str} {m : Mt} (h : reMatch r s = some m) : ∀ c ∈ m.caps, c.2 <:+: s :=
  matchAt_caps h

theorem Mt.group_mem {m : Mt} {n : Nat} {g : Str} (h : m.group n = some g) : ∃ c ∈ m.caps, c.2 = g := by
  unfold Mt.group at h
  simp only [Option.map_eq_some_iff] at h
  obtain ⟨c, hc, rfl⟩ := h
  exact ⟨c, List.mem_of_find?_eq_some hc, rfl⟩

/-- a group of a match is part of the text -/
theorem reMatch_group {r : Re} {s : Str} {m : Mt} (h : reMatch r s = some m) {n : Nat} {g : Str}
    (hg : m.group n = some g) : g <:+: s := by
  obtain ⟨c, hc, rfl⟩ := Mt.group_mem hg
  exact reMatch_caps h c hc

/-! ## loops -/

theorem iter_fuel {g : Bool} {f : St → List St} (hf : ∀ s t, t ∈ f s → Adv s t) (n m : Nat) (s : St)
    (hn : s.rest.length ≤ n) (hm : s.rest.length ≤ m) : iter g f n s = iter g f m s := by
  induction n generalizing m s with
  | zero =>
    have h0 : s.rest.length = 0 := by omega
    cases m with
    | zero => rfl
    | succ m =>
      have : (f s).filter (fun t => decide (s.pos < t.pos)) = [] := by
        rw [List.filter_eq_nil_iff]
        intro t ht
        have := (hf s t ht).length
        simp; omega
      simp [iter, this]
  | succ n ih =>
    cases m with
    | zero =>
      have h0 : s.rest.length = 0 := by omega
      have : (f s).filter (fun t => decide (s.pos < t.pos)) = [] := by
        rw [List.filter_eq_nil_iff]
        intro t ht
        have := (hf s t ht).length
        simp; omega
      simp [iter, this]
    | succ m =>
      have : ((f s).filter (fun t => decide (s.pos < t.pos))).flatMap (iter g f n)
          = ((f s).filter (fun t => decide (s.pos < t.pos))).flatMap (iter g f m) := by
        rw [List.flatMap_def, List.flatMap_def]
        congr 1
        apply List.map_congr_left
        intro t ht
        simp only [List.mem_filter, decide_eq_true_eq] at ht
        have := (hf s t ht.1).length
        exact ih m t (by omega) (by omega)
      simp only [iter, this]

/-- the defining equation of a loop -/
theorem ms_star (g : Bool) (r : Re) (s : St) :
    ms (.star g r) s =
      if g then ((ms r s).filter (fun t => s.pos < t.pos)).flatMap (ms (.star g r)) ++ [s]
      else s :: ((ms r s).filter (fun t => s.pos < t.pos)).flatMap (ms (.star g r)) := by
  have key : ms (.star g r) s = iter g (ms r) (s.rest.length + 1) s :=
    iter_fuel (ms_adv r) _ _ _ (by omega) (by omega)
  rw [key]
  have : ((ms r s).filter (fun t => decide (s.pos < t.pos))).flatMap (iter g (ms r) s.rest.length)
      = ((ms r s).filter (fun t => decide (s.pos < t.pos))).flatMap (ms (.star g r)) := by
    rw [List.flatMap_def, List.flatMap_def]
    congr 1
    apply List.map_congr_left
    intro t ht
    simp only [List.mem_filter, decide_eq_true_eq] at ht
    have := (ms_adv r s t ht.1).length
    exact iter_fuel (ms_adv r) _ _ t (by omega) (by omega)
  simp only [iter, this]

/-! ## continuation form -/

/-- match `r` from `s` and go on with `k`; backtrack into `r` when `k` fails -/
def run {α} (r : Re) (k : St → Option α) (s : St) : Option α := (ms r s).findSome? k

variable {α : Type}

theorem findSome?_flatMap' {β γ} (l : List β) (f : β → List γ) (k : γ → Option α) :
    (l.flatMap f).findSome? k = l.findSome? (fun x => (f x).findSome? k) := by
  induction l with
  | nil => rfl
  | cons x xs ih =>
    rw [List.flatMap_cons, List.findSome?_append, ih, List.findSome?_cons]
    cases (f x).findSome? k <;> rfl

theorem findSome?_filter' {β} (l : List β) (p : β → Bool) (k : β → Option α) :
    (l.filter p).findSome? k = l.findSome? (fun x => if p x then k x else none) := by
  induction l with
  | nil => rfl
  | cons x xs ih =>
    rw [List.filter_cons, List.findSome?_cons]
    split
    · rw [List.findSome?_cons, ih]
    · rw [ih]

theorem run_eps (k : St → Option α) (s : St) : run .eps k s = k s := by
  simp [run, ms]

theorem run_seq (a b : Re) (k : St → Option α) (s : St) : run (.seq a b) k s = run a (run b k) s := by
  simp only [run, ms, findSome?_flatMap']; rfl

theorem run_alt (a b : Re) (k : St → Option α) (s : St) : run (.alt a b) k s = (run a k s).or (run b k s) := by
  simp only [run, ms, List.findSome?_append]

theorem run_grp (n : Nat) (r : Re) (k : St → Option α) (s : St) :
    run (.grp n r) k s = run r (fun t => k ⟨t.pos, t.rest, (n, s.rest.take (t.pos - s.pos)) :: t.caps⟩) s := by
  simp only [run, ms, List.findSome?_map]; rfl

theorem run_lit (p : Str) (k : St → Option α) (pos : Nat) (rest : Str) (caps : List (Nat × Str)) :
    run (.lit p) k ⟨pos, rest, caps⟩ =
      if p <+: rest then k ⟨pos + p.length, rest.drop p.length, caps⟩ else none := by
  simp only [run, ms, ← List.isPrefixOf_iff_prefix]
  split <;> simp

theorem run_lit_append (p : Str) (k : St → Option α) (pos : Nat) (rest : Str) (caps : List (Nat × Str)) :
    run (.lit p) k ⟨pos, p ++ rest, caps⟩ = k ⟨pos + p.length, rest, caps⟩ := by
  rw [run_lit, if_pos (List.prefix_append _ _), List.drop_left]

theorem run_bos (k : St → Option α) (s : St) : run .bos k s = if s.pos = 0 then k s else none := by
  simp only [run, ms, beq_iff_eq]
  split <;> simp

theorem run_eos (k : St → Option α) (s : St) :
    run .eos k s = if s.rest = [] ∨ s.rest = ['\n'] then k s else none := by
  simp only [run, ms, Bool.or_eq_true, beq_iff_eq]
  split <;> simp

theorem run_any_nil (k : St → Option α) (pos : Nat) (caps : List (Nat × Str)) : run .any k ⟨pos, [], caps⟩ = none := by
  simp [run, ms]

theorem run_any_cons (k : St → Option α) (pos : Nat) (x : Char) (t : Str) (caps : List (Nat × Str)) :
    run .any k ⟨pos, x :: t, caps⟩ = if x = '\n' then none else k ⟨pos + 1, t, caps⟩ := by
  simp only [run, ms, beq_iff_eq]
  split <;> simp

theorem run_cls_nil (neg : Bool) (is : List CItem) (k : St → Option α) (pos : Nat) (caps : List (Nat × Str)) :
    run (.cls neg is) k ⟨pos, [], caps⟩ = none := by
  simp [run, ms]

theorem run_cls_cons (neg : Bool) (is : List CItem) (k : St → Option α) (pos : Nat) (x : Char) (t : Str)
    (caps : List (Nat × Str)) :
    run (.cls neg is) k ⟨pos, x :: t, caps⟩ =
      if (is.any (·.test x)) != neg then k ⟨pos + 1, t, caps⟩ else none := by
  simp only [run, ms]
  split <;> simp

theorem run_star_greedy (r : Re) (k : St → Option α) (s : St) :
    run (.star true r) k s =
      (run r (fun t => if s.pos < t.pos then run (.star true r) k t else none) s).or (k s) := by
  conv => lhs; unfold run
  rw [ms_star, if_pos rfl, List.findSome?_append, findSome?_flatMap', findSome?_filter']
  simp only [run, decide_eq_true_eq, List.findSome?_cons, List.findSome?_nil]
  cases k s <;> rfl

theorem run_star_lazy (r : Re) (k : St → Option α) (s : St) :
    run (.star false r) k s =
      (k s).or (run r (fun t => if s.pos < t.pos then run (.star false r) k t else none) s) := by
  conv => lhs; unfold run
  rw [ms_star, if_neg (by simp), List.findSome?_cons, findSome?_flatMap', findSome?_filter']
  simp only [run, decide_eq_true_eq]
  cases k s <;> rfl

theorem matchAt_eq_run (r : Re) (pos : Nat) (rest : Str) :
    matchAt r pos rest = run r (fun t => some (mkMt ⟨pos, rest, []⟩ t)) ⟨pos, rest, []⟩ := by
  unfold matchAt run
  cases ms r ⟨pos, rest, []⟩ <;> simp

theorem reMatch_eq_run (r : Re) (s : Str) :
    reMatch r s = run r (fun t => some (mkMt ⟨0, s, []⟩ t)) ⟨0, s, []⟩ := matchAt_eq_run r 0 s

theorem run_congr {r : Re} {k k' : St → Option α} {s : St} (h : ∀ t, Adv s t → k t = k' t) : run r k s = run r k' s := by
  unfold run
  have hh : ∀ t ∈ ms r s, k t = k' t := fun t ht => h t (ms_adv r s t ht)
  revert hh
  generalize ms r s = l
  intro hh
  induction l with
  | nil => rfl
  | cons x xs ih =>
    rw [List.findSome?_cons, List.findSome?_cons, hh x (by simp), ih (fun t ht => hh t (by simp [ht]))]

theorem run_isSome {r : Re} {k : St → Option α} {s : St} :
    (run r k s).isSome ↔ ∃ t ∈ ms r s, (k t).isSome := by
  unfold run; rw [List.findSome?_isSome_iff]

theorem run_none {r : Re} {k : St → Option α} {s : St} :
    run r k s = none ↔ ∀ t ∈ ms r s, k t = none := by
  unfold run; rw [List.findSome?_eq_none_iff]

theorem reMatch_isSome_iff {r : Re} {s : Str} : (reMatch r s).isSome ↔ ∃ t, t ∈ ms r ⟨0, s, []⟩ := by
  rw [reMatch_eq_run, run_isSome]; simp

/-! ## loops over single characters -/

/-- `r` matches exactly one character with property `p` and changes captures in a fixed way -/
def CharRe (r : Re) (p : Char → Bool) : Prop :=
  ∀ (α : Type) (k : St → Option α) (pos : Nat) (rest : Str) (caps : List (Nat × Str)), run r k ⟨pos, rest, caps⟩ =
    match rest with
    | [] => none
    | x :: t => if p x then k ⟨pos + 1, t, caps⟩ else none

theorem charRe_any : CharRe .any (fun x => x != '\n') := by
  intro α k pos rest caps
  cases rest with
  | nil => exact run_any_nil _ _ _
  | cons x t => rw [run_any_cons]; by_cases h : x = '\n' <;> simp [h]

theorem charRe_cls (neg : Bool) (is : List CItem) : CharRe (.cls neg is) (fun x => (is.any (·.test x)) != neg) := by
  intro α k pos rest caps
  cases rest with
  | nil => exact run_cls_nil _ _ _ _ _
  | cons x t => rw [run_cls_cons]

theorem charRe_lit (c : Char) : CharRe (.lit [c]) (fun x => x == c) := by
  intro α k pos rest caps
  cases rest with
  | nil => rw [run_lit]; simp
  | cons x t =>
    rw [run_lit]
    by_cases h : x = c
    · simp [h]
    · simp [h, Ne.symm h]

theorem charRe_alt {a b : Re} {p q : Char → Bool} (ha : CharRe a p) (hb : CharRe b q) :
    CharRe (.alt a b) (fun x => p x || q x) := by
  intro α k pos rest caps
  rw [run_alt, ha, hb]
  cases rest with
  | nil => rfl
  | cons x t => by_cases h1 : p x <;> by_cases h2 : q x <;> simp [h1, h2]

theorem CharRe.congr {r : Re} {p q : Char → Bool} (h : CharRe r p) (hpq : ∀ x, p x = q x) : CharRe r q := by
  have : p = q := funext hpq
  exact this ▸ h

theorem run_star_char_nil {g : Bool} {r : Re} {p : Char → Bool} (h : CharRe r p) (k : St → Option α) (pos : Nat)
    (caps : List (Nat × Str)) : run (.star g r) k ⟨pos, [], caps⟩ = k ⟨pos, [], caps⟩ := by
  cases g
  · rw [run_star_lazy, h]; simp
  · rw [run_star_greedy, h]; simp

theorem run_star_char_cons {r : Re} {p : Char → Bool} (h : CharRe r p) (k : St → Option α) (pos : Nat)
    (x : Char) (t : Str) (caps : List (Nat × Str)) :
    run (.star true r) k ⟨pos, x :: t, caps⟩ =
      if p x then (run (.star true r) k ⟨pos + 1, t, caps⟩).or (k ⟨pos, x :: t, caps⟩)
      else k ⟨pos, x :: t, caps⟩ := by
  rw [run_star_greedy, h]
  by_cases hp : p x <;> simp [hp]

theorem run_star_lazy_char_cons {r : Re} {p : Char → Bool} (h : CharRe r p) (k : St → Option α) (pos : Nat)
    (x : Char) (t : Str) (caps : List (Nat × Str)) :
    run (.star false r) k ⟨pos, x :: t, caps⟩ =
      (k ⟨pos, x :: t, caps⟩).or
        (if p x then run (.star false r) k ⟨pos + 1, t, caps⟩ else none) := by
  rw [run_star_lazy, h]
  by_cases hp : p x <;> simp [hp]

end Oelint

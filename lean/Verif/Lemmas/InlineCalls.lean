import Verif.Spec.InlineCalls
import Verif.Lemmas.Inline
import Verif.Lemmas.ReTools
/-! Matching calls of the known helper functions. -/
set_option linter.unusedSectionVars false
set_option linter.unusedSimpArgs false
namespace Oelint
variable [Uni]
open Spec

/-! ## steps of a match -/

theorem run_lit_one_ne {α : Type} {c : Char} {K : Re} {k : St → Option α} {p : Nat} {x : Char} {t : Str} {cs : List (Nat × Str)}
    (h : x ≠ c) : run (.seq (.lit [c]) K) k ⟨p, x :: t, cs⟩ = none := by
  rw [run_seq, run_lit, if_neg]
  rintro ⟨q, hq⟩
  cases hq
  exact h rfl

theorem run_lit_last_ne {α : Type} {c : Char} {k : St → Option α} {p : Nat} {x : Char} {t : Str} {cs : List (Nat × Str)}
    (h : x ≠ c) : run (.lit [c]) k ⟨p, x :: t, cs⟩ = none := by
  rw [run_lit, if_neg]
  rintro ⟨q, hq⟩
  cases hq
  exact h rfl

/-- `.*?`, when what follows cannot start inside `a` -/
theorem run_lazy_some {α : Type} {k : St → Option α} {pos : Nat} {a rest : Str} {cs : List (Nat × Str)} {v : α}
    (hn : '\n' ∉ a) (hf : ∀ x ∈ a, ∀ p t, k ⟨p, x :: t, cs⟩ = none) (hk : k ⟨pos + a.length, rest, cs⟩ = some v) :
    run (.star false .any) k ⟨pos, a ++ rest, cs⟩ = some v := by
  induction a generalizing pos with
  | nil =>
    rw [run_star_lazy]
    simp only [List.nil_append]
    rw [show k ⟨pos, rest, cs⟩ = some v by simpa using hk]
    rfl
  | cons x a ih =>
    rw [List.cons_append, run_star_lazy_char_cons charRe_any, hf x (by simp), if_pos (by
      simp only [List.mem_cons, not_or] at hn
      simp [Ne.symm hn.1])]
    exact ih (by simp only [List.mem_cons, not_or] at hn; exact hn.2) (fun y hy => hf y (by simp [hy]))
      (by rw [← hk]; congr 2; simp only [List.length_cons]; omega)

/-- `(.*?)`, when what follows cannot start inside `a` -/
theorem run_grp_lazy_some {α : Type} {n : Nat} {k : St → Option α} {pos : Nat} {a rest : Str} {cs : List (Nat × Str)} {v : α}
    (hn : '\n' ∉ a) (hf : ∀ x ∈ a, ∀ p t cs, k ⟨p, x :: t, cs⟩ = none) (hk : k ⟨pos + a.length, rest, (n, a) :: cs⟩ = some v) :
    run (.grp n (.star false .any)) k ⟨pos, a ++ rest, cs⟩ = some v := by
  rw [run_grp]
  refine run_lazy_some hn (fun x hx p t => hf x hx p t _) ?_
  simpa using hk

variable {α : Type}

theorem step_until {c : Char} {K : Re} {k : St → Option α} {pos : Nat} {a rest : Str} {cs : List (Nat × Str)} {v : α}
    (hn : '\n' ∉ a) (hc : c ∉ a) (hk : ∀ p, pos < p → run K k ⟨p, rest, cs⟩ = some v) :
    run (.seq (.star false .any) (.seq (.lit [c]) K)) k ⟨pos, a ++ c :: rest, cs⟩ = some v := by
  rw [run_seq]
  refine run_lazy_some hn (fun x hx p t => run_lit_one_ne (fun h => hc (h ▸ hx))) ?_
  rw [run_seq]
  exact (run_lit_append [c] _ _ rest _).trans (hk _ (by simp only [List.length_cons, List.length_nil]; omega))

theorem step_until_last {c : Char} {k : St → Option α} {pos : Nat} {a rest : Str} {cs : List (Nat × Str)} {v : α}
    (hn : '\n' ∉ a) (hc : c ∉ a) (hk : ∀ p, pos < p → k ⟨p, rest, cs⟩ = some v) :
    run (.seq (.star false .any) (.lit [c])) k ⟨pos, a ++ c :: rest, cs⟩ = some v := by
  rw [run_seq]
  refine run_lazy_some hn (fun x hx p t => run_lit_last_ne (fun h => hc (h ▸ hx))) ?_
  exact (run_lit_append [c] _ _ rest _).trans (hk _ (by simp only [List.length_cons, List.length_nil]; omega))

theorem step_group {c : Char} {n : Nat} {K : Re} {k : St → Option α} {pos : Nat} {a rest : Str} {cs : List (Nat × Str)} {v : α}
    (hn : '\n' ∉ a) (hc : c ∉ a) (hk : ∀ p, pos < p → run K k ⟨p, rest, (n, a) :: cs⟩ = some v) :
    run (.seq (.grp n (.star false .any)) (.seq (.lit [c]) K)) k ⟨pos, a ++ c :: rest, cs⟩ = some v := by
  rw [run_seq]
  refine run_grp_lazy_some hn (fun x hx p t cs => run_lit_one_ne (fun h => hc (h ▸ hx))) ?_
  rw [run_seq]
  exact (run_lit_append [c] _ _ rest _).trans (hk _ (by simp only [List.length_cons, List.length_nil]; omega))

theorem step_group_last {c : Char} {n : Nat} {k : St → Option α} {pos : Nat} {a rest : Str} {cs : List (Nat × Str)} {v : α}
    (hn : '\n' ∉ a) (hc : c ∉ a) (hk : ∀ p, pos < p → k ⟨p, rest, (n, a) :: cs⟩ = some v) :
    run (.seq (.grp n (.star false .any)) (.lit [c])) k ⟨pos, a ++ c :: rest, cs⟩ = some v := by
  rw [run_seq]
  refine run_grp_lazy_some hn (fun x hx p t cs => run_lit_last_ne (fun h => hc (h ▸ hx))) ?_
  exact (run_lit_append [c] _ _ rest _).trans (hk _ (by simp only [List.length_cons, List.length_nil]; omega))

theorem step_blanks {K : Re} {k : St → Option α} {pos : Nat} {ws rest : Str} {cs : List (Nat × Str)} {v : α}
    (hw : ∀ c ∈ ws, reSpace c = true) (hr : ∀ c ∈ rest.head?, reSpace c = false) (hk : ∀ p, pos ≤ p → run K k ⟨p, rest, cs⟩ = some v) :
    run (.seq (.star true (.cls false [.space])) K) k ⟨pos, ws ++ rest, cs⟩ = some v := by
  rw [run_seq, run_star_greedy_all (charRe_cls false [.space]) _ _ ws rest cs (fun c hc => by simp [CItem.test, hw c hc])
    (fun c u hu => by subst hu; simp [CItem.test, hr c rfl]) (by rw [hk _ (by omega)]; rfl), hk _ (by omega)]

/-- blanks and then a free argument: the blanks of the argument are eaten first -/
theorem step_blanks_until {c : Char} {K : Re} {k : St → Option α} {pos : Nat} {a rest : Str} {cs : List (Nat × Str)} {v : α}
    (hn : '\n' ∉ a) (hc : c ∉ a) (hs : reSpace c = false) (hk : ∀ p, pos < p → run K k ⟨p, rest, cs⟩ = some v) :
    run (.seq (.star true (.cls false [.space])) (.seq (.star false .any) (.seq (.lit [c]) K))) k ⟨pos, a ++ c :: rest, cs⟩ = some v := by
  have e : a ++ c :: rest = a.takeWhile reSpace ++ (a.dropWhile reSpace ++ c :: rest) := by
    rw [← List.append_assoc, List.takeWhile_append_dropWhile]
  rw [e]
  have hsub : ∀ x ∈ a.dropWhile reSpace, x ∈ a := fun x hx => (List.dropWhile_sublist _).subset hx
  refine step_blanks (fun x hx => List.mem_takeWhile_imp hx) ?_ (fun p hp => step_until (fun h => hn (hsub _ h)) (fun h => hc (hsub _ h)) (fun p' hp' => hk p' (by omega)))
  intro x hx
  have := List.head?_dropWhile_not reSpace a
  cases hd : a.dropWhile reSpace with
  | nil => rw [hd] at hx; cases hx; exact hs
  | cons y l =>
    rw [hd] at hx this
    cases hx
    simpa using this

theorem step_blanks_until_last {c : Char} {k : St → Option α} {pos : Nat} {a rest : Str} {cs : List (Nat × Str)} {v : α}
    (hn : '\n' ∉ a) (hc : c ∉ a) (hs : reSpace c = false) (hk : ∀ p, pos < p → k ⟨p, rest, cs⟩ = some v) :
    run (.seq (.star true (.cls false [.space])) (.seq (.star false .any) (.lit [c]))) k ⟨pos, a ++ c :: rest, cs⟩ = some v := by
  have e : a ++ c :: rest = a.takeWhile reSpace ++ (a.dropWhile reSpace ++ c :: rest) := by
    rw [← List.append_assoc, List.takeWhile_append_dropWhile]
  rw [e]
  have hsub : ∀ x ∈ a.dropWhile reSpace, x ∈ a := fun x hx => (List.dropWhile_sublist _).subset hx
  refine step_blanks (fun x hx => List.mem_takeWhile_imp hx) ?_ (fun p hp => step_until_last (fun h => hn (hsub _ h)) (fun h => hc (hsub _ h)) (fun p' hp' => hk p' (by omega)))
  intro x hx
  have := List.head?_dropWhile_not reSpace a
  cases hd : a.dropWhile reSpace with
  | nil => rw [hd] at hx; cases hx; exact hs
  | cons y l =>
    rw [hd] at hx this
    cases hx
    simpa using this

/-- blanks and then a quoted argument -/
theorem step_quoted {c : Char} {n : Nat} {K : Re} {k : St → Option α} {pos : Nat} {ws b rest : Str} {q : Char} {cs : List (Nat × Str)} {v : α}
    (hw : ∀ c ∈ ws, reSpace c = true) (hq : reSpace q = false)
    (hn : '\n' ∉ q :: b) (hc : c ∉ q :: b) (hk : ∀ p, pos < p → run K k ⟨p, rest, (n, q :: b) :: cs⟩ = some v) :
    run (.seq (.star true (.cls false [.space])) (.seq (.grp n (.star false .any)) (.seq (.lit [c]) K))) k
      ⟨pos, (ws ++ q :: b) ++ c :: rest, cs⟩ = some v := by
  rw [List.append_assoc]
  exact step_blanks hw (fun x hx => by cases hx; exact hq) (fun p hp => step_group hn hc (fun p' hp' => hk p' (by omega)))

theorem step_quoted_last {c : Char} {n : Nat} {k : St → Option α} {pos : Nat} {ws b rest : Str} {q : Char} {cs : List (Nat × Str)} {v : α}
    (hw : ∀ c ∈ ws, reSpace c = true) (hq : reSpace q = false)
    (hn : '\n' ∉ q :: b) (hc : c ∉ q :: b) (hk : ∀ p, pos < p → k ⟨p, rest, (n, q :: b) :: cs⟩ = some v) :
    run (.seq (.star true (.cls false [.space])) (.seq (.grp n (.star false .any)) (.lit [c]))) k
      ⟨pos, (ws ++ q :: b) ++ c :: rest, cs⟩ = some v := by
  rw [List.append_assoc]
  exact step_blanks hw (fun x hx => by cases hx; exact hq) (fun p hp => step_group_last hn hc (fun p' hp' => hk p' (by omega)))

/-- the greedy `(.*)` in front of a name -/
theorem step_prefix {n : Nat} {name : Str} {K : Re} {k : St → Option α} {pos : Nat} {lead rest : Str} {cs : List (Nat × Str)} {v : α}
    (hn : '\n' ∉ lead) (hu : ∀ p q, lead ++ (name ++ rest) = p ++ q → lead.length < p.length → ¬ name <+: q)
    (hk : ∀ p, run K k ⟨p, rest, (n, lead) :: cs⟩ = some v) :
    run (.seq (.grp n (.star true .any)) (.seq (.lit name) K)) k ⟨pos, lead ++ (name ++ rest), cs⟩ = some v := by
  rw [run_seq, run_grp]
  have main : ∀ (l : Str) (pos' : Nat) (kk : St → Option α), '\n' ∉ l →
      (∀ p q pos'' cs', l ++ (name ++ rest) = p ++ q → l.length < p.length → kk ⟨pos'', q, cs'⟩ = none) →
      (kk ⟨pos' + l.length, name ++ rest, cs⟩ = some v) → run (.star true .any) kk ⟨pos', l ++ (name ++ rest), cs⟩ = some v := by
    intro l
    induction l with
    | nil =>
      intro pos' kk _ hfail hkk
      rw [run_star_greedy]
      have h1 : run .any (fun t => if pos' < t.pos then run (.star true .any) kk t else none) ⟨pos', [] ++ (name ++ rest), cs⟩ = none := by
        rw [run_none]
        intro t ht
        obtain ⟨w, hw1, hw2, -⟩ := ms_eats _ _ _ ht
        by_cases hp : pos' < t.pos
        · rw [if_pos hp, run_none]
          intro u hu'
          obtain ⟨w', hw3, hw4, -⟩ := ms_eats _ _ _ hu'
          obtain ⟨up, ur, uc⟩ := u
          simp only at hw3 hw4
          refine hfail (w ++ w') ur up uc (by simp only at hw1; rw [hw1, hw3, List.append_assoc]) ?_
          simp only [List.length_nil, List.length_append]
          simp only at hw2
          omega
        · rw [if_neg hp]
      rw [h1]
      simpa using hkk
    | cons x l ih =>
      intro pos' kk hnl hfail hkk
      simp only [List.mem_cons, not_or] at hnl
      rw [List.cons_append, run_star_char_cons charRe_any, if_pos (by simp [Ne.symm hnl.1]), ih (pos' + 1) kk hnl.2
        (fun p q pos'' cs' he hl => hfail (x :: p) q pos'' cs' (by rw [List.cons_append, he]; rfl) (by simpa using hl))
        (by rw [← hkk]; congr 2; simp only [List.length_cons]; omega)]
      rfl
  refine main lead pos _ hn ?_ ?_
  · intro p q pos'' cs' he hl
    rw [run_seq, run_lit, if_neg (hu p q he hl)]
  · rw [run_seq, run_lit_append]
    have := hk (pos + lead.length + name.length)
    simpa using this

/-! ## names -/

theorem append_cons_inj {a a' b b' : Str} {c : Char} (h : a ++ c :: b = a' ++ c :: b') (h1 : c ∉ a) (h2 : c ∉ a') : a = a' ∧ b = b' := by
  induction a generalizing a' with
  | nil =>
    cases a' with
    | nil => exact ⟨rfl, by simpa using h⟩
    | cons x a' => simp only [List.nil_append, List.cons_append, List.cons.injEq] at h; exact absurd h.1 (fun e => h2 (by simp [e]))
  | cons x a ih =>
    cases a' with
    | nil => simp only [List.nil_append, List.cons_append, List.cons.injEq] at h; exact absurd h.1.symm (fun e => h1 (by simp [e]))
    | cons y a' =>
      simp only [List.cons_append, List.cons.injEq] at h
      simp only [List.mem_cons, not_or] at h1 h2
      obtain ⟨rfl, h⟩ := h
      obtain ⟨rfl, hb⟩ := ih h h1.2 h2.2
      exact ⟨rfl, hb⟩

/-- there is only one place with an opening parenthesis -/
theorem only_call {lead nm rest p q m : Str} (h1 : '(' ∉ lead) (h2 : '(' ∉ nm) (h3 : '(' ∉ rest) (hm : '(' ∉ m)
    (he : lead ++ ((nm ++ ['(']) ++ rest) = p ++ q) (hq : (m ++ ['(']) <+: q) : p ++ m = lead ++ nm := by
  obtain ⟨r, rfl⟩ := hq
  have he' : (lead ++ nm) ++ '(' :: rest = (p ++ m) ++ '(' :: r := by simpa using he
  have hc := congrArg (fun l => List.count '(' l) he'
  simp only [List.count_append, List.count_cons_self, List.count_eq_zero_of_not_mem h1, List.count_eq_zero_of_not_mem h2,
    List.count_eq_zero_of_not_mem h3, List.count_eq_zero_of_not_mem hm] at hc
  have hp : '(' ∉ p := by
    intro h
    have := List.count_pos_iff.2 h
    omega
  exact (append_cons_inj he' (by simp [h1, h2]) (by simp [hp, hm])).1.symm

theorem unique_name {lead nm rest : Str} (h1 : '(' ∉ lead) (h2 : '(' ∉ nm) (h3 : '(' ∉ rest) :
    ∀ p q, lead ++ ((nm ++ ['(']) ++ rest) = p ++ q → lead.length < p.length → ¬ (nm ++ ['(']) <+: q := by
  intro p q he hl hq
  have := congrArg List.length (only_call h1 h2 h3 h2 he hq)
  simp only [List.length_append] at this
  omega

theorem not_called {lead nm rest m : Str} (h1 : ∀ c ∈ lead, c = ' ') (h2 : '(' ∉ nm) (h3 : '(' ∉ rest) (hm : '(' ∉ m) (hb : ' ' ∉ m)
    (hs : ¬ m <:+ nm) : ¬ (m ++ ['(']) <:+: lead ++ ((nm ++ ['(']) ++ rest) := by
  rintro ⟨p, r, h⟩
  have := only_call (p := p) (q := (m ++ ['(']) ++ r) (fun h => by have := h1 _ h; cases this) h2 h3 hm (by rw [← h]; simp) ⟨r, rfl⟩
  apply hs
  rcases List.append_eq_append_iff.1 this with ⟨a, ha, hb'⟩ | ⟨a, ha, hb'⟩
  · cases a with
    | nil => exact ⟨[], by simpa using hb'⟩
    | cons x a =>
      have hx := h1 x (by rw [ha]; simp)
      exact absurd (show ' ' ∈ m by rw [hb', hx]; simp) hb
  · exact ⟨a, hb'.symm⟩

theorem reMatch_name_none {m s : Str} {K : Re} (h : ¬ m <:+: s) :
    reMatch (.seq (.grp 1 (.star true .any)) (.seq (.lit m) K)) s = none := by
  rw [reMatch_none_iff]
  intro t ht
  rw [mem_ms_seq] at ht
  obtain ⟨u, hu, hk⟩ := ht
  rw [mem_ms_seq] at hk
  obtain ⟨u', hu', -⟩ := hk
  obtain ⟨w, hw, -, -⟩ := ms_eats _ _ _ hu
  rw [mem_ms_lit] at hu'
  obtain ⟨q, hq⟩ := hu'.1
  exact h ⟨w, q, by simp only at hw; rw [hw, ← hq]; simp⟩

theorem twoBranch_none {needle inp : Str} {p : Pattern} {neg : Bool} (h : reMatch p.re inp = none) : twoBranch needle p inp neg = none := by
  unfold twoBranch; rw [h]; split <;> rfl
theorem oneBranch_none {needle inp : Str} {p : Pattern} {neg : Bool} (h : reMatch p.re inp = none) : oneBranch needle p inp neg = none := by
  unfold oneBranch; rw [h]; split <;> rfl
theorem featBranch_none {needle inp : Str} {p : Pattern} {neg : Bool} (h : reMatch p.re inp = none) : featBranch needle p inp neg = none := by
  unfold featBranch; rw [h]; split <;> rfl

/-- the captures of the first match -/
theorem reMatch_of_run {r : Re} {s : Str} {cs : List (Nat × Str)} (h : run r (fun t => some t.caps) ⟨0, s, []⟩ = some cs) :
    ∃ m, reMatch r s = some m ∧ m.caps = cs := by
  have : run r (fun t => some t.caps) ⟨0, s, []⟩ = (reMatch r s).map (·.caps) := by
    rw [reMatch_eq_run]
    unfold run
    generalize ms r ⟨0, s, []⟩ = l
    cases l <;> rfl
  rw [this] at h
  cases hm : reMatch r s with
  | none => rw [hm] at h; cases h
  | some m => rw [hm] at h; cases h; exact ⟨m, rfl, rfl⟩

theorem twoBranch_some {needle inp t f : Str} {p : Pattern} (neg : Bool) {cs : List (Nat × Str)} (hn : needle <:+: inp)
    (h : run p.re (fun t => some t.caps) ⟨0, inp, []⟩ = some cs)
    (ht : (cs.find? (fun c => c.1 == p.idx c!"trueval")).map (·.2) = some t)
    (hf : (cs.find? (fun c => c.1 == p.idx c!"falseval")).map (·.2) = some f) :
    twoBranch needle p inp neg = some (if neg then stripQuotes f else stripQuotes t) := by
  obtain ⟨m, hm, rfl⟩ := reMatch_of_run h
  have h1 : p.group m c!"trueval" = some t := ht
  have h2 : p.group m c!"falseval" = some f := hf
  unfold twoBranch
  rw [if_pos (hasSub_iff.2 hn), hm]
  cases neg <;> simp [h1, h2]

theorem oneBranch_some {needle inp t : Str} {p : Pattern} (neg : Bool) {cs : List (Nat × Str)} (hn : needle <:+: inp)
    (h : run p.re (fun t => some t.caps) ⟨0, inp, []⟩ = some cs)
    (ht : (cs.find? (fun c => c.1 == p.idx c!"trueval")).map (·.2) = some t) :
    oneBranch needle p inp neg = some (if neg then [] else stripQuotes t) := by
  obtain ⟨m, hm, rfl⟩ := reMatch_of_run h
  have h1 : p.group m c!"trueval" = some t := ht
  unfold oneBranch
  rw [if_pos (hasSub_iff.2 hn), hm]
  cases neg <;> simp [h1]

/-- what the distro feature helpers read from the captures -/
def featVals (p : Pattern) (cs : List (Nat × Str)) : Option Str × Option Str :=
  ((cs.find? (fun c => c.1 == p.idx c!"trueval")).map (·.2), (cs.find? (fun c => c.1 == p.idx c!"falseval")).map (·.2))

theorem featBranch_some {needle inp : Str} {t f : Option Str} {p : Pattern} (neg : Bool) (hn : needle <:+: inp)
    (h : run p.re (fun t => some (featVals p t.caps)) ⟨0, inp, []⟩ = some (t, f)) :
    featBranch needle p inp neg = some (if neg then stripQuotes (orDefault [] f) else stripQuotes (orDefault c!"1" t)) := by
  have : run p.re (fun t => some (featVals p t.caps)) ⟨0, inp, []⟩ = (reMatch p.re inp).map (fun m => featVals p m.caps) := by
    rw [reMatch_eq_run]
    unfold run
    generalize ms p.re ⟨0, inp, []⟩ = l
    cases l <;> rfl
  rw [this] at h
  cases hm : reMatch p.re inp with
  | none => rw [hm] at h; cases h
  | some m =>
    rw [hm] at h
    simp only [Option.map_some, featVals, Option.some.injEq, Prod.mk.injEq] at h
    have h1 : p.group m c!"trueval" = t := h.1
    have h2 : p.group m c!"falseval" = f := h.2
    unfold featBranch
    rw [if_pos (hasSub_iff.2 hn), hm]
    cases neg <;> simp [h1, h2]

theorem stripQuotes_quoted {q : Char} {T : Str} (hq : q = '"' ∨ q = '\'') (h1 : '"' ∉ T) (h2 : '\'' ∉ T) :
    stripQuotes (q :: (T ++ [q])) = T := by
  have hin : oneOf c!"\"'" q = true := by rcases hq with rfl | rfl <;> rfl
  have hout : ∀ c ∈ T, oneOf c!"\"'" c = false := by
    intro c hc
    unfold oneOf
    simp only [List.contains_cons, List.contains_nil, Bool.or_false, Bool.or_eq_false_iff, beq_eq_false_iff_ne, ne_eq]
    exact ⟨fun h => h1 (h ▸ hc), fun h => h2 (h ▸ hc)⟩
  unfold stripQuotes stripP
  have hl : lstripP (oneOf c!"\"'") (q :: (T ++ [q])) = lstripP (oneOf c!"\"'") (T ++ [q]) := by
    unfold lstripP; rw [List.dropWhile_cons, if_pos hin]
  rw [hl]
  rcases List.eq_nil_or_concat T with rfl | ⟨T', x, rfl⟩
  · unfold lstripP; simp [hin, rstripP]
  · have hne : lstripP (oneOf c!"\"'") ((T' ++ [x]) ++ [q]) = (T' ++ [x]) ++ [q] := by
      unfold lstripP
      cases T' with
      | nil => simp [List.dropWhile_cons, hout x (by simp)]
      | cons y T' => simp [List.dropWhile_cons, hout y (by simp)]
    rw [List.concat_eq_append] at *
    rw [hne, rstripP_append_all _ _ (by simpa using hin), rstripP_concat_not _ _ (hout x (by simp))]

/-! ## shapes of the patterns -/

theorem Spec.Free.comma {a : Str} (h : Free a) : ',' ∉ a := fun hc => (h _ hc).1 rfl
theorem Spec.Free.newline {a : Str} (h : Free a) : '\n' ∉ a := fun hc => (h _ hc).2.1 rfl
theorem Spec.Free.open {a : Str} (h : Free a) : '(' ∉ a := fun hc => (h _ hc).2.2.1 rfl
theorem Spec.Free.close {a : Str} (h : Free a) : ')' ∉ a := fun hc => (h _ hc).2.2.2 rfl
theorem free_quoted {q : Char} {T : Str} (hq : q = '"' ∨ q = '\'') (h : Free T) : Free (q :: (T ++ [q])) := by
  intro c hc
  simp only [List.mem_cons, List.mem_append, List.not_mem_nil, or_false] at hc
  rcases hc with rfl | hc | rfl
  · rcases hq with rfl | rfl <;> decide
  · exact h c hc
  · rcases hq with rfl | rfl <;> decide
theorem quote_not_space {q : Char} (hq : q = '"' ∨ q = '\'') : reSpace q = false := by rcases hq with rfl | rfl <;> decide
theorem blank_space {ws : Str} (h : ∀ c ∈ ws, c = ' ') : ∀ c ∈ ws, reSpace c = true := fun c hc => by rw [h c hc]; decide
theorem free_blank {ws : Str} (h : ∀ c ∈ ws, c = ' ') : Free ws := fun c hc => by rw [h c hc]; decide


end Oelint

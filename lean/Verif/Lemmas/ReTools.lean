import Verif.Lemmas.Chunks
/-! Tools to show that a pattern does not match, and which groups a match has. -/
set_option linter.unusedSectionVars false
set_option linter.unusedSimpArgs false
namespace Oelint
variable [Uni]
open Spec

/-! ## which characters an expression can consume -/

/-- the characters that a match can consume (over-approximation) -/
def Re.eats : Re → Char → Bool
  | .eps, _ => false
  | .lit p, c => p.contains c
  | .any, c => c != '\n'
  | .cls neg is, c => (is.any (·.test c)) != neg
  | .seq a b, c => a.eats c || b.eats c
  | .alt a b, c => a.eats c || b.eats c
  | .star _ r, c => r.eats c
  | .grp _ r, c => r.eats c
  | .bos, _ => false
  | .eos, _ => false
  | .look _ _, _ => false
  | .atomic r, c => r.eats c

/-- a match consumes only such characters -/
theorem ms_eats (r : Re) (s t : St) (h : t ∈ ms r s) :
    ∃ w, s.rest = w ++ t.rest ∧ t.pos = s.pos + w.length ∧ ∀ c ∈ w, r.eats c = true := by
  induction r generalizing s t with
  | eps => simp [ms] at h; subst h; exact ⟨[], by simp⟩
  | lit p =>
    rw [mem_ms_lit] at h
    obtain ⟨⟨q, hq⟩, rfl⟩ := h
    refine ⟨p, by simp [← hq], rfl, fun c hc => by simpa [Re.eats] using hc⟩
  | any =>
    rw [mem_ms_any] at h
    obtain ⟨x, u, hx, hn, rfl⟩ := h
    exact ⟨[x], by simpa using hx, rfl, by simpa [Re.eats] using hn⟩
  | cls neg is =>
    rw [mem_ms_cls] at h
    obtain ⟨x, u, hx, hn, rfl⟩ := h
    exact ⟨[x], by simpa using hx, rfl, by simpa [Re.eats] using hn⟩
  | seq a b iha ihb =>
    rw [mem_ms_seq] at h
    obtain ⟨u, hu, ht⟩ := h
    obtain ⟨w1, e1, p1, h1⟩ := iha _ _ hu
    obtain ⟨w2, e2, p2, h2⟩ := ihb _ _ ht
    refine ⟨w1 ++ w2, by rw [e1, e2]; simp, by rw [p2, p1]; simp; omega, fun c hc => ?_⟩
    rcases List.mem_append.1 hc with hc | hc
    · simp [Re.eats, h1 c hc]
    · simp [Re.eats, h2 c hc]
  | alt a b iha ihb =>
    rw [mem_ms_alt] at h
    rcases h with h | h
    · obtain ⟨w, e, p, hw⟩ := iha _ _ h
      exact ⟨w, e, p, fun c hc => by simp [Re.eats, hw c hc]⟩
    · obtain ⟨w, e, p, hw⟩ := ihb _ _ h
      exact ⟨w, e, p, fun c hc => by simp [Re.eats, hw c hc]⟩
  | star g r ih =>
    simp only [ms] at h
    refine iter_mem (R := fun s t => ∃ w, s.rest = w ++ t.rest ∧ t.pos = s.pos + w.length ∧ ∀ c ∈ w, r.eats c = true)
      (fun s => ⟨[], by simp⟩) ?_ ih _ _ _ h
    rintro a b c ⟨w1, e1, p1, h1⟩ ⟨w2, e2, p2, h2⟩
    refine ⟨w1 ++ w2, by rw [e1, e2]; simp, by rw [p2, p1]; simp; omega, fun c hc => ?_⟩
    rcases List.mem_append.1 hc with hc | hc
    · exact h1 c hc
    · exact h2 c hc
  | grp n r ih =>
    simp only [ms, List.mem_map] at h
    obtain ⟨u, hu, rfl⟩ := h
    exact ih s u hu
  | bos => rw [mem_ms_bos] at h; obtain ⟨-, rfl⟩ := h; exact ⟨[], by simp⟩
  | eos =>
    simp only [ms] at h
    split at h
    · simp at h; subst h; exact ⟨[], by simp⟩
    · simp at h
  | look neg r ih =>
    simp only [ms] at h
    split at h
    · split at h
      · simp at h; subst h; exact ⟨[], by simp⟩
      · simp at h
    · split at h
      · simp at h
      · simp at h; subst h; exact ⟨[], by simp⟩
  | atomic r ih =>
    simp only [ms] at h
    exact ih _ _ (List.mem_of_mem_take h)

/-- the characters with which the text of a match that is not empty can start (over-approximation) -/
def Re.first : Re → Char → Bool
  | .eps, _ => false
  | .lit p, c => p.head? == some c
  | .any, c => c != '\n'
  | .cls neg is, c => (is.any (·.test c)) != neg
  | .seq a b, c => a.first c || (a.nullable && b.first c)
  | .alt a b, c => a.first c || b.first c
  | .star _ r, c => r.first c
  | .grp _ r, c => r.first c
  | .bos, _ => false
  | .eos, _ => false
  | .look _ _, _ => false
  | .atomic r, c => r.first c

theorem ms_first (r : Re) (s t : St) (h : t ∈ ms r s) (hp : s.pos < t.pos) :
    ∃ c u, s.rest = c :: u ∧ r.first c = true := by
  induction r generalizing s t with
  | eps => simp [ms] at h; subst h; omega
  | lit p =>
    rw [mem_ms_lit] at h
    obtain ⟨⟨q, hq⟩, rfl⟩ := h
    cases p with
    | nil => simp at hp
    | cons x p => exact ⟨x, p ++ q, by simp [← hq], by simp [Re.first]⟩
  | any =>
    rw [mem_ms_any] at h
    obtain ⟨x, u, hx, hn, rfl⟩ := h
    exact ⟨x, u, hx, by simpa [Re.first] using hn⟩
  | cls neg is =>
    rw [mem_ms_cls] at h
    obtain ⟨x, u, hx, hn, rfl⟩ := h
    exact ⟨x, u, hx, by simpa [Re.first] using hn⟩
  | seq a b iha ihb =>
    rw [mem_ms_seq] at h
    obtain ⟨u, hu, ht⟩ := h
    by_cases hpu : s.pos < u.pos
    · obtain ⟨c, v, e, h1⟩ := iha _ _ hu hpu
      exact ⟨c, v, e, by simp [Re.first, h1]⟩
    · have hnull : a.nullable = true := by
        by_contra hn
        exact hpu (ms_progress a (by simpa using hn) _ _ hu)
      obtain ⟨w, e, p, -⟩ := ms_eats _ _ _ hu
      have hw : w = [] := List.eq_nil_of_length_eq_zero (by omega)
      rw [hw] at e p
      obtain ⟨c, v, e2, h1⟩ := ihb _ _ ht (by simp at p; omega)
      exact ⟨c, v, by rw [e]; simpa using e2, by simp [Re.first, hnull, h1]⟩
  | alt a b iha ihb =>
    rw [mem_ms_alt] at h
    rcases h with h | h
    · obtain ⟨c, u, e, h1⟩ := iha _ _ h hp
      exact ⟨c, u, e, by simp [Re.first, h1]⟩
    · obtain ⟨c, u, e, h1⟩ := ihb _ _ h hp
      exact ⟨c, u, e, by simp [Re.first, h1]⟩
  | star g r ih =>
    rw [mem_ms_star_of] at h
    rcases h with rfl | ⟨u, hu, hpu, -⟩
    · omega
    · obtain ⟨c, v, e, h1⟩ := ih _ _ hu hpu
      exact ⟨c, v, e, by simpa [Re.first] using h1⟩
  | grp n r ih =>
    simp only [ms, List.mem_map] at h
    obtain ⟨u, hu, rfl⟩ := h
    obtain ⟨c, v, e, h1⟩ := ih _ _ hu hp
    exact ⟨c, v, e, by simpa [Re.first] using h1⟩
  | bos => rw [mem_ms_bos] at h; obtain ⟨-, rfl⟩ := h; omega
  | eos =>
    simp only [ms] at h
    split at h
    · simp at h; subst h; omega
    · simp at h
  | look neg r ih =>
    simp only [ms] at h
    split at h
    · split at h
      · simp at h; subst h; omega
      · simp at h
    · split at h
      · simp at h
      · simp at h; subst h; simp at hp
  | atomic r ih =>
    simp only [ms] at h
    obtain ⟨c, v, e, h1⟩ := ih _ _ (List.mem_of_mem_take h) hp
    exact ⟨c, v, e, by simpa [Re.first] using h1⟩

theorem reMatch_none_iff {r : Re} {s : Str} : reMatch r s = none ↔ ∀ t, t ∉ ms r ⟨0, s, []⟩ := by
  rw [← Option.not_isSome_iff_eq_none, reMatch_isSome_iff]
  simp

/-- a pattern that needs at least one character and cannot start with the first one does not match -/
theorem reMatch_none_first {r : Re} {c : Char} {u : Str} (hn : r.nullable = false) (h : r.first c = false) :
    reMatch r (c :: u) = none := by
  rw [reMatch_none_iff]
  intro t ht
  obtain ⟨c', u', e, h1⟩ := ms_first r _ _ ht (ms_progress r hn _ _ ht)
  cases e
  rw [h] at h1; cases h1

/-- a pattern that starts with something that cannot consume `d`, followed by a text that starts with `e`, does not match
if `d` comes before the first `e` -/
theorem ms_gate {a b : Re} {p : Str} {d e : Char} {st t : St} {u v : Str} (hs : st.rest = u ++ d :: v) (he : e ∉ u)
    (hde : d ≠ e) (ha : a.eats d = false) (hp : p.head? = some e) : t ∉ ms (.seq a (.seq (.lit p) b)) st := by
  intro ht
  rw [mem_ms_seq] at ht
  obtain ⟨s1, h1, h2⟩ := ht
  rw [mem_ms_seq] at h2
  obtain ⟨s2, h2, -⟩ := h2
  rw [mem_ms_lit] at h2
  obtain ⟨⟨q, hq⟩, -⟩ := h2
  obtain ⟨w, hw, -, hall⟩ := ms_eats _ _ _ h1
  obtain ⟨p', rfl⟩ : ∃ p', p = e :: p' := by
    cases p with
    | nil => cases hp
    | cons x p' => simp at hp; exact ⟨p', by rw [hp]⟩
  rw [hs, ← hq, List.cons_append] at hw
  -- compare the positions of `d` and `e`
  rcases List.append_eq_append_iff.1 hw with ⟨x, h3, h4⟩ | ⟨x, h3, h4⟩
  · cases x with
    | nil =>
      simp at h4
      exact hde h4.1
    | cons y x =>
      simp at h4
      obtain ⟨rfl, -⟩ := h4
      have := hall d (by rw [h3]; simp)
      rw [ha] at this; cases this
  · cases x with
    | nil =>
      simp at h4
      exact hde h4.1.symm
    | cons y x =>
      simp at h4
      obtain ⟨rfl, -⟩ := h4
      exact he (by rw [h3]; simp)

/-! ## groups in loops over characters -/

/-- the captures of a loop over a group of one character -/
def pushes (n : Nat) (w : Str) (caps : List (Nat × Str)) : List (Nat × Str) := (w.map (fun c => (n, [c]))).reverse ++ caps

theorem pushes_nil (n : Nat) (caps : List (Nat × Str)) : pushes n [] caps = caps := rfl

theorem pushes_cons (n : Nat) (c : Char) (w : Str) (caps : List (Nat × Str)) :
    pushes n (c :: w) caps = pushes n w ((n, [c]) :: caps) := by
  simp [pushes]

theorem find_pushes {n k : Nat} (h : n ≠ k) (w : Str) (caps : List (Nat × Str)) :
    (pushes n w caps).find? (fun c => c.1 == k) = caps.find? (fun c => c.1 == k) := by
  induction w generalizing caps with
  | nil => rfl
  | cons c w ih => rw [pushes_cons, ih, List.find?_cons, show ((n, [c]).1 == k) = false by simpa using h]

variable {α : Type}

theorem run_grp_char {n : Nat} {r : Re} {p : Char → Bool} (h : CharRe r p) (k : St → Option α) (pos : Nat) (rest : Str)
    (caps : List (Nat × Str)) :
    run (.grp n r) k ⟨pos, rest, caps⟩ = match rest with
      | [] => none
      | x :: t => if p x then k ⟨pos + 1, t, (n, [x]) :: caps⟩ else none := by
  rw [run_grp, h]
  cases rest with
  | nil => rfl
  | cons x t => simp

/-- greedy loop over a group: takes all it can, if the rest matches then -/
theorem run_star_grp_greedy {n : Nat} {r : Re} {p : Char → Bool} (h : CharRe r p) (k : St → Option α) (pos : Nat)
    (w rest : Str) (caps : List (Nat × Str)) (hw : ∀ c ∈ w, p c = true) (hr : ∀ c u, rest = c :: u → p c = false)
    (hk : (k ⟨pos + w.length, rest, pushes n w caps⟩).isSome) :
    run (.star true (.grp n r)) k ⟨pos, w ++ rest, caps⟩ = k ⟨pos + w.length, rest, pushes n w caps⟩ := by
  induction w generalizing pos caps with
  | nil =>
    rw [run_star_greedy, run_grp_char h]
    cases rest with
    | nil => rfl
    | cons c u => simp [hr c u rfl, pushes]
  | cons c w ih =>
    have e : pos + (c :: w).length = pos + 1 + w.length := by simp; omega
    rw [pushes_cons, e] at hk ⊢
    rw [run_star_greedy, run_grp_char h, List.cons_append]
    simp only [hw c (by simp), if_true, Nat.lt_succ_self]
    rw [ih _ _ (fun x hx => hw x (List.mem_cons_of_mem _ hx)) hk]
    obtain ⟨a, ha⟩ := Option.isSome_iff_exists.1 hk
    rw [ha]; rfl

/-- greedy loop over a character -/
theorem run_star_greedy_all {r : Re} {p : Char → Bool} (h : CharRe r p) (k : St → Option α) (pos : Nat)
    (w rest : Str) (caps : List (Nat × Str)) (hw : ∀ c ∈ w, p c = true) (hr : ∀ c u, rest = c :: u → p c = false)
    (hk : (k ⟨pos + w.length, rest, caps⟩).isSome) :
    run (.star true r) k ⟨pos, w ++ rest, caps⟩ = k ⟨pos + w.length, rest, caps⟩ := by
  induction w generalizing pos with
  | nil =>
    cases rest with
    | nil => rw [List.append_nil, run_star_char_nil h]; rfl
    | cons c u => rw [List.nil_append, run_star_char_cons h, hr c u rfl]; rfl
  | cons c w ih =>
    have e : pos + (c :: w).length = pos + 1 + w.length := by simp; omega
    rw [e] at hk ⊢
    rw [List.cons_append, run_star_char_cons h, hw c (by simp), if_pos rfl,
      ih _ (fun x hx => hw x (List.mem_cons_of_mem _ hx)) hk]
    obtain ⟨a, ha⟩ := Option.isSome_iff_exists.1 hk
    rw [ha]; rfl

/-- lazy loop over a group: stops at the first place where the rest matches -/
theorem run_star_grp_lazy {n : Nat} {r : Re} {p : Char → Bool} (h : CharRe r p) (k : St → Option α) (pos : Nat)
    (w rest : Str) (caps : List (Nat × Str)) (hw : ∀ c ∈ w, p c = true)
    (hk0 : ∀ w1 w2 pos caps, w = w1 ++ w2 → w2 ≠ [] → k ⟨pos, w2 ++ rest, caps⟩ = none)
    (hk : (k ⟨pos + w.length, rest, pushes n w caps⟩).isSome) :
    run (.star false (.grp n r)) k ⟨pos, w ++ rest, caps⟩ = k ⟨pos + w.length, rest, pushes n w caps⟩ := by
  induction w generalizing pos caps with
  | nil =>
    obtain ⟨a, ha⟩ := Option.isSome_iff_exists.1 hk
    simp only [List.length_nil, Nat.add_zero, pushes_nil] at ha
    rw [run_star_lazy, List.nil_append, ha]
    simp [pushes, ha]
  | cons c w ih =>
    have e : pos + (c :: w).length = pos + 1 + w.length := by simp; omega
    rw [pushes_cons, e] at hk ⊢
    rw [run_star_lazy, hk0 [] (c :: w) pos caps rfl (by simp), run_grp_char h, List.cons_append]
    simp only [hw c (by simp), if_true, Nat.lt_succ_self, Option.none_or]
    exact ih _ _ (fun x hx => hw x (List.mem_cons_of_mem _ hx))
      (fun w1 w2 pos caps e hne => hk0 (c :: w1) w2 pos caps (by rw [e]; rfl) hne) hk

/-! ## matches without backtracking

`Leads r s t`: the first way to match `r` at `s` ends at `t`. -/

def Leads (r : Re) (s t : St) : Prop := (ms r s).head? = some t

theorem Leads.mem {r : Re} {s t : St} (h : Leads r s t) : t ∈ ms r s := List.mem_of_mem_head? (by rw [h]; rfl)

theorem Leads.run {r : Re} {s t : St} (h : Leads r s t) {k : St → Option α} (hk : (k t).isSome) : run r k s = k t := by
  unfold Oelint.run
  unfold Leads at h
  cases hm : ms r s with
  | nil => rw [hm] at h; cases h
  | cons x l =>
    rw [hm] at h
    simp at h; subst h
    obtain ⟨a, ha⟩ := Option.isSome_iff_exists.1 hk
    rw [List.findSome?_cons, ha]

theorem Leads.reMatch {r : Re} {s : Str} {t : St} (h : Leads r ⟨0, s, []⟩ t) : reMatch r s = some (mkMt ⟨0, s, []⟩ t) := by
  rw [reMatch_eq_run, h.run rfl]

theorem leads_eps (s : St) : Leads .eps s s := rfl

theorem leads_bos {s : St} (h : s.pos = 0) : Leads .bos s s := by simp [Leads, ms, h]

theorem leads_seq {a b : Re} {s u t : St} (ha : Leads a s u) (hb : Leads b u t) : Leads (.seq a b) s t := by
  unfold Leads at *
  cases hm : ms a s with
  | nil => rw [hm] at ha; cases ha
  | cons x l =>
    rw [hm] at ha
    simp at ha; subst ha
    simp [ms, hm, hb]

theorem leads_left {a b : Re} {s t : St} (ha : Leads a s t) : Leads (.alt a b) s t := by
  unfold Leads at *
  simp [ms, ha]

theorem leads_right {a b : Re} {s t : St} (ha : ∀ u, u ∉ ms a s) (hb : Leads b s t) : Leads (.alt a b) s t := by
  unfold Leads at *
  have : ms a s = [] := List.eq_nil_iff_forall_not_mem.2 ha
  simp [ms, this, hb]

theorem leads_grp {n : Nat} {r : Re} {s t : St} (h : Leads r s t) :
    Leads (.grp n r) s ⟨t.pos, t.rest, (n, s.rest.take (t.pos - s.pos)) :: t.caps⟩ := by
  unfold Leads at *
  simp [ms, h]

theorem leads_lit (p : Str) (pos : Nat) (rest : Str) (caps : List (Nat × Str)) :
    Leads (.lit p) ⟨pos, p ++ rest, caps⟩ ⟨pos + p.length, rest, caps⟩ := by
  simp [Leads, ms]

theorem leads_any {c : Char} (pos : Nat) (rest : Str) (caps : List (Nat × Str)) (h : c ≠ '\n') :
    Leads .any ⟨pos, c :: rest, caps⟩ ⟨pos + 1, rest, caps⟩ := by
  simp [Leads, ms, h]

theorem leads_cls {neg : Bool} {is : List CItem} {c : Char} (pos : Nat) (rest : Str) (caps : List (Nat × Str))
    (h : (is.any (·.test c)) ≠ neg) : Leads (.cls neg is) ⟨pos, c :: rest, caps⟩ ⟨pos + 1, rest, caps⟩ := by
  simp [Leads, ms, h]

theorem leads_lazy (r : Re) (s : St) : Leads (.star false r) s s := by
  unfold Leads; rw [ms_star]; simp

theorem leads_star {r : Re} {s u t : St} (h : Leads r s u) (hp : s.pos < u.pos) (ht : Leads (.star true r) u t) :
    Leads (.star true r) s t := by
  unfold Leads at *
  rw [ms_star]
  cases hm : ms r s with
  | nil => rw [hm] at h; cases h
  | cons x l =>
    rw [hm] at h
    simp at h; subst h
    simp [hp, ht]

theorem leads_stop {r : Re} {s : St} (h : ∀ u ∈ ms r s, ¬ s.pos < u.pos) : Leads (.star true r) s s := by
  unfold Leads
  rw [ms_star]
  have : (ms r s).filter (fun t => decide (s.pos < t.pos)) = [] := by
    rw [List.filter_eq_nil_iff]; intro u hu; simpa using h u hu
  simp [this]

theorem leads_star_cls {neg : Bool} {is : List CItem} (pos : Nat) (w rest : Str) (caps : List (Nat × Str))
    (hw : ∀ c ∈ w, (is.any (·.test c)) ≠ neg) (hr : ∀ c ∈ rest.head?, (is.any (·.test c)) = neg) :
    Leads (.star true (.cls neg is)) ⟨pos, w ++ rest, caps⟩ ⟨pos + w.length, rest, caps⟩ := by
  induction w generalizing pos with
  | nil =>
    refine leads_stop ?_
    intro u hu
    rw [mem_ms_cls] at hu
    obtain ⟨x, t, e, h1, -⟩ := hu
    exact absurd (hr x (by simp at e; rw [e]; rfl)) h1
  | cons c w ih =>
    refine leads_star (leads_cls _ _ _ (hw c (by simp))) (by simp) ?_
    have := ih (pos + 1) (fun c hc => hw c (by simp [hc]))
    rw [show pos + (c :: w).length = pos + 1 + w.length by simp; omega]
    exact this

theorem leads_star_any (pos : Nat) (w rest : Str) (caps : List (Nat × Str))
    (hw : '\n' ∉ w) (hr : ∀ c ∈ rest.head?, c = '\n') :
    Leads (.star true .any) ⟨pos, w ++ rest, caps⟩ ⟨pos + w.length, rest, caps⟩ := by
  induction w generalizing pos with
  | nil =>
    refine leads_stop ?_
    intro u hu
    rw [mem_ms_any] at hu
    obtain ⟨x, t, e, h1, -⟩ := hu
    exact absurd (hr x (by simp at e; rw [e]; rfl)) h1
  | cons c w ih =>
    refine leads_star (leads_any _ _ _ (by rintro rfl; exact hw (by simp))) (by simp) ?_
    have := ih (pos + 1) (fun h => hw (by simp [h]))
    rw [show pos + (c :: w).length = pos + 1 + w.length by simp; omega]
    exact this

theorem leads_plus_cls {neg : Bool} {is : List CItem} (pos : Nat) (w rest : Str) (caps : List (Nat × Str)) (hne : w ≠ [])
    (hw : ∀ c ∈ w, (is.any (·.test c)) ≠ neg) (hr : ∀ c ∈ rest.head?, (is.any (·.test c)) = neg) :
    Leads (.seq (.cls neg is) (.star true (.cls neg is))) ⟨pos, w ++ rest, caps⟩ ⟨pos + w.length, rest, caps⟩ := by
  cases w with
  | nil => exact absurd rfl hne
  | cons c w =>
    refine leads_seq (leads_cls _ _ _ (hw c (by simp))) ?_
    have := leads_star_cls (neg := neg) (is := is) (pos + 1) w rest caps (fun c hc => hw c (by simp [hc])) hr
    rw [show pos + (c :: w).length = pos + 1 + w.length by simp; omega]
    exact this

/-- a pattern that needs a character it cannot start with -/
theorem not_mem_first {r : Re} {s : St} (hn : r.nullable = false) (h : ∀ c ∈ s.rest.head?, r.first c = false) (u : St) :
    u ∉ ms r s := by
  intro hu
  obtain ⟨c', u', e, h1⟩ := ms_first r _ _ hu (ms_progress r hn _ _ hu)
  rw [h c' (by rw [e]; rfl)] at h1
  cases h1

theorem ms_seq_eq (a b : Re) (s : St) : ms (.seq a b) s = (ms a s).flatMap (ms b) := rfl

/-- the longest text of characters of a class that `q` follows -/
theorem leads_until {neg : Bool} {is : List CItem} {q : Str} (pos : Nat) (w rest : Str) (caps : List (Nat × Str))
    (hw : ∀ c ∈ w, (is.any (·.test c)) ≠ neg) (hq : q <+: rest)
    (hlast : ∀ w' r', rest = w' ++ r' → w' ≠ [] → (∀ c ∈ w', (is.any (·.test c)) ≠ neg) → ¬ q <+: r') :
    Leads (.seq (.star true (.cls neg is)) (.look false (.lit q))) ⟨pos, w ++ rest, caps⟩ ⟨pos + w.length, rest, caps⟩ := by
  have hlook : ∀ (p : Nat) (r : Str) (cp : List (Nat × Str)), ms (.look false (.lit q)) ⟨p, r, cp⟩ = if q <+: r then [⟨p, r, cp⟩] else [] := by
    intro p r cp
    by_cases h : q <+: r
    · have h' := List.isPrefixOf_iff_prefix.2 h
      simp [ms, h, h']
    · have h' : q.isPrefixOf r = false := by rw [Bool.eq_false_iff]; simpa using h
      simp [ms, h, h']
  -- behind the last occurrence nothing is found
  have hnone : ∀ (k : Nat) (p : Nat) (w' r' : Str), r'.length ≤ k → rest = w' ++ r' → w' ≠ [] → (∀ c ∈ w', (is.any (·.test c)) ≠ neg) →
      ms (.seq (.star true (.cls neg is)) (.look false (.lit q))) ⟨p, r', caps⟩ = [] := by
    intro k p w' r' _ e hne hall
    rw [List.eq_nil_iff_forall_not_mem]
    intro t ht
    rw [mem_ms_seq] at ht
    obtain ⟨u, hu, ht⟩ := ht
    rw [mem_ms_star_cls] at hu
    obtain ⟨x, h1, h2, h3, h4⟩ := hu
    rw [show u = ⟨u.pos, u.rest, u.caps⟩ from rfl, hlook] at ht
    have h1 : r' = x ++ u.rest := h1
    rw [if_neg (hlast (w' ++ x) u.rest (by rw [e, h1, List.append_assoc]) (by simp [hne]) (by
      intro c hc; rcases List.mem_append.1 hc with hc | hc
      · exact hall c hc
      · exact h2 c hc))] at ht
    cases ht
  have hrest : ∀ p, Leads (.seq (.star true (.cls neg is)) (.look false (.lit q))) ⟨p, rest, caps⟩ ⟨p, rest, caps⟩ := by
    intro p
    unfold Leads
    cases hr : rest with
    | nil =>
      have hst : ms (.star true (.cls neg is)) ⟨p, [], caps⟩ = [⟨p, [], caps⟩] := by
        rw [ms_star]; simp [ms]
      rw [hr] at hq
      rw [ms_seq_eq, hst, List.flatMap_cons, hlook, if_pos hq]; rfl
    | cons c r' =>
      rw [ms_seq_eq, ms_star]
      by_cases hc : (is.any (·.test c)) ≠ neg
      · have h0 := hnone _ (p + 1) [c] r' le_rfl hr (by simp) (by simpa using hc)
        rw [ms_seq_eq] at h0
        have hm : ms (.cls neg is) ⟨p, c :: r', caps⟩ = [⟨p + 1, r', caps⟩] := by simp [ms, hc]
        rw [hm]
        simp only [if_true]
        simp only [List.filter_cons, show decide (p < p + 1) = true by simp, if_true, List.filter_nil, List.flatMap_cons, List.flatMap_nil, List.append_nil]
        rw [List.flatMap_append, h0]
        simp only [List.nil_append, List.flatMap_cons, List.flatMap_nil, List.append_nil]
        rw [hlook, if_pos (hr ▸ hq)]; rfl
      · have hm : ms (.cls neg is) ⟨p, c :: r', caps⟩ = [] := by simp [ms]; simpa using hc
        rw [hm]
        simp only [if_true, List.filter_nil, List.flatMap_nil, List.nil_append, List.flatMap_cons, List.append_nil]
        rw [hlook, if_pos (hr ▸ hq)]; rfl
  induction w generalizing pos with
  | nil => exact hrest pos
  | cons c w ih =>
    have h0 := ih (pos + 1) (fun c hc => hw c (by simp [hc]))
    unfold Leads at h0 ⊢
    rw [ms_seq_eq] at h0 ⊢
    rw [ms_star]
    have hm : ms (.cls neg is) ⟨pos, c :: w ++ rest, caps⟩ = [⟨pos + 1, w ++ rest, caps⟩] := by
      have := hw c (by simp)
      simp [ms, this]
    rw [hm]
    simp only [if_true, List.filter_cons, show decide (pos < pos + 1) = true by simp, List.filter_nil, List.flatMap_cons, List.flatMap_nil, List.append_nil]
    rw [List.flatMap_append, List.head?_append, h0]
    simp; omega

end Oelint

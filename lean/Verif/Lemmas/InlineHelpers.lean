import Verif.Lemmas.InlineCalls
/-! The values of calls of the known helper functions. -/
set_option linter.unusedSectionVars false
set_option linter.unusedSimpArgs false
namespace Oelint
variable [Uni]
open Spec

/-! ## five arguments -/

section shapes
variable {lead nm rest trail v w d T F ws ws' : Str} {q q' : Char}

/-- `(.*)NAME\(.*?,\s*.*?,\s*(?P<trueval>.*?),\s*(?P<falseval>.*?),` and then `K` -/
theorem shape_five {K : Re} {cs : List (Nat × Str)} (hl : ∀ c ∈ lead, c = ' ') (hm : '(' ∉ nm) (hv : Free v) (hw : Free w)
    (hws : ∀ c ∈ ws, c = ' ') (hws' : ∀ c ∈ ws', c = ' ') (hq : q = '"' ∨ q = '\'') (hq' : q' = '"' ∨ q' = '\'') (hT : Free T) (hF : Free F)
    (hr : '(' ∉ rest)
    (hK : ∀ p, run K (fun t => some t.caps) ⟨p, rest, [(3, q' :: (F ++ [q'])), (2, q :: (T ++ [q])), (1, lead)]⟩ = some cs) :
    run (.seq (.grp 1 (.star true .any)) (.seq (.lit (nm ++ ['('])) (.seq (.star false .any) (.seq (.lit c!",")
      (.seq (.star true (.cls false [.space])) (.seq (.star false .any) (.seq (.lit c!",") (.seq (.star true (.cls false [.space]))
      (.seq (.grp 2 (.star false .any)) (.seq (.lit c!",") (.seq (.star true (.cls false [.space])) (.seq (.grp 3 (.star false .any))
      (.seq (.lit c!",") K))))))))))))) (fun t => some t.caps)
      ⟨0, lead ++ ((nm ++ ['(']) ++ (v ++ ',' :: (w ++ ',' :: ((ws ++ q :: (T ++ [q])) ++ ',' :: ((ws' ++ q' :: (F ++ [q'])) ++ ',' :: rest))))), []⟩
      = some cs := by
  have f1 := free_quoted hq hT
  have f2 := free_quoted hq' hF
  refine step_prefix (free_blank hl).newline (unique_name (free_blank hl).open hm ?_) (fun _ => ?_)
  · have := f1.open; have := f2.open; have := hv.open; have := hw.open
    have := (free_blank hws).open; have := (free_blank hws').open
    simp_all
  · exact step_until hv.newline hv.comma (fun _ _ => step_blanks_until hw.newline hw.comma (by decide) (fun _ _ =>
      step_quoted (blank_space hws) (quote_not_space hq) f1.newline f1.comma (fun _ _ =>
      step_quoted (blank_space hws') (quote_not_space hq') f2.newline f2.comma (fun p _ => hK p))))

/-- `(.*)NAME\(.*?,\s*(?P<trueval>.*?),\s*(?P<falseval>.*?)` and then `K` -/
theorem shape_vartrue {cs : List (Nat × Str)} (hl : ∀ c ∈ lead, c = ' ') (hm : '(' ∉ nm) (hv : Free v)
    (hws : ∀ c ∈ ws, c = ' ') (hws' : ∀ c ∈ ws', c = ' ') (hq : q = '"' ∨ q = '\'') (hq' : q' = '"' ∨ q' = '\'') (hT : Free T) (hF : Free F)
    {c : Char} (hc : c = ',' ∨ c = ')')
    {K : Re} (hr : '(' ∉ rest)
    (hK : ∀ p, run K (fun t => some t.caps) ⟨p, rest, [(3, q' :: (F ++ [q'])), (2, q :: (T ++ [q])), (1, lead)]⟩ = some cs) :
    run (.seq (.grp 1 (.star true .any)) (.seq (.lit (nm ++ ['('])) (.seq (.star false .any) (.seq (.lit c!",")
      (.seq (.star true (.cls false [.space]))
      (.seq (.grp 2 (.star false .any)) (.seq (.lit c!",") (.seq (.star true (.cls false [.space])) (.seq (.grp 3 (.star false .any))
      (.seq (.lit [c]) K)))))))))) (fun t => some t.caps)
      ⟨0, lead ++ ((nm ++ ['(']) ++ (v ++ ',' :: ((ws ++ q :: (T ++ [q])) ++ ',' :: ((ws' ++ q' :: (F ++ [q'])) ++ c :: rest)))), []⟩
      = some cs := by
  have f1 := free_quoted hq hT
  have f2 := free_quoted hq' hF
  have hcn : c ∉ q' :: (F ++ [q']) := by rcases hc with rfl | rfl; exact f2.comma; exact f2.close
  refine step_prefix (free_blank hl).newline (unique_name (free_blank hl).open hm ?_) (fun _ => ?_)
  · have := f1.open; have := f2.open; have := hv.open
    have := (free_blank hws).open; have := (free_blank hws').open
    have : '(' ≠ c := by rcases hc with rfl | rfl <;> decide
    simp_all
  · exact step_until hv.newline hv.comma (fun _ _ =>
      step_quoted (blank_space hws) (quote_not_space hq) f1.newline f1.comma (fun _ _ =>
      step_quoted (blank_space hws') (quote_not_space hq') f2.newline hcn (fun p _ => hK p)))

theorem shape_ifelse {cs : List (Nat × Str)} (hl : ∀ c ∈ lead, c = ' ') (hm : '(' ∉ nm) (hv : Free v)
    (hws : ∀ c ∈ ws, c = ' ') (hws' : ∀ c ∈ ws', c = ' ') (hq : q = '"' ∨ q = '\'') (hq' : q' = '"' ∨ q' = '\'') (hT : Free T) (hF : Free F)
    (hr : '(' ∉ rest) (hcs : cs = [(3, q' :: (F ++ [q'])), (2, q :: (T ++ [q])), (1, lead)]) :
    run (.seq (.grp 1 (.star true .any)) (.seq (.lit (nm ++ ['('])) (.seq (.star false .any) (.seq (.lit c!",")
      (.seq (.star true (.cls false [.space]))
      (.seq (.grp 2 (.star false .any)) (.seq (.lit c!",") (.seq (.star true (.cls false [.space])) (.seq (.grp 3 (.star false .any))
      (.lit c!")")))))))))) (fun t => some t.caps)
      ⟨0, lead ++ ((nm ++ ['(']) ++ (v ++ ',' :: ((ws ++ q :: (T ++ [q])) ++ ',' :: ((ws' ++ q' :: (F ++ [q'])) ++ ')' :: rest)))), []⟩
      = some cs := by
  have f1 := free_quoted hq hT
  have f2 := free_quoted hq' hF
  refine step_prefix (free_blank hl).newline (unique_name (free_blank hl).open hm ?_) (fun _ => ?_)
  · have := f1.open; have := f2.open; have := hv.open
    have := (free_blank hws).open; have := (free_blank hws').open
    simp_all
  · exact step_until hv.newline hv.comma (fun _ _ =>
      step_quoted (blank_space hws) (quote_not_space hq) f1.newline f1.comma (fun _ _ =>
      step_quoted_last (blank_space hws') (quote_not_space hq') f2.newline f2.close (fun p _ => by rw [hcs])))

/-- `(.*)NAME\(.*?,\s*.*?,\s*(?P<trueval>.*?),.*?\)` -/
theorem shape_both {cs : List (Nat × Str)} (hl : ∀ c ∈ lead, c = ' ') (hm : '(' ∉ nm) (hv : Free v) (hw : Free w) (hd : Free d)
    (hws : ∀ c ∈ ws, c = ' ') (hq : q = '"' ∨ q = '\'') (hT : Free T)
    (hr : '(' ∉ rest) (hcs : cs = [(2, q :: (T ++ [q])), (1, lead)]) :
    run (.seq (.grp 1 (.star true .any)) (.seq (.lit (nm ++ ['('])) (.seq (.star false .any) (.seq (.lit c!",")
      (.seq (.star true (.cls false [.space])) (.seq (.star false .any) (.seq (.lit c!",") (.seq (.star true (.cls false [.space]))
      (.seq (.grp 2 (.star false .any)) (.seq (.lit c!",") (.seq (.star false .any) (.lit c!")")))))))))))) (fun t => some t.caps)
      ⟨0, lead ++ ((nm ++ ['(']) ++ (v ++ ',' :: (w ++ ',' :: ((ws ++ q :: (T ++ [q])) ++ ',' :: (d ++ ')' :: rest))))), []⟩
      = some cs := by
  have f1 := free_quoted hq hT
  refine step_prefix (free_blank hl).newline (unique_name (free_blank hl).open hm ?_) (fun _ => ?_)
  · have := f1.open; have := hv.open; have := hw.open; have := hd.open
    have := (free_blank hws).open
    simp_all
  · exact step_until hv.newline hv.comma (fun _ _ => step_blanks_until hw.newline hw.comma (by decide) (fun _ _ =>
      step_quoted (blank_space hws) (quote_not_space hq) f1.newline f1.comma (fun _ _ =>
      step_until_last hd.newline hd.close (fun p _ => by rw [hcs]))))

/-- `(.*)NAME\(\s*(?P<trueval>.*?),.*?,.*?\)` -/
theorem shape_filter {cs : List (Nat × Str)} (hl : ∀ c ∈ lead, c = ' ') (hm : '(' ∉ nm) (hw : Free w) (hd : Free d)
    (hws : ∀ c ∈ ws, c = ' ') (hq : q = '"' ∨ q = '\'') (hT : Free T)
    (hr : '(' ∉ rest) (hcs : cs = [(2, q :: (T ++ [q])), (1, lead)]) :
    run (.seq (.grp 1 (.star true .any)) (.seq (.lit (nm ++ ['('])) (.seq (.star true (.cls false [.space]))
      (.seq (.grp 2 (.star false .any)) (.seq (.lit c!",") (.seq (.star false .any) (.seq (.lit c!",") (.seq (.star false .any)
      (.lit c!")"))))))))) (fun t => some t.caps)
      ⟨0, lead ++ ((nm ++ ['(']) ++ ((ws ++ q :: (T ++ [q])) ++ ',' :: (w ++ ',' :: (d ++ ')' :: rest)))), []⟩
      = some cs := by
  have f1 := free_quoted hq hT
  refine step_prefix (free_blank hl).newline (unique_name (free_blank hl).open hm ?_) (fun _ => ?_)
  · have := f1.open; have := hw.open; have := hd.open
    have := (free_blank hws).open
    simp_all
  · exact step_quoted (blank_space hws) (quote_not_space hq) f1.newline f1.comma (fun _ _ =>
      step_until hw.newline hw.comma (fun _ _ => step_until_last hd.newline hd.close (fun p _ => by rw [hcs])))

/-! ## distro features -/

/-- `(,\s*(?P<falseval>.*?))` -/
def featInner : Re := .grp 5 (.seq (.lit c!",") (.seq (.star true (.cls false [.space])) (.grp 6 (.star false .any))))
/-- `(,\s*(?P<trueval>.*?)(,\s*(?P<falseval>.*?))*)` -/
def featOuter : Re :=
  .grp 3 (.seq (.lit c!",") (.seq (.star true (.cls false [.space])) (.seq (.grp 4 (.star false .any)) (.star true featInner))))
/-- the part of the pattern behind the features -/
def featTail : Re := .seq (.star true featOuter) (.lit c!")")

theorem run_first_none {α : Type} {r : Re} {k : St → Option α} {p : Nat} {x : Char} {t : Str} {cs : List (Nat × Str)}
    (hn : r.nullable = false) (hx : r.first x = false) : run r k ⟨p, x :: t, cs⟩ = none := by
  rw [run_none]
  intro u hu
  exact absurd hu (not_mem_first hn (fun c hc => by cases hc; exact hx) u)

theorem featTail_none {α : Type} {k : St → Option α} {p : Nat} {x : Char} {t : Str} {cs : List (Nat × Str)} (h1 : x ≠ ',') (h2 : x ≠ ')') :
    run featTail k ⟨p, x :: t, cs⟩ = none :=
  run_first_none rfl (by simp [featTail, featOuter, Re.first, Re.nullable, Ne.symm h1, Ne.symm h2])

theorem star_skip {α : Type} {r : Re} {k : St → Option α} {p : Nat} {x : Char} {t : Str} {cs : List (Nat × Str)}
    (hn : r.nullable = false) (hx : r.first x = false) : run (.star true r) k ⟨p, x :: t, cs⟩ = k ⟨p, x :: t, cs⟩ := by
  rw [run_star_greedy, run_first_none hn hx]
  rfl

theorem featInner_first : featInner.first ')' = false := by simp [featInner, Re.first, Re.nullable]
theorem featOuter_first : featOuter.first ')' = false := by simp [featOuter, Re.first, Re.nullable]
theorem featInner_ne {x : Char} (h : x ≠ ',') : featInner.first x = false := by simp [featInner, Re.first, Re.nullable, Ne.symm h]
theorem featOuter_ne {x : Char} (h : x ≠ ',') : featOuter.first x = false := by simp [featOuter, Re.first, Re.nullable, Ne.symm h]

theorem featTail_end {α : Type} {k : St → Option α} {p : Nat} {t : Str} {cs : List (Nat × Str)} :
    run featTail k ⟨p, ')' :: t, cs⟩ = k ⟨p + 1, t, cs⟩ := by
  unfold featTail
  rw [run_seq, star_skip rfl featOuter_first, show (')' :: t : Str) = c!")" ++ t from rfl, run_lit_append]
  rfl

theorem star_once {α : Type} {r : Re} {k : St → Option α} {s : St} {v : α}
    (h : run r (fun t => if s.pos < t.pos then run (.star true r) k t else none) s = some v) : run (.star true r) k s = some v := by
  rw [run_star_greedy, h]
  rfl

section feats
variable {α : Type} {k : List (Nat × Str) → α} {p : Nat} {t : Str} {cs : List (Nat × Str)}

/-- one more argument: the group of the features stops in front of the comma, and the outer loop takes the argument -/
theorem featTail_true (hk : ∀ g cs, k ((3, g) :: cs) = k cs)
    (hws : ∀ c ∈ ws, c = ' ') (hq : q = '"' ∨ q = '\'') (hT : Free T) :
    run featTail (fun t => some (k t.caps)) ⟨p, ',' :: ((ws ++ q :: (T ++ [q])) ++ ')' :: t), cs⟩ = some (k ((4, q :: (T ++ [q])) :: cs)) := by
  have f1 := free_quoted hq hT
  unfold featTail
  rw [run_seq]
  apply star_once
  unfold featOuter
  rw [run_grp, run_seq, show (',' :: ((ws ++ q :: (T ++ [q])) ++ ')' :: t) : Str) = c!"," ++ (ws ++ (q :: (T ++ [q]) ++ ')' :: t)) by simp,
    run_lit_append]
  refine step_blanks (blank_space hws) (fun c hc => by cases hc; exact quote_not_space hq) (fun p' hp' => ?_)
  rw [run_seq]
  refine run_grp_lazy_some f1.newline (fun x hx p t cs => ?_) ?_
  · have hx1 : x ≠ ',' := fun e => f1.comma (e ▸ hx)
    have hx2 : x ≠ ')' := fun e => f1.close (e ▸ hx)
    rw [star_skip rfl (featInner_ne hx1)]
    simp only
    split
    · refine Eq.trans (star_skip rfl (featOuter_ne hx1)) ?_
      exact run_lit_last_ne hx2
    · rfl
  · rw [star_skip rfl featInner_first]
    simp only
    rw [if_pos (by simp at hp' ⊢; omega)]
    refine Eq.trans (star_skip rfl featOuter_first) ?_
    refine (run_lit_append c!")" _ _ t _).trans ?_
    simp only [hk]

/-- a comma behind the last argument: the argument is empty -/
theorem featTail_comma (hk : ∀ g cs, k ((3, g) :: cs) = k cs) (hws : ∀ c ∈ ws, c = ' ') :
    run featTail (fun t => some (k t.caps)) ⟨p, ',' :: (ws ++ ')' :: t), cs⟩ = some (k ((4, []) :: cs)) := by
  unfold featTail
  rw [run_seq]
  apply star_once
  unfold featOuter
  rw [run_grp, run_seq, show (',' :: (ws ++ ')' :: t) : Str) = c!"," ++ (ws ++ ([] ++ ')' :: t)) by simp, run_lit_append]
  refine step_blanks (blank_space hws) (fun c hc => by cases hc; decide) (fun p' hp' => ?_)
  rw [run_seq]
  refine run_grp_lazy_some (by simp) (fun x hx => by cases hx) ?_
  rw [star_skip rfl featInner_first]
  simp only
  rw [if_pos (by simp at hp' ⊢; omega)]
  refine Eq.trans (star_skip rfl featOuter_first) ?_
  refine (run_lit_append c!")" _ _ t _).trans ?_
  simp only [hk]

/-- two more arguments -/
theorem featTail_both (hk : ∀ g cs, k ((3, g) :: cs) = k cs) (hk' : ∀ g cs, k ((5, g) :: cs) = k cs)
    (hws : ∀ c ∈ ws, c = ' ') (hq : q = '"' ∨ q = '\'') (hT : Free T)
    (hws' : ∀ c ∈ ws', c = ' ') (hq' : q' = '"' ∨ q' = '\'') (hF : Free F) :
    run featTail (fun t => some (k t.caps)) ⟨p, ',' :: ((ws ++ q :: (T ++ [q])) ++ ',' :: ((ws' ++ q' :: (F ++ [q'])) ++ ')' :: t)), cs⟩ =
      some (k ((6, q' :: (F ++ [q'])) :: (4, q :: (T ++ [q])) :: cs)) := by
  have f1 := free_quoted hq hT
  have f2 := free_quoted hq' hF
  unfold featTail
  rw [run_seq]
  apply star_once
  unfold featOuter
  rw [run_grp, run_seq, show (',' :: ((ws ++ q :: (T ++ [q])) ++ ',' :: ((ws' ++ q' :: (F ++ [q'])) ++ ')' :: t)) : Str) =
    c!"," ++ (ws ++ (q :: (T ++ [q]) ++ ',' :: ((ws' ++ q' :: (F ++ [q'])) ++ ')' :: t))) by simp, run_lit_append]
  refine step_blanks (blank_space hws) (fun c hc => by cases hc; exact quote_not_space hq) (fun p' hp' => ?_)
  rw [run_seq]
  refine run_grp_lazy_some f1.newline (fun x hx p t cs => ?_) ?_
  · have hx1 : x ≠ ',' := fun e => f1.comma (e ▸ hx)
    have hx2 : x ≠ ')' := fun e => f1.close (e ▸ hx)
    rw [star_skip rfl (featInner_ne hx1)]
    simp only
    split
    · refine Eq.trans (star_skip rfl (featOuter_ne hx1)) ?_
      exact run_lit_last_ne hx2
    · rfl
  · apply star_once
    unfold featInner
    rw [run_grp, run_seq, show (',' :: ((ws' ++ q' :: (F ++ [q'])) ++ ')' :: t) : Str) = c!"," ++ (ws' ++ (q' :: (F ++ [q']) ++ ')' :: t)) by simp,
      run_lit_append]
    refine step_blanks (blank_space hws') (fun c hc => by cases hc; exact quote_not_space hq') (fun p'' hp'' => ?_)
    refine run_grp_lazy_some f2.newline (fun x hx p t cs => ?_) ?_
    · have hx1 : x ≠ ',' := fun e => f2.comma (e ▸ hx)
      have hx2 : x ≠ ')' := fun e => f2.close (e ▸ hx)
      simp only
      split
      · refine Eq.trans (star_skip rfl (featInner_ne hx1)) ?_
        simp only
        split
        · refine Eq.trans (star_skip rfl (featOuter_ne hx1)) ?_
          exact run_lit_last_ne hx2
        · rfl
      · rfl
    · simp only
      rw [if_pos (by simp at hp'' ⊢; omega)]
      refine Eq.trans (star_skip rfl featInner_first) ?_
      simp only
      rw [if_pos (by simp at hp' hp'' ⊢; omega)]
      refine Eq.trans (star_skip rfl featOuter_first) ?_
      refine (run_lit_append c!")" _ _ t _).trans ?_
      simp only [hk, hk']

/-- `(.*)NAME\(.*?,\s*(?P<feature>.*?)` and then the rest of the pattern -/
theorem shape_feat {β : Type} {kk : St → Option β} {v' : β} (hl : ∀ c ∈ lead, c = ' ') (hm : '(' ∉ nm) (hv : Free v) (hw : Free w)
    (hr : '(' ∉ rest) (hr0 : ∃ x, rest.head? = some x ∧ reSpace x = false)
    (hK : ∀ p g, run featTail kk ⟨p, rest, [(2, g), (1, lead)]⟩ = some v') :
    run (.seq (.grp 1 (.star true .any)) (.seq (.lit (nm ++ ['('])) (.seq (.star false .any) (.seq (.lit c!",")
      (.seq (.star true (.cls false [.space])) (.seq (.grp 2 (.star false .any)) featTail)))))) kk
      ⟨0, lead ++ ((nm ++ ['(']) ++ (v ++ ',' :: (w ++ rest))), []⟩ = some v' := by
  refine step_prefix (free_blank hl).newline (unique_name (free_blank hl).open hm ?_) (fun _ => ?_)
  · have := hv.open; have := hw.open
    simp_all
  · refine step_until hv.newline hv.comma (fun _ _ => ?_)
    have e : w ++ rest = w.takeWhile reSpace ++ (w.dropWhile reSpace ++ rest) := by
      rw [← List.append_assoc, List.takeWhile_append_dropWhile]
    have hsub : ∀ x ∈ w.dropWhile reSpace, x ∈ w := fun x hx => (List.dropWhile_sublist _).subset hx
    rw [e]
    refine step_blanks (fun x hx => List.mem_takeWhile_imp hx) ?_ (fun p _ => ?_)
    · intro x hx
      have := List.head?_dropWhile_not reSpace w
      cases hd : w.dropWhile reSpace with
      | nil =>
        rw [hd] at hx
        obtain ⟨y, hy, hy'⟩ := hr0
        rw [List.nil_append, hy] at hx
        cases hx; exact hy'
      | cons y l =>
        rw [hd] at hx this
        cases hx
        simpa using this
    · rw [run_seq]
      exact run_grp_lazy_some (fun h => hw.newline (hsub _ h))
        (fun x hx p t cs => featTail_none (fun e => hw.comma (e ▸ hsub _ hx)) (fun e => hw.close (e ▸ hsub _ hx))) (hK _ _)

end feats
end shapes
end Oelint

import Verif.Lemmas.Statements
import Verif.Lemmas.Names
/-! Comments, `unset`, `addtask`, `deltask`: what the patterns make of them. -/
set_option linter.unusedSectionVars false
set_option linter.unusedSimpArgs false
namespace Oelint
variable [Uni]
open Spec

/-! ## comments -/

theorem space_or_tab {c : Char} {g : Nat} {pos : Nat} {rest : Str} {caps : List (Nat × Str)} (h : reSpace c = true) :
    Leads (.grp g (.alt (.cls false [.space]) (.lit c!"\t"))) ⟨pos, c :: rest, caps⟩ ⟨pos + 1, rest, (g, [c]) :: caps⟩ := by
  have := leads_grp (n := g) (leads_left (b := .lit c!"\t") (leads_cls (neg := false) (is := [.space]) pos rest caps
    (c := c) (by simp [CItem.test, h])))
  simpa using this

theorem reComments_match {ws r : Str} (h : ∀ c ∈ ws, reSpace c = true) : (reMatch reComments.re (ws ++ '#' :: r)).isSome := by
  rw [reMatch_isSome_iff]
  have h1 : ∀ (ws : Str) (pos : Nat) (caps : List (Nat × Str)), (∀ c ∈ ws, reSpace c = true) →
      ∃ caps', Leads (.star true (.grp 1 (.alt (.cls false [.space]) (.lit c!"\t")))) ⟨pos, ws ++ '#' :: r, caps⟩
        ⟨pos + ws.length, '#' :: r, caps'⟩ := by
    intro ws
    induction ws with
    | nil =>
      intro pos caps _
      refine ⟨caps, leads_stop ?_⟩
      intro u hu
      exact absurd hu (not_mem_first rfl (by intro c hc; simp at hc; subst hc; rfl) u)
    | cons c ws ih =>
      intro pos caps hall
      obtain ⟨caps', h2⟩ := ih (pos + 1) ((1, [c]) :: caps) (fun c hc => hall c (by simp [hc]))
      refine ⟨caps', ?_⟩
      have := leads_star (space_or_tab (g := 1) (pos := pos) (rest := ws ++ '#' :: r) (caps := caps) (hall c (by simp))) (by simp) h2
      rw [show pos + (c :: ws).length = pos + 1 + ws.length by simp; omega]
      exact this
  obtain ⟨caps', h2⟩ := h1 ws 0 [] h
  refine ⟨⟨ws.length + 1, r, (2, []) :: caps'⟩, ?_⟩
  simp only [reComments]
  rw [mem_ms_seq]
  refine ⟨⟨0, ws ++ '#' :: r, []⟩, by rw [mem_ms_bos]; simp, ?_⟩
  rw [mem_ms_seq]
  refine ⟨_, h2.mem, ?_⟩
  rw [mem_ms_seq]
  refine ⟨⟨ws.length + 1, r, caps'⟩, ?_, ?_⟩
  · rw [mem_ms_seq]
    refine ⟨⟨ws.length + 1, r, caps'⟩, by rw [mem_ms_lit]; simp, ?_⟩
    rw [mem_ms_star_of]; exact Or.inl rfl
  · rw [mem_ms_seq]
    refine ⟨⟨ws.length + 1, r, caps'⟩, by rw [mem_ms_star_of]; exact Or.inl rfl, ?_⟩
    simp only [ms, List.mem_map]
    refine ⟨⟨ws.length + 1, r, caps'⟩, ?_, by simp⟩
    have := (mem_ms_star_of (g := true) (r := .any) (s := ⟨ws.length + 1, r, caps'⟩) (t := ⟨ws.length + 1, r, caps'⟩)).2 (Or.inl rfl)
    simpa [ms] using this

theorem reComments_iff {s : Str} : (reMatch reComments.re s).isSome ↔ StartsWithHash s := by
  constructor
  · rw [reMatch_isSome_iff]
    rintro ⟨t, ht⟩
    simp only [reComments, mem_ms_seq, mem_ms_bos] at ht
    obtain ⟨u, ⟨-, rfl⟩, v, hv, x, ⟨y, hy, -⟩, -⟩ := ht
    obtain ⟨w, h1, -, h3⟩ := ms_eats _ _ _ hv
    rw [mem_ms_lit] at hy
    obtain ⟨⟨q, hq⟩, -⟩ := hy
    refine ⟨w, q, ?_, ?_⟩
    · have h1 : s = w ++ v.rest := h1
      rw [h1, ← hq]; rfl
    · intro c hc
      have := h3 c hc
      simp [Re.eats, CItem.test] at this
      rcases this with h | rfl
      · exact h
      · rfl
  · rintro ⟨ws, r, rfl, h⟩
    exact reComments_match h

/-- only the pattern for comments makes comments -/
theorem handleKind_comment {W : World} {add : AddFn} {file : Str} {l : Int} {p : Params} {k : Kind} {pat : Pattern} {m : Mt}
    {s s' : Stash} {it : Item} {d : Int} (h : handleKind W add file l p k pat m s = (.ok (some (it, d)), s'))
    (hc : it.payload = .comment) : k = .comment := by
  cases k with
  | comment => rfl
  | addtask =>
    rw [handleKind] at h
    split at h
    · cases h
    · simp only [M.bind_def, freshUid, M.pure_def, Prod.mk.injEq, Except.ok.injEq, Option.some.injEq] at h
      obtain ⟨⟨rfl, -⟩, -⟩ := h
      simp [mkTaskAdd, mkItem, mkItemD] at hc
  | «include» =>
    rw [handleKind] at h
    obtain ⟨nm, s1, -, h⟩ := M.bind_ok.1 h
    obtain ⟨path, s2, -, h⟩ := M.bind_ok.1 h
    split at h
    · simp only [M.bind_def, freshUid, M.pure_def, Prod.mk.injEq, Except.ok.injEq, Option.some.injEq] at h
      obtain ⟨⟨rfl, -⟩, -⟩ := h
      simp [mkItem, mkItemD] at hc
    · obtain ⟨ign, s3, -, h⟩ := M.bind_ok.1 h
      split at h
      · cases h
      · obtain ⟨tmp, s4, -, h⟩ := M.bind_ok.1 h
        simp only [M.bind_def, freshUid, M.pure_def, Prod.mk.injEq, Except.ok.injEq, Option.some.injEq] at h
        obtain ⟨⟨rfl, -⟩, -⟩ := h
        simp [mkItem, mkItemD] at hc
  | «inherit» =>
    rw [handleKind] at h
    obtain ⟨nm, s1, -, h⟩ := M.bind_ok.1 h
    obtain ⟨fo, s2, -, h⟩ := M.bind_ok.1 h
    simp only [M.bind_def, freshUid, M.pure_def, Prod.mk.injEq, Except.ok.injEq, Option.some.injEq] at h
    obtain ⟨⟨rfl, -⟩, -⟩ := h
    simp [mkItem, mkItemD] at hc
  | inheritGlob =>
    rw [handleKind] at h
    obtain ⟨nm, s1, -, h⟩ := M.bind_ok.1 h
    obtain ⟨fo, s2, -, h⟩ := M.bind_ok.1 h
    simp only [M.bind_def, freshUid, M.pure_def, Prod.mk.injEq, Except.ok.injEq, Option.some.injEq] at h
    obtain ⟨⟨rfl, -⟩, -⟩ := h
    simp [mkItem, mkItemD] at hc
  | func =>
    rw [handleKind] at h
    obtain ⟨kn, s1, -, h⟩ := M.bind_ok.1 h
    simp only [M.bind_def, freshUid, M.pure_def, Prod.mk.injEq, Except.ok.injEq, Option.some.injEq] at h
    obtain ⟨⟨rfl, -⟩, -⟩ := h
    simp [mkFunction, mkItem, mkItemD] at hc
  | _ =>
    simp only [handleKind, M.bind_def, M.ask, freshUid, M.pure_def, Prod.mk.injEq, Except.ok.injEq, Option.some.injEq] at h
    obtain ⟨⟨rfl, -⟩, -⟩ := h
    simp [mkVariable, mkFunction, mkTaskDel, mkItem, mkItemD] at hc

theorem classify_comment {W : World} {add : AddFn} {file : Str} {l : Int} {p : Params} {cnt : Str} {s s' : Stash} {it : Item} {d : Int}
    (h : classify W add file l p cnt parseOrder s = (.ok (it, d), s')) : it.payload = .comment ↔ StartsWithHash cnt := by
  rw [← reComments_iff]
  cases hm : reMatch reComments.re cnt with
  | some m =>
    simp only [parseOrder, classify, hm, handleKind, M.bind_def, freshUid, M.pure_def, Prod.mk.injEq, Except.ok.injEq] at h
    obtain ⟨⟨rfl, -⟩, -⟩ := h
    simp [mkItem, mkItemD]
  | none =>
    have h2 : ∀ (l' : List (Kind × Pattern)) (s : Stash), (∀ kp ∈ l', kp.1 ≠ .comment) →
        classify W add file l p cnt l' s = (.ok (it, d), s') → it.payload ≠ .comment := by
      intro l'
      induction l' with
      | nil =>
        intro s _ h
        simp only [classify, M.bind_def, freshUid, M.pure_def, Prod.mk.injEq, Except.ok.injEq] at h
        obtain ⟨⟨rfl, -⟩, -⟩ := h
        simp [mkItem, mkItemD]
      | cons kp l' ih =>
        obtain ⟨k, pat⟩ := kp
        intro s hk h
        rw [classify] at h
        cases hpm : reMatch pat.re cnt with
        | none =>
          simp only [hpm] at h
          exact ih s (fun kp hkp => hk kp (by simp [hkp])) h
        | some mm =>
          simp only [hpm] at h
          obtain ⟨o, s1, h1, h2⟩ := M.bind_ok.1 h
          cases o with
          | none => exact ih s1 (fun kp hkp => hk kp (by simp [hkp])) h2
          | some r =>
            simp only [M.pure_def, Prod.mk.injEq, Except.ok.injEq] at h2
            obtain ⟨rfl, -⟩ := h2
            intro hc
            exact hk (k, pat) (by simp) (handleKind_comment h1 hc)
    have : parseOrder = (.comment, reComments) :: parseOrder.tail := rfl
    rw [this, classify] at h
    simp only [hm] at h
    simp only [Option.isSome_none, Bool.false_eq_true, iff_false]
    refine h2 _ _ ?_ h
    intro kp hkp
    simp only [parseOrder, List.tail_cons, List.mem_cons, List.not_mem_nil, or_false] at hkp
    rcases hkp with rfl | rfl | rfl | rfl | rfl | rfl | rfl | rfl | rfl | rfl | rfl | rfl | rfl | rfl | rfl | rfl <;> simp

/-- joining lines and marking continuations does not change whether a text starts with a hash -/
theorem startsWithHash_cntOf (raw : Str) : StartsWithHash (cntOf raw) ↔ StartsWithHash raw := by
  rw [cntOf_eq]
  induction raw with
  | nil => rfl
  | cons c t ih =>
    have hskip : ∀ {c : Char} {t : Str}, reSpace c = true → (StartsWithHash (c :: t) ↔ StartsWithHash t) := by
      intro c t hc
      constructor
      · rintro ⟨ws, r, e, h⟩
        cases ws with
        | nil => simp at e; rw [e.1] at hc; exact absurd hc (by decide)
        | cons x ws => simp at e; exact ⟨ws, r, e.2, fun c hc => h c (by simp [hc])⟩
      · rintro ⟨ws, r, rfl, h⟩
        exact ⟨c :: ws, r, rfl, by simpa [hc] using h⟩
    have hother : ∀ {c : Char} {t : Str}, reSpace c = false → (StartsWithHash (c :: t) ↔ c = '#') := by
      intro c t hc
      constructor
      · rintro ⟨ws, r, e, h⟩
        cases ws with
        | nil => simp at e; exact e.1
        | cons x ws => simp at e; rw [e.1] at hc; rw [h x (by simp)] at hc; cases hc
      · rintro rfl
        exact ⟨[], t, rfl, by simp⟩
    by_cases hn : c = '\n'
    · subst hn
      rw [hskip (show reSpace '\n' = true by decide)]
      simpa using ih
    · rw [List.filter_cons, if_pos (by simpa using hn), List.map_cons]
      by_cases hb : c = '\\'
      · subst hb
        rw [if_pos rfl, hother (by decide), hother (by decide)]
        decide
      · rw [if_neg hb]
        cases hc : reSpace c with
        | true => rw [hskip hc, hskip hc]; exact ih
        | false => rw [hother hc, hother hc]

/-! ## lines without parentheses are no functions -/

theorem not_func_paren {s : Str} (h : '(' ∉ s) : reMatch reFunc.re s = none := by
  rw [reMatch_none_iff]
  intro t ht
  simp only [reFunc, mem_ms_seq, mem_ms_bos] at ht
  obtain ⟨u, ⟨-, rfl⟩, v, hv, x, hx, y, hy, z, hz, -⟩ := ht
  obtain ⟨w1, e1, -⟩ := ms_eats _ _ _ hv
  obtain ⟨w2, e2, -⟩ := ms_eats _ _ _ hx
  obtain ⟨w3, e3, -⟩ := ms_eats _ _ _ hy
  rw [mem_ms_lit] at hz
  obtain ⟨⟨q, hq⟩, -⟩ := hz
  have e1 : s = w1 ++ v.rest := e1
  rw [e2, e3, ← hq] at e1
  exact h (by rw [e1]; simp)

/-! ## unset -/

theorem spaces_plus {g : Nat} {pos : Nat} {ws rest : Str} {caps : List (Nat × Str)} (hne : ws ≠ []) (h : ∀ c ∈ ws, reSpace c = true)
    (hr : ∀ c ∈ rest.head?, reSpace c = false) :
    Leads (.grp g (.alt (.seq (.cls false [.space]) (.star true (.cls false [.space]))) (.seq (.lit c!"\t") (.star true (.lit c!"\t")))))
      ⟨pos, ws ++ rest, caps⟩ ⟨pos + ws.length, rest, (g, ws) :: caps⟩ := by
  have h1 := leads_plus_cls (neg := false) (is := [.space]) pos ws rest caps hne (by intro c hc; simp [CItem.test, h c hc])
    (by intro c hc; simp [CItem.test, hr c hc])
  have := leads_grp (n := g) (leads_left (b := .seq (.lit c!"\t") (.star true (.lit c!"\t"))) h1)
  simpa using this

theorem no_spaces_plus {g : Nat} {pos : Nat} {rest : Str} {caps : List (Nat × Str)} (hr : ∀ c ∈ rest.head?, reSpace c = false) :
    Leads (.star true (.grp g (.alt (.seq (.cls false [.space]) (.star true (.cls false [.space]))) (.seq (.lit c!"\t") (.star true (.lit c!"\t"))))))
      ⟨pos, rest, caps⟩ ⟨pos, rest, caps⟩ := by
  refine leads_stop ?_
  intro u hu
  refine absurd hu (not_mem_first rfl ?_ u)
  intro c hc
  have h1 := hr c hc
  have h2 : c ≠ '\t' := by rintro rfl; exact absurd h1 (by decide)
  simp [Re.first, CItem.test, h1, Ne.symm h2]

/-- the way to the name in an `unset` -/
theorem unset_head {ws m : Str} {c : Char} {t : St} (hne : ws ≠ []) (h : ∀ c ∈ ws, reSpace c = true) (hc : reSpace c = false)
    (ht : Leads (.star true (.grp 4 (.seq (.star true (.lit c!"[")) (.seq (.grp 5 (.seq .any (.star true .any))) (.lit c!"]")))))
      ⟨5 + ws.length + 1, m, [(3, [c]), (2, ws)]⟩ t) :
    reMatch reUnset.re (c!"unset" ++ (ws ++ c :: m)) = some (mkMt ⟨0, c!"unset" ++ (ws ++ c :: m), []⟩ t) := by
  refine Leads.reMatch ?_
  refine leads_seq (leads_bos rfl) (leads_seq (u := ⟨0, c!"unset" ++ (ws ++ c :: m), []⟩) ?_
    (leads_seq (u := ⟨5, ws ++ c :: m, []⟩) ?_ (leads_seq (u := ⟨5 + ws.length, c :: m, [(2, ws)]⟩) ?_
      (leads_seq (u := ⟨5 + ws.length + 1, m, [(3, [c]), (2, ws)]⟩) ?_ ht))))
  · exact no_spaces_plus (by intro c hc; simp at hc; subst hc; decide)
  · exact leads_lit c!"unset" 0 _ _
  · refine leads_seq (spaces_plus hne h ?_) (no_spaces_plus ?_)
    · intro x hx; simp at hx; subst hx; exact hc
    · intro x hx; simp at hx; subst hx; exact hc
  · have hn : c ≠ '\n' := by rintro rfl; exact absurd hc (by decide)
    have := leads_grp (n := 3) (leads_seq (leads_any (5 + ws.length) m [(2, ws)] hn) (leads_lazy .any _))
    simpa using this

theorem reUnset_plain {ws m : Str} {c : Char} (hne : ws ≠ []) (h : ∀ c ∈ ws, reSpace c = true) (hc : reSpace c = false) (hm : ']' ∉ m) :
    ∃ mt, reMatch reUnset.re (c!"unset" ++ (ws ++ c :: m)) = some mt ∧ reUnset.group mt c!"varname" = some [c] ∧
      reUnset.group mt c!"flag" = none := by
  refine ⟨_, unset_head hne h hc (leads_stop ?_), rfl, rfl⟩
  intro u hu
  exfalso
  simp only [ms, List.mem_map, List.mem_flatMap] at hu
  obtain ⟨y, ⟨a, ha, b, hb, hy⟩, -⟩ := hu
  have hy' : y ∈ ms (.lit c!"]") b := hy
  rw [mem_ms_lit] at hy'
  obtain ⟨⟨q, hq⟩, -⟩ := hy'
  have hb' : b ∈ ms (.grp 5 (.seq .any (.star true .any))) a := by
    simp only [ms, List.mem_map, List.mem_flatMap]; exact hb
  have ha' : a ∈ ms (.star true (.lit c!"[")) ⟨5 + ws.length + 1, m, [(3, [c]), (2, ws)]⟩ := ha
  obtain ⟨w1, e1, -⟩ := ms_eats _ _ _ ha'
  obtain ⟨w2, e2, -⟩ := ms_eats _ _ _ hb'
  have e1 : m = w1 ++ a.rest := e1
  rw [e2, ← hq] at e1
  exact hm (by rw [e1]; simp)

/-- all but the last character is left by the second choice -/
theorem ms_star_any_last (pos : Nat) (w : Str) (d : Char) (caps : List (Nat × Str)) (hw : '\n' ∉ w) (hd : d ≠ '\n') :
    ∃ l, ms (.star true .any) ⟨pos, w ++ [d], caps⟩ = ⟨pos + w.length + 1, [], caps⟩ :: ⟨pos + w.length, [d], caps⟩ :: l := by
  induction w generalizing pos with
  | nil =>
    refine ⟨[], ?_⟩
    have h0 : ms .any ⟨pos, [d], caps⟩ = [⟨pos + 1, [], caps⟩] := by simp [ms, hd]
    have h1 : ms (.star true .any) ⟨pos + 1, [], caps⟩ = [⟨pos + 1, [], caps⟩] := by
      rw [ms_star]; simp [ms]
    rw [List.nil_append, ms_star, h0]
    simp [h1]
  | cons c w ih =>
    have hc : c ≠ '\n' := by rintro rfl; exact hw (by simp)
    obtain ⟨l, ih⟩ := ih (pos + 1) (fun h => hw (by simp [h]))
    have h0 : ms .any ⟨pos, c :: w ++ [d], caps⟩ = [⟨pos + 1, w ++ [d], caps⟩] := by simp [ms, hc]
    rw [ms_star, h0]
    simp only [if_true, List.filter_cons, show decide (pos < pos + 1) = true by simp, List.filter_nil, List.flatMap_cons, List.flatMap_nil, List.append_nil]
    rw [ih]
    refine ⟨l ++ [⟨pos, c :: w ++ [d], caps⟩], ?_⟩
    simp only [List.length_cons, List.cons_append, List.cons.injEq, and_true, St.mk.injEq, true_and]
    omega

theorem reUnset_flag {ws f : Str} {c : Char} (hne : ws ≠ []) (h : ∀ c ∈ ws, reSpace c = true) (hc : reSpace c = false)
    (hf : f ≠ []) (hfn : '\n' ∉ f) (hfb : f.head? ≠ some '[') :
    ∃ mt, reMatch reUnset.re (c!"unset" ++ (ws ++ c :: '[' :: (f ++ c!"]"))) = some mt ∧ reUnset.group mt c!"varname" = some [c] ∧
      reUnset.group mt c!"flag" = some f := by
  obtain ⟨x, f', rfl⟩ := List.exists_cons_of_ne_nil hf
  have hx : x ≠ '\n' := by rintro rfl; exact hfn (by simp)
  have hx2 : x ≠ '[' := by rintro rfl; exact hfb rfl
  have h1 : Leads (.star true (.lit c!"[")) ⟨5 + ws.length + 1, '[' :: ((x :: f') ++ c!"]"), [(3, [c]), (2, ws)]⟩
      ⟨5 + ws.length + 2, (x :: f') ++ c!"]", [(3, [c]), (2, ws)]⟩ := by
    refine leads_star (leads_lit c!"[" (5 + ws.length + 1) ((x :: f') ++ c!"]") _) (by simp) (leads_stop ?_)
    intro u hu
    rw [mem_ms_lit] at hu
    obtain ⟨⟨q, hq⟩, -⟩ := hu
    simp at hq
    exact absurd hq.1.symm hx2
  have h2 : Leads (.seq (.grp 5 (.seq .any (.star true .any))) (.lit c!"]")) ⟨5 + ws.length + 2, (x :: f') ++ c!"]", [(3, [c]), (2, ws)]⟩
      ⟨5 + ws.length + 2 + (x :: f').length + 1, [], [(5, x :: f'), (3, [c]), (2, ws)]⟩ := by
    obtain ⟨l, hl⟩ := ms_star_any_last (5 + ws.length + 2 + 1) f' ']' [(3, [c]), (2, ws)] (fun h => hfn (by simp [h])) (by decide)
    have h0 : ms .any ⟨5 + ws.length + 2, x :: f' ++ c!"]", [(3, [c]), (2, ws)]⟩ = [⟨5 + ws.length + 2 + 1, f' ++ c!"]", [(3, [c]), (2, ws)]⟩] := by
      simp [ms, hx]
    unfold Leads
    rw [ms_seq_eq]
    have hg : ∀ s, ms (.grp 5 (.seq .any (.star true .any))) s =
        (ms (.seq .any (.star true .any)) s).map (fun t => ⟨t.pos, t.rest, (5, s.rest.take (t.pos - s.pos)) :: t.caps⟩) := fun _ => rfl
    rw [hg, ms_seq_eq, h0, List.flatMap_cons, hl]
    simp [ms]
    refine ⟨by omega, ?_⟩
    rw [show 5 + ws.length + 2 + 1 + f'.length - (5 + ws.length + 2) = (x :: f').length by simp; omega, ← List.cons_append, List.take_left]
  have e : ('[' :: ((x :: f') ++ c!"]")).take (5 + ws.length + 2 + (x :: f').length + 1 - (5 + ws.length + 1)) =
      '[' :: ((x :: f') ++ c!"]") := by
    rw [List.take_of_length_le]; simp; omega
  have h3 := leads_grp (n := 4) (leads_seq h1 h2)
  simp only [e] at h3
  refine ⟨_, unset_head hne h hc (leads_star h3 (by simp; omega) (leads_stop ?_)), rfl, rfl⟩
  intro u hu
  have hl := Adv.length (ms_adv _ _ _ hu)
  simp at hl
  simp; omega

/-! ## addtask -/

/-- a clause of `addtask`: `kw` and names up to the last `other` -/
def clauseRe (kw other : Str) (g1 g2 g3 g4 g5 : Nat) : Re :=
  .grp g1 (.seq (.lit kw) (.seq (.star true (.cls false [.space])) (.grp g2 (.grp g3 (.alt
    (.grp g4 (.seq (.star true (.cls true [.one '#', .one '\n'])) (.look false (.lit other))))
    (.grp g5 (.star true (.cls true [.one '#', .one '\n']))))))))

def lookFree (other rest : Str) : Prop :=
  ∀ w r, rest = w ++ r → (∀ c ∈ w, c ≠ '#' ∧ c ≠ '\n') → ¬ other <+: r

theorem clause_leads {kw other : Str} {g1 g2 g3 g4 g5 pos : Nat} {sp w rest : Str} {caps : List (Nat × Str)}
    (hsp : ∀ c ∈ sp, reSpace c = true) (hw : ∀ c ∈ (w ++ rest).head?, reSpace c = false)
    (hwn : ∀ c ∈ w, c ≠ '#' ∧ c ≠ '\n')
    (hcase : (other <+: rest ∧ ∀ c r, rest = c :: r → lookFree other r) ∨
      (lookFree other (w ++ rest) ∧ ∀ c ∈ rest.head?, c = '#' ∨ c = '\n')) :
    ∃ caps1, Leads (clauseRe kw other g1 g2 g3 g4 g5) ⟨pos, kw ++ (sp ++ (w ++ rest)), caps⟩
      ⟨pos + (kw.length + (sp.length + w.length)), rest, (g1, kw ++ (sp ++ w)) :: (g2, w) :: (g3, w) :: (caps1, w) :: caps⟩ ∧
      (caps1 = g4 ∨ caps1 = g5) := by
  have htest : ∀ c : Char, (([CItem.one '#', .one '\n'] : List CItem).any (·.test c)) ≠ true ↔ c ≠ '#' ∧ c ≠ '\n' := by
    intro c; simp [CItem.test]
  have htest2 : ∀ c : Char, (([CItem.one '#', .one '\n'] : List CItem).any (·.test c)) = true ↔ c = '#' ∨ c = '\n' := by
    intro c; simp [CItem.test]
  have h1 : Leads (.star true (.cls false [.space])) ⟨pos + kw.length, sp ++ (w ++ rest), caps⟩
      ⟨pos + kw.length + sp.length, w ++ rest, caps⟩ := by
    refine leads_star_cls _ _ _ _ ?_ ?_
    · intro c hc; simp [CItem.test, hsp c hc]
    · intro c hc; simp [CItem.test, hw c hc]
  have hbody : ∃ caps1, Leads (.alt (.grp g4 (.seq (.star true (.cls true [.one '#', .one '\n'])) (.look false (.lit other))))
      (.grp g5 (.star true (.cls true [.one '#', .one '\n'])))) ⟨pos + kw.length + sp.length, w ++ rest, caps⟩
      ⟨pos + kw.length + sp.length + w.length, rest, (caps1, w) :: caps⟩ ∧ (caps1 = g4 ∨ caps1 = g5) := by
    rcases hcase with ⟨hq, hlast⟩ | ⟨hfree, hend⟩
    · refine ⟨g4, leads_left ?_, Or.inl rfl⟩
      have := leads_grp (n := g4) (leads_until (neg := true) (is := [.one '#', .one '\n']) (q := other) (pos + kw.length + sp.length) w rest caps
        (fun c hc => (htest c).2 (hwn c hc)) hq (by
          intro w' r' e hne hall
          cases w' with
          | nil => exact absurd rfl hne
          | cons x w' =>
            rw [List.cons_append] at e
            exact hlast x _ e w' r' rfl (fun c hc => (htest c).1 (hall c (by simp [hc])))))
      simpa using this
    · refine ⟨g5, leads_right ?_ ?_, Or.inr rfl⟩
      · intro u hu
        simp only [ms, List.mem_map] at hu
        obtain ⟨y, hy, -⟩ := hu
        have hy' : y ∈ ms (.seq (.star true (.cls true [.one '#', .one '\n'])) (.look false (.lit other))) ⟨pos + kw.length + sp.length, w ++ rest, caps⟩ := hy
        rw [mem_ms_seq] at hy'
        obtain ⟨z, hz, hz2⟩ := hy'
        rw [mem_ms_star_cls] at hz
        obtain ⟨x, e, hall, -, -⟩ := hz
        have := hfree x z.rest e (fun c hc => (htest c).1 (hall c hc))
        have hnp : other.isPrefixOf z.rest = false := by rw [Bool.eq_false_iff]; simpa using this
        simp [ms, hnp] at hz2
      · have := leads_grp (n := g5) (leads_star_cls (neg := true) (is := [.one '#', .one '\n']) (pos + kw.length + sp.length) w rest caps
          (fun c hc => (htest c).2 (hwn c hc)) (fun c hc => (htest2 c).2 (hend c hc)))
        simpa using this
  obtain ⟨caps1, hb, hc⟩ := hbody
  refine ⟨caps1, ?_, hc⟩
  have h2 := leads_grp (n := g1) (leads_seq (leads_lit kw pos (sp ++ (w ++ rest)) caps) (leads_seq h1 (leads_grp (n := g2) (leads_grp (n := g3) hb))))
  have e1 : (kw ++ (sp ++ (w ++ rest))).take (pos + kw.length + sp.length + w.length - pos) = kw ++ (sp ++ w) := by
    rw [show pos + kw.length + sp.length + w.length - pos = (kw ++ (sp ++ w)).length by simp; omega,
      show kw ++ (sp ++ (w ++ rest)) = (kw ++ (sp ++ w)) ++ rest by simp, List.take_left]
  simp only [e1] at h2
  simp only [Nat.add_sub_cancel_left, List.take_left] at h2
  rw [show pos + (kw.length + (sp.length + w.length)) = pos + kw.length + sp.length + w.length by omega]
  exact h2

theorem prefix_before {p y z : Str} {c : Char} (h : p <+: y ++ c :: z) (hc : c ∉ p) : p <+: y := by
  obtain ⟨q, hq⟩ := h
  rcases List.append_eq_append_iff.1 hq with ⟨x, h3, h4⟩ | ⟨x, h3, h4⟩
  · exact ⟨x, h3.symm⟩
  · cases x with
    | nil => exact ⟨[], by simpa using h3⟩
    | cons d x =>
      simp at h4
      exact absurd (by rw [h3, ← h4.1]; simp) hc

theorem words_infix {w : Str} {names : List Str} (h : Words (· = ' ') w names) {q : Str} (hq : q ≠ []) (hs : ' ' ∉ q)
    (hi : q <:+: w) : ∃ n ∈ names, q <:+: n := by
  induction h with
  | nil => simp at hi; exact absurd hi hq
  | @skip c s ws hc _ ih =>
    have hc : c = ' ' := hc
    subst hc
    rw [List.infix_cons_iff] at hi
    rcases hi with ⟨x, hx⟩ | hi
    · cases q with
      | nil => exact absurd rfl hq
      | cons d q => simp at hx; rw [hx.1] at hs; simp at hs
    · exact ih hi
  | @word n s ws hne hn hh hw ih =>
    obtain ⟨a, b, e⟩ := hi
    rw [List.append_assoc] at e
    rcases List.append_eq_append_iff.1 e with ⟨x, h3, h4⟩ | ⟨x, h3, h4⟩
    · -- starts inside the word
      cases x with
      | nil =>
        obtain ⟨m, hm, h5⟩ := ih ⟨[], b, by simpa using h4⟩
        exact ⟨m, by simp [hm], h5⟩
      | cons y x =>
        refine ⟨n, by simp, ?_⟩
        cases s with
        | nil => exact ⟨a, y :: x |>.drop q.length, by
            have : q ++ b = y :: x := by simpa using h4
            rw [← this, List.drop_left, h3, ← this]; simp⟩
        | cons d s =>
          have hd : d = ' ' := hh d rfl
          have : q <+: y :: x := prefix_before (c := d) (z := s) ⟨b, h4⟩ (hd ▸ hs)
          obtain ⟨r, hr⟩ := this
          exact ⟨a, r, by rw [h3, ← hr]; simp⟩
    · obtain ⟨m, hm, h5⟩ := ih ⟨x, b, by rw [h4]; simp⟩
      exact ⟨m, by simp [hm], h5⟩

theorem nameList_free {txt cmt kw : Str} {names : List Str} (h : NameList txt names) (hc : Comment cmt)
    (hkw : kw = c!"before" ∨ kw = c!"after") : lookFree kw (txt ++ cmt) := by
  have hk : kw ≠ [] ∧ '#' ∉ kw ∧ ' ' ∉ kw := by rcases hkw with rfl | rfl <;> decide
  intro x r e hx hp
  have hin : kw <:+: txt := by
    rcases List.append_eq_append_iff.1 e with ⟨y, h3, h4⟩ | ⟨y, h3, h4⟩
    · rcases hc with rfl | ⟨hh, -⟩
      · simp at h4
        exact absurd (List.prefix_nil.1 (h4.2 ▸ hp)) hk.1
      · cases y with
        | nil =>
          rw [List.nil_append] at h4
          cases cmt with
          | nil => cases hh
          | cons d cmt =>
            simp at hh; subst hh
            obtain ⟨q, hq⟩ := hp
            rw [← h4] at hq
            cases kw with
            | nil => exact absurd rfl hk.1
            | cons k kw => simp at hq; exact absurd (by rw [hq.1]; simp) hk.2.1
        | cons d y =>
          cases cmt with
          | nil => cases hh
          | cons d' cmt =>
            simp at hh h4; subst hh
            exact absurd h4.1.symm (hx d (by rw [h3]; simp)).1
    · have hp2 : kw <+: y := by
        rcases hc with rfl | ⟨hh, -⟩
        · simpa [h4] using hp
        · cases cmt with
          | nil => cases hh
          | cons d cmt =>
            simp at hh; subst hh
            exact prefix_before (h4 ▸ hp) hk.2.1
      obtain ⟨q, hq⟩ := hp2
      exact ⟨x, q, by rw [h3, ← hq]; simp⟩
  obtain ⟨n, hn, hi⟩ := words_infix h.words hk.1 hk.2.2 hin
  have := h.names n hn
  rcases hkw with rfl | rfl
  · exact this.1 hi
  · exact this.2 hi

theorem lookFree_suffix {kw a b : Str} (h : lookFree kw (a ++ b)) (ha : ∀ c ∈ a, c ≠ '#' ∧ c ≠ '\n') : lookFree kw b := by
  intro x r e hx
  refine h (a ++ x) r (by rw [e]; simp) ?_
  intro c hc
  rcases List.mem_append.1 hc with hc | hc
  · exact ha c hc
  · exact hx c hc

theorem lookFree_kw {h : Char} {tl z : Str} (hh : h ∉ tl) (hz : lookFree (h :: tl) z) : lookFree (h :: tl) (tl ++ z) := by
  intro x r e hx hp
  rcases List.append_eq_append_iff.1 e with ⟨y, h3, h4⟩ | ⟨y, h3, h4⟩
  · exact hz y r h4 (fun c hc => hx c (by rw [h3]; simp [hc])) hp
  · cases y with
    | nil => exact hz [] r (by simpa using h4.symm) (by simp) hp
    | cons d y =>
      obtain ⟨q, hq⟩ := hp
      rw [h4] at hq
      simp at hq
      exact hh (by rw [h3, hq.1]; simp)

/-- the blanks at the start of a list of names -/
theorem nameList_split {txt : Str} {names : List Str} (h : NameList txt names) :
    ∃ sp w, txt = sp ++ w ∧ (∀ c ∈ sp, c = ' ') ∧ (∀ c ∈ w.head?, reSpace c = false) ∧ splitNE ' ' w = names := by
  have hall : ∀ c ∈ txt.takeWhile (· == ' '), c = ' ' := by
    intro c hc
    have := List.mem_takeWhile_imp hc
    simpa using this
  refine ⟨txt.takeWhile (· == ' '), txt.dropWhile (· == ' '), List.takeWhile_append_dropWhile.symm, hall, ?_, ?_⟩
  · intro c hc
    cases hs : reSpace c with
    | false => rfl
    | true =>
      have hd := List.head?_dropWhile_not (fun c : Char => c == ' ') txt
      have hc' : (txt.dropWhile (· == ' ')).head? = some c := hc
      rw [hc'] at hd
      simp at hd
      have hm : c ∈ txt := (List.dropWhile_suffix _).subset (List.mem_of_mem_head? hc)
      exact absurd ((h.chars c hm).2.2 hs) hd
  · have h1 := splitNE_words ' ' (txt.dropWhile (· == ' '))
    have h2 : ∀ (sp w : Str) (ns : List Str), (∀ c ∈ sp, c = ' ') → Words (· = ' ') w ns → Words (· = ' ') (sp ++ w) ns := by
      intro sp w ns hsp hw
      induction sp with
      | nil => exact hw
      | cons c sp ih => exact .skip (hsp c (by simp)) (ih (fun c hc => hsp c (by simp [hc])))
    have h3 := h2 _ _ _ hall h1
    rw [List.takeWhile_append_dropWhile] at h3
    exact words_unique h3 h.words

/-- the clauses of `addtask` -/
def clausesRe : Re := .grp 3 (.alt (clauseRe c!"before" c!"after" 4 5 6 7 8) (clauseRe c!"after" c!"before" 9 10 11 12 13))

def commentRe : Re := .grp 14 (.alt (.seq (.lit c!"#") (.star true .any)) (.star false .any))

theorem reAddtask_shape : reAddtask.re = .seq .bos (.seq (.grp 1 (.alt (.star true (.cls false [.space])) (.star true (.lit c!"\t"))))
    (.seq (.lit c!"addtask") (.seq (.seq (.cls false [.space]) (.star true (.cls false [.space])))
      (.seq (.grp 2 (.seq (.cls false [.word, .one '-']) (.star true (.cls false [.word, .one '-']))))
        (.seq (.star true (.cls false [.space])) (.seq (.star true clausesRe) commentRe)))))) := rfl

theorem comment_leads {cmt : Str} (h : Comment cmt) (pos : Nat) (caps : List (Nat × Str)) :
    ∃ t, Leads commentRe ⟨pos, cmt, caps⟩ t ∧ t.caps = (14, cmt) :: caps := by
  rcases h with rfl | ⟨hh, hn⟩
  · refine ⟨_, leads_grp (leads_right ?_ (leads_lazy _ _)), by simp⟩
    exact not_mem_first rfl (by simp)
  · cases cmt with
    | nil => cases hh
    | cons d cmt =>
      simp at hh; subst hh
      have h1 := leads_star_any (pos + 1) cmt [] caps (fun h => hn (by simp [h])) (by simp)
      rw [List.append_nil] at h1
      have := leads_grp (n := 14) (leads_left (b := .star false .any) (leads_seq (leads_lit c!"#" pos cmt caps) h1))
      refine ⟨_, this, ?_⟩
      show (14, ('#' :: cmt).take (pos + 1 + cmt.length - pos)) :: caps = _
      rw [List.take_of_length_le (by simp; omega)]

theorem comment_head {cmt : Str} (h : Comment cmt) : ∀ c ∈ cmt.head?, c = '#' := by
  rcases h with rfl | ⟨hh, -⟩
  · simp
  · intro c hc; rw [hh] at hc; simp at hc; exact hc.symm

theorem clauses_stop {cmt : Str} (h : Comment cmt) (pos : Nat) (caps : List (Nat × Str)) :
    Leads (.star true clausesRe) ⟨pos, cmt, caps⟩ ⟨pos, cmt, caps⟩ := by
  refine leads_stop ?_
  intro u hu
  refine absurd hu (not_mem_first rfl ?_ u)
  intro c hc
  rw [comment_head h c hc]; rfl

theorem nameList_word {b : Str} {sp w : Str} {names : List Str} (h : NameList b names) (e : b = sp ++ w) : ∀ c ∈ w, c ≠ '#' ∧ c ≠ '\n' :=
  fun c hc => ⟨(h.chars c (by rw [e]; simp [hc])).1, (h.chars c (by rw [e]; simp [hc])).2.1⟩

theorem head_append {P : Char → Prop} {w rest : Str} (hw : ∀ c ∈ w.head?, P c) (hr : ∀ c ∈ rest.head?, P c) :
    ∀ c ∈ (w ++ rest).head?, P c := by
  cases w with
  | nil => simpa using hr
  | cons d w => simpa using hw

theorem space_ok : ∀ {c : Char}, c = ' ' → reSpace c = true := by rintro _ rfl; decide

theorem hash_not_space : ∀ {c : Char}, c = '#' → reSpace c = false := by rintro _ rfl; decide

/-- `before` and names up to the comment -/
theorem before_end {b cmt : Str} {bs : List Str} (h : NameList b bs) (hc : Comment cmt) (pos : Nat) (caps : List (Nat × Str)) :
    ∃ w n x, Leads clausesRe ⟨pos, c!"before" ++ (b ++ cmt), caps⟩ ⟨pos + (6 + b.length), cmt, (3, x) :: (4, x) :: (5, w) :: (6, w) :: (n, w) :: caps⟩ ∧
      (n = 7 ∨ n = 8) ∧ splitNE ' ' w = bs := by
  obtain ⟨sp, w, e, h1, h2, h3⟩ := nameList_split h
  have hfree : lookFree c!"after" (w ++ cmt) := by
    have := nameList_free h hc (Or.inr rfl)
    rw [e, List.append_assoc] at this
    exact lookFree_suffix this (fun c hc => by rw [h1 c hc]; decide)
  obtain ⟨n, h4, h5⟩ := clause_leads (kw := c!"before") (other := c!"after") (g1 := 4) (g2 := 5) (g3 := 6) (g4 := 7) (g5 := 8) (pos := pos)
    (sp := sp) (w := w) (rest := cmt) (caps := caps) (fun c hc => space_ok (h1 c hc))
    (head_append h2 (fun c hc' => hash_not_space (comment_head hc c hc'))) (nameList_word h e)
    (Or.inr ⟨hfree, fun c hc' => Or.inl (comment_head hc c hc')⟩)
  refine ⟨w, n, c!"before" ++ (sp ++ w), ?_, h5, h3⟩
  have h6 := leads_grp (n := 3) (leads_left (b := clauseRe c!"after" c!"before" 9 10 11 12 13) h4)
  rw [e]
  have e2 : (c!"before" ++ (sp ++ (w ++ cmt))).take (pos + ((c!"before").length + (sp.length + w.length)) - pos) = c!"before" ++ (sp ++ w) := by
    rw [show pos + ((c!"before").length + (sp.length + w.length)) - pos = (c!"before" ++ (sp ++ w)).length by simp; omega,
      show c!"before" ++ (sp ++ (w ++ cmt)) = (c!"before" ++ (sp ++ w)) ++ cmt by simp, List.take_left]
  simp only [e2] at h6
  rw [List.append_assoc, List.length_append]
  exact h6

/-- `before` and names up to `after` -/
theorem before_after {b a cmt : Str} {bs as : List Str} (h : NameList b bs) (ha : NameList a as) (hc : Comment cmt) (pos : Nat)
    (caps : List (Nat × Str)) :
    ∃ w n x, Leads clausesRe ⟨pos, c!"before" ++ (b ++ (c!"after" ++ (a ++ cmt))), caps⟩
      ⟨pos + (6 + b.length), c!"after" ++ (a ++ cmt), (3, x) :: (4, x) :: (5, w) :: (6, w) :: (n, w) :: caps⟩ ∧
      (n = 7 ∨ n = 8) ∧ splitNE ' ' w = bs := by
  obtain ⟨sp, w, e, h1, h2, h3⟩ := nameList_split h
  obtain ⟨n, h4, h5⟩ := clause_leads (kw := c!"before") (other := c!"after") (g1 := 4) (g2 := 5) (g3 := 6) (g4 := 7) (g5 := 8) (pos := pos)
    (sp := sp) (w := w) (rest := c!"after" ++ (a ++ cmt)) (caps := caps) (fun c hc => space_ok (h1 c hc))
    (head_append h2 (by intro c hc; simp at hc; subst hc; decide)) (nameList_word h e)
    (Or.inl ⟨List.prefix_append _ _, by
      intro c r hr
      simp at hr
      rw [← hr.2]
      exact lookFree_kw (tl := c!"fter") (by decide) (nameList_free ha hc (Or.inr rfl))⟩)
  refine ⟨w, n, c!"before" ++ (sp ++ w), ?_, h5, h3⟩
  have h6 := leads_grp (n := 3) (leads_left (b := clauseRe c!"after" c!"before" 9 10 11 12 13) h4)
  rw [e]
  have e2 : (c!"before" ++ (sp ++ (w ++ (c!"after" ++ (a ++ cmt))))).take (pos + ((c!"before").length + (sp.length + w.length)) - pos) = c!"before" ++ (sp ++ w) := by
    rw [show pos + ((c!"before").length + (sp.length + w.length)) - pos = (c!"before" ++ (sp ++ w)).length by simp; omega,
      show c!"before" ++ (sp ++ (w ++ (c!"after" ++ (a ++ cmt)))) = (c!"before" ++ (sp ++ w)) ++ (c!"after" ++ (a ++ cmt)) by simp, List.take_left]
  simp only [e2] at h6
  rw [List.append_assoc, List.length_append]
  exact h6

theorem not_before {u : Str} {pos : Nat} {caps : List (Nat × Str)} (x : St) :
    x ∉ ms (clauseRe c!"before" c!"after" 4 5 6 7 8) ⟨pos, c!"after" ++ u, caps⟩ :=
  not_mem_first rfl (by intro c hc; simp at hc; subst hc; rfl) x

/-- `after` and names up to the comment -/
theorem after_end {b cmt : Str} {bs : List Str} (h : NameList b bs) (hc : Comment cmt) (pos : Nat) (caps : List (Nat × Str)) :
    ∃ w n x, Leads clausesRe ⟨pos, c!"after" ++ (b ++ cmt), caps⟩ ⟨pos + (5 + b.length), cmt, (3, x) :: (9, x) :: (10, w) :: (11, w) :: (n, w) :: caps⟩ ∧
      (n = 12 ∨ n = 13) ∧ splitNE ' ' w = bs := by
  obtain ⟨sp, w, e, h1, h2, h3⟩ := nameList_split h
  have hfree : lookFree c!"before" (w ++ cmt) := by
    have := nameList_free h hc (Or.inl rfl)
    rw [e, List.append_assoc] at this
    exact lookFree_suffix this (fun c hc => by rw [h1 c hc]; decide)
  obtain ⟨n, h4, h5⟩ := clause_leads (kw := c!"after") (other := c!"before") (g1 := 9) (g2 := 10) (g3 := 11) (g4 := 12) (g5 := 13) (pos := pos)
    (sp := sp) (w := w) (rest := cmt) (caps := caps) (fun c hc => space_ok (h1 c hc))
    (head_append h2 (fun c hc' => hash_not_space (comment_head hc c hc'))) (nameList_word h e)
    (Or.inr ⟨hfree, fun c hc' => Or.inl (comment_head hc c hc')⟩)
  refine ⟨w, n, c!"after" ++ (sp ++ w), ?_, h5, h3⟩
  have h6 := leads_grp (n := 3) (leads_right (a := clauseRe c!"before" c!"after" 4 5 6 7 8) not_before h4)
  rw [e]
  have e2 : (c!"after" ++ (sp ++ (w ++ cmt))).take (pos + ((c!"after").length + (sp.length + w.length)) - pos) = c!"after" ++ (sp ++ w) := by
    rw [show pos + ((c!"after").length + (sp.length + w.length)) - pos = (c!"after" ++ (sp ++ w)).length by simp; omega,
      show c!"after" ++ (sp ++ (w ++ cmt)) = (c!"after" ++ (sp ++ w)) ++ cmt by simp, List.take_left]
  simp only [e2] at h6
  rw [List.append_assoc, List.length_append]
  exact h6

/-- `after` and names up to `before` -/
theorem after_before {b a cmt : Str} {bs as : List Str} (h : NameList b bs) (ha : NameList a as) (hc : Comment cmt) (pos : Nat)
    (caps : List (Nat × Str)) :
    ∃ w n x, Leads clausesRe ⟨pos, c!"after" ++ (b ++ (c!"before" ++ (a ++ cmt))), caps⟩
      ⟨pos + (5 + b.length), c!"before" ++ (a ++ cmt), (3, x) :: (9, x) :: (10, w) :: (11, w) :: (n, w) :: caps⟩ ∧
      (n = 12 ∨ n = 13) ∧ splitNE ' ' w = bs := by
  obtain ⟨sp, w, e, h1, h2, h3⟩ := nameList_split h
  obtain ⟨n, h4, h5⟩ := clause_leads (kw := c!"after") (other := c!"before") (g1 := 9) (g2 := 10) (g3 := 11) (g4 := 12) (g5 := 13) (pos := pos)
    (sp := sp) (w := w) (rest := c!"before" ++ (a ++ cmt)) (caps := caps) (fun c hc => space_ok (h1 c hc))
    (head_append h2 (by intro c hc; simp at hc; subst hc; decide)) (nameList_word h e)
    (Or.inl ⟨List.prefix_append _ _, by
      intro c r hr
      simp at hr
      rw [← hr.2]
      exact lookFree_kw (tl := c!"efore") (by decide) (nameList_free ha hc (Or.inl rfl))⟩)
  refine ⟨w, n, c!"after" ++ (sp ++ w), ?_, h5, h3⟩
  have h6 := leads_grp (n := 3) (leads_right (a := clauseRe c!"before" c!"after" 4 5 6 7 8) not_before h4)
  rw [e]
  have e2 : (c!"after" ++ (sp ++ (w ++ (c!"before" ++ (a ++ cmt))))).take (pos + ((c!"after").length + (sp.length + w.length)) - pos) = c!"after" ++ (sp ++ w) := by
    rw [show pos + ((c!"after").length + (sp.length + w.length)) - pos = (c!"after" ++ (sp ++ w)).length by simp; omega,
      show c!"after" ++ (sp ++ (w ++ (c!"before" ++ (a ++ cmt)))) = (c!"after" ++ (sp ++ w)) ++ (c!"before" ++ (a ++ cmt)) by simp, List.take_left]
  simp only [e2] at h6
  rw [List.append_assoc, List.length_append]
  exact h6

theorem taskChar_word {c : Char} (h : TaskChar c) : isWord c = true ∨ c = '-' := by
  have e : ∀ a b : Char, (a ≤ b) = (a.toNat ≤ b.toNat) := fun a b => by
    rw [Char.le_def, UInt32.le_iff_toNat_le]; rfl
  simp only [TaskChar, e] at h
  unfold isWord Char.isAlphanum Char.isAlpha Char.isUpper Char.isLower Char.isDigit
  have e2 : ∀ a b : Char, (a.val ≤ b.val) = (a.toNat ≤ b.toNat) := fun a b => by
    rw [UInt32.le_iff_toNat_le]; rfl
  rcases h with h | h | h | rfl | rfl
  · left
    have : 'A'.toNat = 65 := rfl
    have : 'Z'.toNat = 90 := rfl
    rw [if_pos (by omega)]
    have h1 : ('A'.val ≤ c.val) := by rw [e2]; exact h.1
    have h2 : (c.val ≤ 'Z'.val) := by rw [e2]; exact h.2
    simp
    exact Or.inl (Or.inl (Or.inl ⟨h1, h2⟩))
  · left
    have : '0'.toNat = 48 := rfl
    have : '9'.toNat = 57 := rfl
    rw [if_pos (by omega)]
    have h1 : ('0'.val ≤ c.val) := by rw [e2]; exact h.1
    have h2 : (c.val ≤ '9'.val) := by rw [e2]; exact h.2
    simp
    exact Or.inl (Or.inr ⟨h1, h2⟩)
  · left
    have : 'a'.toNat = 97 := rfl
    have : 'z'.toNat = 122 := rfl
    rw [if_pos (by omega)]
    have h1 : ('a'.val ≤ c.val) := by rw [e2]; exact h.1
    have h2 : (c.val ≤ 'z'.val) := by rw [e2]; exact h.2
    simp
    exact Or.inl (Or.inl (Or.inr ⟨h1, h2⟩))
  · left; rfl
  · right; rfl

theorem taskName_leads {f rest : Str} (h : TaskName f) (hr : ∀ c ∈ rest.head?, c = ' ' ∨ c = '#') (pos : Nat) (caps : List (Nat × Str)) :
    Leads (.grp 2 (.seq (.cls false [.word, .one '-']) (.star true (.cls false [.word, .one '-'])))) ⟨pos, f ++ rest, caps⟩
      ⟨pos + f.length, rest, (2, f) :: caps⟩ := by
  have := leads_grp (n := 2) (leads_plus_cls (neg := false) (is := [.word, .one '-']) pos f rest caps h.ne (by
    intro c hc
    rcases taskChar_word (h.chars c hc) with h | rfl
    · simp [CItem.test, h]
    · simp [CItem.test]) (by
    intro c hc
    rcases hr c hc with rfl | rfl <;> simp [CItem.test, isWord]))
  simpa using this

theorem taskChar_not_space {c : Char} (h : TaskChar c) : reSpace c = false := by
  refine (nameChar_not_space ?_).1
  rcases h with h | h | h | rfl | rfl
  · exact Or.inl h
  · exact Or.inr (Or.inl h)
  · exact Or.inr (Or.inr (Or.inl h))
  · decide
  · decide

/-- the common start of `addtask` and `deltask` -/
theorem task_start_at {kw ws f sp rest : Str} {r : Re} {t : St} (hkw : ∃ c u, kw = c :: u ∧ reSpace c = false) (hne : ws ≠ []) (hws : ∀ c ∈ ws, reSpace c = true)
    (hf : TaskName f) (hsp : ∀ c ∈ sp, c = ' ') (hr : ∀ c ∈ (sp ++ rest).head?, c = ' ' ∨ c = '#') (hr2 : ∀ c ∈ rest.head?, reSpace c = false)
    (ht : Leads r ⟨0 + kw.length + ws.length + f.length + sp.length, rest, [(2, f), (1, [])]⟩ t) :
    Leads (.seq .bos (.seq (.grp 1 (.alt (.star true (.cls false [.space])) (.star true (.lit c!"\t"))))
    (.seq (.lit kw) (.seq (.seq (.cls false [.space]) (.star true (.cls false [.space])))
      (.seq (.grp 2 (.seq (.cls false [.word, .one '-']) (.star true (.cls false [.word, .one '-']))))
        (.seq (.star true (.cls false [.space])) r)))))) ⟨0, kw ++ (ws ++ (f ++ (sp ++ rest))), []⟩ t := by
  obtain ⟨k, kw', rfl, hk⟩ := hkw
  have h1 : Leads (.grp 1 (.alt (.star true (.cls false [.space])) (.star true (.lit c!"\t")))) ⟨0, (k :: kw') ++ (ws ++ (f ++ (sp ++ rest))), []⟩
      ⟨0, (k :: kw') ++ (ws ++ (f ++ (sp ++ rest))), [(1, [])]⟩ := by
    have := leads_grp (n := 1) (leads_left (b := .star true (.lit c!"\t")) (leads_star_cls (neg := false) (is := [.space]) 0 []
      ((k :: kw') ++ (ws ++ (f ++ (sp ++ rest)))) [] (by simp) (by intro c hc; simp at hc; subst hc; simp [CItem.test, hk])))
    simpa using this
  obtain ⟨x, f', hx⟩ := List.exists_cons_of_ne_nil hf.ne
  refine leads_seq (leads_bos rfl) (leads_seq h1 (leads_seq (leads_lit _ _ _ _) (leads_seq (leads_plus_cls _ ws (f ++ (sp ++ rest)) _ hne ?_ ?_)
    (leads_seq (taskName_leads hf hr _ _) (leads_seq (leads_star_cls _ sp rest _ ?_ ?_) ht)))))
  · intro c hc; simp [CItem.test, hws c hc]
  · intro c hc
    rw [hx] at hc; simp at hc; subst hc
    simp [CItem.test, taskChar_not_space (hf.chars x (by rw [hx]; simp))]
  · intro c hc; simp [CItem.test, space_ok (hsp c hc)]
  · intro c hc; simp [CItem.test, hr2 c hc]

theorem task_start {kw ws f sp rest : Str} {r : Re} {caps : List (Nat × Str)} (hkw : ∃ c u, kw = c :: u ∧ reSpace c = false) (hne : ws ≠ []) (hws : ∀ c ∈ ws, reSpace c = true)
    (hf : TaskName f) (hsp : ∀ c ∈ sp, c = ' ') (hr : ∀ c ∈ (sp ++ rest).head?, c = ' ' ∨ c = '#') (hr2 : ∀ c ∈ rest.head?, reSpace c = false)
    (ht : ∀ pos, ∃ t, Leads r ⟨pos, rest, [(2, f), (1, [])]⟩ t ∧ t.caps = caps) :
    ∃ t, Leads (.seq .bos (.seq (.grp 1 (.alt (.star true (.cls false [.space])) (.star true (.lit c!"\t"))))
    (.seq (.lit kw) (.seq (.seq (.cls false [.space]) (.star true (.cls false [.space])))
      (.seq (.grp 2 (.seq (.cls false [.word, .one '-']) (.star true (.cls false [.word, .one '-']))))
        (.seq (.star true (.cls false [.space])) r)))))) ⟨0, kw ++ (ws ++ (f ++ (sp ++ rest))), []⟩ t ∧ t.caps = caps := by
  obtain ⟨t, h1, h2⟩ := ht (0 + kw.length + ws.length + f.length + sp.length)
  exact ⟨t, task_start_at hkw hne hws hf hsp hr hr2 h1, h2⟩

/-- a match given by a way without backtracking -/
theorem reMatch_of_leads {p : Pattern} {s : Str} {caps : List (Nat × Str)} (h : ∃ t, Leads p.re ⟨0, s, []⟩ t ∧ t.caps = caps) :
    ∃ m, reMatch p.re s = some m ∧ ∀ name, p.group m name = (caps.find? (fun c => c.1 == p.idx name)).map (·.2) := by
  obtain ⟨t, h1, h2⟩ := h
  refine ⟨_, h1.reMatch, ?_⟩
  intro name
  rw [← h2]; rfl

theorem reAddtask_match {ws f cl cmt : Str} {bs as : List Str} (hne : ws ≠ []) (hws : ∀ c ∈ ws, reSpace c = true) (hf : TaskName f)
    (hcl : Clauses cl bs as) (hc : Comment cmt) :
    ∃ m, reMatch reAddtask.re (c!"addtask" ++ (ws ++ (f ++ (cl ++ cmt)))) = some m ∧ reAddtask.group m c!"func" = some f ∧
      splitNE ' ' ((reAddtask.group m c!"before").getD []) = bs ∧ splitNE ' ' ((reAddtask.group m c!"after").getD []) = as ∧
      reAddtask.group m c!"comment" = some cmt := by
  have hkw : ∃ c u, c!"addtask" = c :: u ∧ reSpace c = false := ⟨'a', c!"ddtask", rfl, by decide⟩
  have hsp : ∀ {w rest : Str}, (∀ c ∈ w, c = ' ') → w ≠ [] → ∀ c ∈ (w ++ rest).head?, c = ' ' ∨ c = '#' := by
    intro w rest hw hn c hcc
    obtain ⟨x, w', rfl⟩ := List.exists_cons_of_ne_nil hn
    simp at hcc; subst hcc
    exact Or.inl (hw x (by simp))
  have hb : ∀ {u : Str}, ∀ c ∈ (c!"before" ++ u).head?, reSpace c = false := by intro u c hc; simp at hc; subst hc; decide
  have ha : ∀ {u : Str}, ∀ c ∈ (c!"after" ++ u).head?, reSpace c = false := by intro u c hc; simp at hc; subst hc; decide
  cases hcl with
  | none hw =>
    have := task_start (kw := c!"addtask") (caps := (14, cmt) :: [(2, f), (1, [])]) (r := .seq (.star true clausesRe) commentRe) (ws := ws) (f := f) (sp := cl)
      (rest := cmt) hkw hne hws hf hw
      (head_append (P := fun c => c = ' ' ∨ c = '#') (fun c hcc => Or.inl (hw c (List.mem_of_mem_head? hcc))) (fun c hcc => Or.inr (comment_head hc c hcc)))
      (fun c hcc => hash_not_space (comment_head hc c hcc))
      (fun pos => by
        obtain ⟨t, h1, h2⟩ := comment_leads hc pos [(2, f), (1, [])]
        exact ⟨t, leads_seq (clauses_stop hc _ _) h1, h2⟩)
    obtain ⟨m, h1, h2⟩ := reMatch_of_leads (p := reAddtask) (by rw [reAddtask_shape]; exact this)
    exact ⟨m, h1, by rw [h2]; rfl, by rw [h2]; rfl, by rw [h2]; rfl, by rw [h2]; rfl⟩
  | @before w b _ hw hwn hb' =>
    have key : ∀ pos, ∃ wb n x, Leads clausesRe ⟨pos, c!"before" ++ (b ++ cmt), [(2, f), (1, [])]⟩ ⟨pos + (6 + b.length), cmt,
        (3, x) :: (4, x) :: (5, wb) :: (6, wb) :: (n, wb) :: [(2, f), (1, [])]⟩ ∧ (n = 7 ∨ n = 8) ∧ splitNE ' ' wb = bs :=
      fun pos => before_end hb' hc pos _
    obtain ⟨wb, n, x, h3, h4, h5⟩ := key (0 + (c!"addtask").length + ws.length + f.length + w.length)
    obtain ⟨t, h6, h7⟩ := comment_leads hc (0 + (c!"addtask").length + ws.length + f.length + w.length + (6 + b.length))
      ((3, x) :: (4, x) :: (5, wb) :: (6, wb) :: (n, wb) :: [(2, f), (1, [])])
    have := task_start_at (kw := c!"addtask") (r := .seq (.star true clausesRe) commentRe) (ws := ws) (f := f) (sp := w)
      (rest := c!"before" ++ (b ++ cmt)) hkw hne hws hf hw (hsp hw hwn) hb
      (leads_seq (leads_star h3 (by simp; omega) (clauses_stop hc _ _)) h6)
    obtain ⟨m, h1, h2⟩ := reMatch_of_leads (p := reAddtask) (by rw [reAddtask_shape]; exact ⟨t, this, h7⟩)
    have e : w ++ (c!"before" ++ b) ++ cmt = w ++ (c!"before" ++ (b ++ cmt)) := by simp
    rw [e]
    refine ⟨m, h1, ?_⟩
    rw [h2, h2, h2, h2]
    rcases h4 with rfl | rfl <;> exact ⟨rfl, h5, rfl, rfl⟩
  | @after w a _ hw hwn ha' =>
    obtain ⟨wb, n, x, h3, h4, h5⟩ := after_end ha' hc (0 + (c!"addtask").length + ws.length + f.length + w.length) [(2, f), (1, [])]
    obtain ⟨t, h6, h7⟩ := comment_leads hc (0 + (c!"addtask").length + ws.length + f.length + w.length + (5 + a.length))
      ((3, x) :: (9, x) :: (10, wb) :: (11, wb) :: (n, wb) :: [(2, f), (1, [])])
    have := task_start_at (kw := c!"addtask") (r := .seq (.star true clausesRe) commentRe) (ws := ws) (f := f) (sp := w)
      (rest := c!"after" ++ (a ++ cmt)) hkw hne hws hf hw (hsp hw hwn) ha
      (leads_seq (leads_star h3 (by simp; omega) (clauses_stop hc _ _)) h6)
    obtain ⟨m, h1, h2⟩ := reMatch_of_leads (p := reAddtask) (by rw [reAddtask_shape]; exact ⟨t, this, h7⟩)
    have e : w ++ (c!"after" ++ a) ++ cmt = w ++ (c!"after" ++ (a ++ cmt)) := by simp
    rw [e]
    refine ⟨m, h1, ?_⟩
    rw [h2, h2, h2, h2]
    rcases h4 with rfl | rfl <;> exact ⟨rfl, rfl, h5, rfl⟩
  | @beforeAfter w a b _ _ hw hwn hb' ha' _ =>
    obtain ⟨wb, n, x, h3, h4, h5⟩ := before_after hb' ha' hc (0 + (c!"addtask").length + ws.length + f.length + w.length) [(2, f), (1, [])]
    obtain ⟨wa, n', x', h3', h4', h5'⟩ := after_end ha' hc (0 + (c!"addtask").length + ws.length + f.length + w.length + (6 + b.length))
      ((3, x) :: (4, x) :: (5, wb) :: (6, wb) :: (n, wb) :: [(2, f), (1, [])])
    obtain ⟨t, h6, h7⟩ := comment_leads hc (0 + (c!"addtask").length + ws.length + f.length + w.length + (6 + b.length) + (5 + a.length))
      ((3, x') :: (9, x') :: (10, wa) :: (11, wa) :: (n', wa) :: (3, x) :: (4, x) :: (5, wb) :: (6, wb) :: (n, wb) :: [(2, f), (1, [])])
    have := task_start_at (kw := c!"addtask") (r := .seq (.star true clausesRe) commentRe) (ws := ws) (f := f) (sp := w)
      (rest := c!"before" ++ (b ++ (c!"after" ++ (a ++ cmt)))) hkw hne hws hf hw (hsp hw hwn) hb
      (leads_seq (leads_star h3 (by simp; omega) (leads_star h3' (by simp; omega) (clauses_stop hc _ _))) h6)
    obtain ⟨m, h1, h2⟩ := reMatch_of_leads (p := reAddtask) (by rw [reAddtask_shape]; exact ⟨t, this, h7⟩)
    have e : w ++ (c!"before" ++ (b ++ (c!"after" ++ a))) ++ cmt = w ++ (c!"before" ++ (b ++ (c!"after" ++ (a ++ cmt)))) := by simp
    rw [e]
    refine ⟨m, h1, ?_⟩
    rw [h2, h2, h2, h2]
    rcases h4 with rfl | rfl <;> rcases h4' with rfl | rfl <;> exact ⟨rfl, h5, h5', rfl⟩
  | @afterBefore w a b _ _ hw hwn ha' hb' _ =>
    obtain ⟨wa, n, x, h3, h4, h5⟩ := after_before ha' hb' hc (0 + (c!"addtask").length + ws.length + f.length + w.length) [(2, f), (1, [])]
    obtain ⟨wb, n', x', h3', h4', h5'⟩ := before_end hb' hc (0 + (c!"addtask").length + ws.length + f.length + w.length + (5 + a.length))
      ((3, x) :: (9, x) :: (10, wa) :: (11, wa) :: (n, wa) :: [(2, f), (1, [])])
    obtain ⟨t, h6, h7⟩ := comment_leads hc (0 + (c!"addtask").length + ws.length + f.length + w.length + (5 + a.length) + (6 + b.length))
      ((3, x') :: (4, x') :: (5, wb) :: (6, wb) :: (n', wb) :: (3, x) :: (9, x) :: (10, wa) :: (11, wa) :: (n, wa) :: [(2, f), (1, [])])
    have := task_start_at (kw := c!"addtask") (r := .seq (.star true clausesRe) commentRe) (ws := ws) (f := f) (sp := w)
      (rest := c!"after" ++ (a ++ (c!"before" ++ (b ++ cmt)))) hkw hne hws hf hw (hsp hw hwn) ha
      (leads_seq (leads_star h3 (by simp; omega) (leads_star h3' (by simp; omega) (clauses_stop hc _ _))) h6)
    obtain ⟨m, h1, h2⟩ := reMatch_of_leads (p := reAddtask) (by rw [reAddtask_shape]; exact ⟨t, this, h7⟩)
    have e : w ++ (c!"after" ++ (a ++ (c!"before" ++ b))) ++ cmt = w ++ (c!"after" ++ (a ++ (c!"before" ++ (b ++ cmt)))) := by simp
    rw [e]
    refine ⟨m, h1, ?_⟩
    rw [h2, h2, h2, h2]
    rcases h4 with rfl | rfl <;> rcases h4' with rfl | rfl <;> exact ⟨rfl, h5', h5, rfl⟩

theorem reDeltask_match {ws f sp cmt : Str} (hne : ws ≠ []) (hws : ∀ c ∈ ws, reSpace c = true) (hf : TaskName f)
    (hsp : ∀ c ∈ sp, c = ' ') (hc : Comment cmt) :
    ∃ m, reMatch reDeltask.re (c!"deltask" ++ (ws ++ (f ++ (sp ++ cmt)))) = some m ∧ reDeltask.group m c!"func" = some f ∧
      (reDeltask.group m c!"comment").getD [] = cmt := by
  have hkw : ∃ c u, c!"deltask" = c :: u ∧ reSpace c = false := ⟨'d', c!"eltask", rfl, by decide⟩
  have hh1 := head_append (P := fun c => c = ' ' ∨ c = '#') (w := sp) (rest := cmt) (fun c hcc => Or.inl (hsp c (List.mem_of_mem_head? hcc)))
    (fun c hcc => Or.inr (comment_head hc c hcc))
  have hh2 : ∀ c ∈ cmt.head?, reSpace c = false := fun c hcc => hash_not_space (comment_head hc c hcc)
  have hstop : ∀ (pos : Nat) (caps : List (Nat × Str)), Leads (.star true (.grp 3 (.seq (.lit c!"#") (.star true .any)))) ⟨pos, [], caps⟩ ⟨pos, [], caps⟩ := by
    intro pos caps
    refine leads_stop ?_
    intro u hu
    exact absurd hu (not_mem_first rfl (by simp) u)
  rcases hc with rfl | ⟨hh, hn⟩
  · have := task_start_at (kw := c!"deltask") (r := .star true (.grp 3 (.seq (.lit c!"#") (.star true .any)))) (ws := ws) (f := f) (sp := sp)
      (rest := []) hkw hne hws hf hsp hh1 hh2 (hstop _ _)
    obtain ⟨m, h1, h2⟩ := reMatch_of_leads (p := reDeltask) ⟨_, this, rfl⟩
    exact ⟨m, h1, by rw [h2]; rfl, by rw [h2]; rfl⟩
  · cases cmt with
    | nil => cases hh
    | cons d cmt =>
      simp at hh; subst hh
      have h1 := leads_star_any (0 + (c!"deltask").length + ws.length + f.length + sp.length + 1) cmt [] [(2, f), (1, [])] (fun h => hn (by simp [h])) (by simp)
      rw [List.append_nil] at h1
      have h2 := leads_grp (n := 3) (leads_seq (leads_lit c!"#" (0 + (c!"deltask").length + ws.length + f.length + sp.length) cmt [(2, f), (1, [])]) h1)
      have := task_start_at (kw := c!"deltask") (r := .star true (.grp 3 (.seq (.lit c!"#") (.star true .any)))) (ws := ws) (f := f) (sp := sp)
        (rest := '#' :: cmt) hkw hne hws hf hsp hh1 hh2 (leads_star h2 (by simp; omega) (hstop _ _))
      obtain ⟨m, h3, h4⟩ := reMatch_of_leads (p := reDeltask) ⟨_, this, rfl⟩
      refine ⟨m, h3, by rw [h4]; rfl, ?_⟩
      rw [h4]
      show ('#' :: cmt).take _ = _
      rw [List.take_of_length_le]
      simp; omega

/-! ## the loop over the patterns -/

theorem classify_unset {W : World} {add : AddFn} {file : Str} {lineno : Int} {p : Params} {s : Stash} {u : Str} {m : Mt}
    (hp : '(' ∉ u) (hm : reMatch reUnset.re ('u' :: u) = some m) :
    classify W add file lineno p ('u' :: u) parseOrder s =
      (.ok (mkItem s.nextUid p (.unset ((reUnset.group m c!"varname").getD []) (stripP (oneOf c!"[]") ((reUnset.group m c!"flag").getD []))), 0),
        { s with nextUid := s.nextUid + 1 }) := by
  have hskip := classify_skip (W := W) (file := file) (add := add) (line := lineno) (p := p) (cnt := 'u' :: u)
    (parseOrder.take 11) (parseOrder.drop 11) (by
      intro kp hkp
      simp only [parseOrder, List.take, List.mem_cons, List.not_mem_nil, or_false] at hkp
      rcases hkp with rfl | rfl | rfl | rfl | rfl | rfl | rfl | rfl | rfl | rfl | rfl
      · exact reMatch_none_first rfl rfl
      · exact not_func_paren (by simpa using hp)
      all_goals exact reMatch_none_first rfl rfl)
  rw [List.take_append_drop] at hskip
  rw [hskip]
  simp only [parseOrder, List.drop, classify, hm, handleKind, M.bind_def, freshUid, M.pure_def]

theorem classify_addtask {W : World} {add : AddFn} {file : Str} {lineno : Int} {p : Params} {s : Stash} {u : Str} {m : Mt}
    (hp : '(' ∉ u) (hm : reMatch reAddtask.re ('a' :: u) = some m) (hv : taskAsVar ((reAddtask.group m c!"func").getD []) = false) :
    classify W add file lineno p ('a' :: u) parseOrder s =
      (.ok (mkTaskAdd s.nextUid p ((reAddtask.group m c!"func").getD []) (reAddtask.group m c!"before") (reAddtask.group m c!"after")
        (reAddtask.group m c!"comment"), 0), { s with nextUid := s.nextUid + 1 }) := by
  have hskip := classify_skip (W := W) (file := file) (add := add) (line := lineno) (p := p) (cnt := 'a' :: u)
    (parseOrder.take 9) (parseOrder.drop 9) (by
      intro kp hkp
      simp only [parseOrder, List.take, List.mem_cons, List.not_mem_nil, or_false] at hkp
      rcases hkp with rfl | rfl | rfl | rfl | rfl | rfl | rfl | rfl | rfl
      · exact reMatch_none_first rfl rfl
      · exact not_func_paren (by simpa using hp)
      all_goals exact reMatch_none_first rfl rfl)
  rw [List.take_append_drop] at hskip
  rw [hskip]
  simp only [parseOrder, List.drop, classify, hm, handleKind, hv, M.bind_def, freshUid, M.pure_def, Bool.false_eq_true, if_false]

theorem not_python_deltask {u : Str} : reMatch rePython.re (c!"deltask" ++ u) = none := by
  rw [reMatch_none_iff]
  intro t ht
  simp only [rePython, mem_ms_seq, mem_ms_bos] at ht
  obtain ⟨x, ⟨-, rfl⟩, v, hv, y, hy, -⟩ := ht
  obtain ⟨w, e, -, h⟩ := ms_eats _ _ _ hv
  rw [mem_ms_lit] at hy
  obtain ⟨⟨q, hq⟩, -⟩ := hy
  have e : c!"deltask" ++ u = w ++ v.rest := e
  cases w with
  | nil => rw [← hq] at e; simp at e
  | cons c w =>
    simp at e
    have := h c (by simp)
    rw [← e.1] at this
    cases this

theorem classify_deltask {W : World} {add : AddFn} {file : Str} {lineno : Int} {p : Params} {s : Stash} {u : Str} {m : Mt}
    (hp : '(' ∉ u) (hm : reMatch reDeltask.re (c!"deltask" ++ u) = some m) :
    classify W add file lineno p (c!"deltask" ++ u) parseOrder s =
      (.ok (mkTaskDel s.nextUid p ((reDeltask.group m c!"func").getD []) (reDeltask.group m c!"comment"), 0),
        { s with nextUid := s.nextUid + 1 }) := by
  have hskip := classify_skip (W := W) (file := file) (add := add) (line := lineno) (p := p) (cnt := c!"deltask" ++ u)
    (parseOrder.take 10) (parseOrder.drop 10) (by
      intro kp hkp
      simp only [parseOrder, List.take, List.mem_cons, List.not_mem_nil, or_false] at hkp
      rcases hkp with rfl | rfl | rfl | rfl | rfl | rfl | rfl | rfl | rfl | rfl
      · exact reMatch_none_first rfl rfl
      · exact not_func_paren (by simpa using hp)
      · exact reMatch_none_first rfl rfl
      · exact reMatch_none_first rfl rfl
      · exact reMatch_none_first rfl rfl
      · exact reMatch_none_first rfl rfl
      · exact not_python_deltask
      all_goals exact reMatch_none_first rfl rfl)
  rw [List.take_append_drop] at hskip
  rw [hskip]
  simp only [parseOrder, List.drop, classify, hm, handleKind, M.bind_def, freshUid, M.pure_def]

/-- an item whose text is one line without continuation and inline python comes from that line -/
theorem item_of_line {W : World} {n : Nat} {path : Str} {off : Int} {forced : Option Str} {s s' : Stash}
    {res : List Item} (h : addFile W n path off forced s = (.ok res, s')) {it : Item} (hi : it ∈ res) {line nl : Str}
    (hr : it.realRaw = line ++ nl) (hnl : nl = [] ∨ nl = c!"\n") (hno : '\n' ∉ line ∧ '\\' ∉ line) (hin : ¬ c!"${@" <:+: line) :
    ∃ fuel l p s1 s2 d it0, classify W (addFile W fuel) (abspath W.cwd path) l p line parseOrder s1 = (.ok (it0, d), s2) ∧
      it0.payload = it.payload ∧ it0.delim = it.delim := by
  rcases addFile_cases h with rfl | ⟨t, _, _, k, ⟨ok⟩⟩
  · cases hi
  obtain ⟨l, p, s1, s2, d, it0, h1, h2, h3⟩ := ok.classified hi
  have hnone : ¬ opening <:+: it.realRaw := by
    rw [hr]
    intro hx
    rcases hnl with rfl | rfl
    · rw [List.append_nil] at hx; exact hin hx
    · obtain ⟨a, b, e⟩ := hx
      rw [List.append_assoc] at e
      rcases List.append_eq_append_iff.1 e with ⟨y, h4, h5⟩ | ⟨y, h4, h5⟩
      · have := prefix_before (p := opening) (y := y) (c := '\n') (z := []) ⟨b, h5⟩ (by decide)
        obtain ⟨q, hq⟩ := this
        exact hin ⟨a, q, by rw [h4, ← hq]; simp [opening]⟩
      · have := congrArg List.length h5
        simp [opening] at this
        omega
  obtain ⟨h4, -⟩ := substituted_none h3 hnone
  rw [h4, hr, cntOf_line hnl hno.1 hno.2] at h1
  refine ⟨k, l, p, s1, s2, d, it0, h1, ?_, ?_⟩
  · rw [h2]
  · rw [h2]

end Oelint

import Verif.Lemmas.Forms
/-! The patterns of the other single statements, continued. -/
set_option linter.unusedSectionVars false
set_option linter.unusedSimpArgs false
namespace Oelint
variable [Uni]
open Spec

/-! ## addfragments -/

/-- `.+` up to the last place where the rest matches -/
theorem run_plus_last {α : Type} {g : Nat} (k : St → Option α) (pos : Nat) (w rest : Str) (caps : List (Nat × Str)) (hne : w ≠ []) (hw : '\n' ∉ w)
    (hlate : ∀ u v pos cp, rest = u ++ v → u ≠ [] → k ⟨pos, v, (g, cp) :: caps⟩ = none) (hk : (k ⟨pos + w.length, rest, (g, w) :: caps⟩).isSome) :
    run (.grp g (.seq .any (.star true .any))) k ⟨pos, w ++ rest, caps⟩ = k ⟨pos + w.length, rest, (g, w) :: caps⟩ := by
  obtain ⟨c, w', rfl⟩ := List.exists_cons_of_ne_nil hne
  have e3 : pos + 1 + w'.length = pos + (c :: w').length := by simp; omega
  have e4 : List.take (pos + (c :: w').length - pos) ((c :: w') ++ rest) = c :: w' := by
    rw [Nat.add_sub_cancel_left, List.take_left]
  rw [run_grp, run_seq, show (c :: w') ++ rest = c :: (w' ++ rest) from rfl, run_any_cons, if_neg (by rintro rfl; exact hw (by simp)),
    run_star_greedy_last charRe_any]
  · simp only [e3]
    rw [show c :: (w' ++ rest) = (c :: w') ++ rest from rfl, e4]
  · intro x hx; simp; rintro rfl; exact hw (by simp [hx])
  · intro u v pos e hu
    exact hlate u v pos _ e hu
  · simp only [e3]
    rw [show c :: (w' ++ rest) = (c :: w') ++ rest from rfl, e4]
    exact hk

/-- `\s+` over one blank -/
theorem run_space1 {α : Type} {b : Char} {rest : Str} (k : St → Option α) (pos : Nat) (caps : List (Nat × Str)) (hb : reSpace b = true)
    (hr : ∀ c ∈ rest.head?, reSpace c = false) (hk : (k ⟨pos + 1, rest, caps⟩).isSome) :
    run (.seq (.cls false [.space]) (.star true (.cls false [.space]))) k ⟨pos, b :: rest, caps⟩ = k ⟨pos + 1, rest, caps⟩ :=
  (leads_blanks' (ws := [b]) (rest := rest) pos caps (by simp) (by simpa using hb) hr).run hk

theorem word_no_newline {w : Str} (h : ∀ c ∈ w, reSpace c = false) : '\n' ∉ w := fun hc => by
  have := h _ hc; revert this; decide

theorem word_head {w rest : Str} (hne : w ≠ []) (h : ∀ c ∈ w, reSpace c = false) : ∀ c ∈ (w ++ rest).head?, reSpace c = false := by
  intro c hc
  obtain ⟨x, y, rfl⟩ := List.exists_cons_of_ne_nil hne
  simp at hc; subst hc
  exact h _ (by simp)

theorem reAddfragments_match {ws a b c : Str} {x y : Char} (hws : Gap ws) (ha : a ≠ [] ∧ ∀ d ∈ a, reSpace d = false)
    (hb : b ≠ [] ∧ ∀ d ∈ b, reSpace d = false) (hc : c ≠ [] ∧ ∀ d ∈ c, reSpace d = false) (hx : reSpace x = true) (hy : reSpace y = true) :
    ∃ m, reMatch reAddfragments.re (c!"addfragments" ++ (ws ++ (a ++ (x :: (b ++ (y :: c)))))) = some m ∧
      reAddfragments.group m c!"path" = some a ∧ reAddfragments.group m c!"variable" = some b ∧ reAddfragments.group m c!"flagged" = some c := by
  generalize hL : c!"addfragments" ++ (ws ++ (a ++ (x :: (b ++ (y :: c))))) = L
  generalize hk : (fun t => some (mkMt ⟨0, L, []⟩ t)) = kf
  have hkf : ∀ t, kf t = some (mkMt ⟨0, L, []⟩ t) := fun t => by rw [← hk]
  have hshape : reAddfragments.re = .seq (.lit c!"addfragments") (.seq (.seq (.cls false [.space]) (.star true (.cls false [.space])))
    (.seq (.grp 1 (.seq .any (.star true .any))) (.seq (.seq (.cls false [.space]) (.star true (.cls false [.space])))
    (.seq (.grp 2 (.seq .any (.star true .any))) (.seq (.seq (.cls false [.space]) (.star true (.cls false [.space])))
    (.grp 3 (.seq .any (.star true .any)))))))) := rfl
  have k1 : ∀ pos caps, run (.seq (.seq (.cls false [.space]) (.star true (.cls false [.space]))) (.grp 3 (.seq .any (.star true .any)))) kf ⟨pos, y :: c, caps⟩ =
      kf ⟨pos + 1 + c.length, [], (3, c) :: caps⟩ := by
    intro pos caps
    have h3 := leads_line (g := 3) (pos + 1) caps hc.1 (word_no_newline hc.2)
    rw [run_seq, run_space1 _ _ _ hy (fun d hd => hc.2 d (List.mem_of_mem_head? hd)), h3.run (by rw [hkf]; rfl)]
    rw [h3.run (by rw [hkf]; rfl), hkf]; rfl
  have k2 : ∀ pos caps, run (.seq (.grp 2 (.seq .any (.star true .any))) (.seq (.seq (.cls false [.space]) (.star true (.cls false [.space])))
      (.grp 3 (.seq .any (.star true .any))))) kf ⟨pos, b ++ (y :: c), caps⟩ = kf ⟨pos + b.length + 1 + c.length, [], (3, c) :: (2, b) :: caps⟩ := by
    intro pos caps
    rw [run_seq, run_plus_last _ _ _ _ _ hb.1 (word_no_newline hb.2), k1]
    · intro u v pos cp e hu
      obtain ⟨z, u', rfl⟩ := List.exists_cons_of_ne_nil hu
      simp at e
      rw [run_seq, run_none]
      intro t ht
      obtain ⟨d, r, h1, h2⟩ := mem_ms_plus_first ht
      have : d ∈ c := by rw [e.2]; simp at h1; rw [h1]; simp
      rw [hc.2 d this] at h2; cases h2
    · rw [k1, hkf]; rfl
  have k3 : ∀ pos caps, run (.seq (.seq (.cls false [.space]) (.star true (.cls false [.space]))) (.seq (.grp 2 (.seq .any (.star true .any)))
      (.seq (.seq (.cls false [.space]) (.star true (.cls false [.space]))) (.grp 3 (.seq .any (.star true .any)))))) kf ⟨pos, x :: (b ++ (y :: c)), caps⟩ =
      kf ⟨pos + 1 + b.length + 1 + c.length, [], (3, c) :: (2, b) :: caps⟩ := by
    intro pos caps
    rw [run_seq, run_space1 _ _ _ hx (word_head hb.1 hb.2), k2]
    rw [k2, hkf]; rfl
  have k4 : ∀ pos caps, run (.seq (.grp 1 (.seq .any (.star true .any))) (.seq (.seq (.cls false [.space]) (.star true (.cls false [.space])))
      (.seq (.grp 2 (.seq .any (.star true .any))) (.seq (.seq (.cls false [.space]) (.star true (.cls false [.space])))
      (.grp 3 (.seq .any (.star true .any))))))) kf ⟨pos, a ++ (x :: (b ++ (y :: c))), caps⟩ =
      kf ⟨pos + a.length + 1 + b.length + 1 + c.length, [], (3, c) :: (2, b) :: (1, a) :: caps⟩ := by
    intro pos caps
    rw [run_seq, run_plus_last _ _ _ _ _ ha.1 (word_no_newline ha.2), k3]
    · intro u v pos cp e hu
      obtain ⟨z, u', rfl⟩ := List.exists_cons_of_ne_nil hu
      have e : b ++ (y :: c) = u' ++ v := by simp at e; exact e.2
      rw [run_none]
      intro t ht
      exfalso
      simp only [mem_ms_seq] at ht
      obtain ⟨s1, ⟨s0, h0, h1⟩, s2, h2, s3, ⟨s4, h4, -⟩, -⟩ := ht
      rw [mem_ms_cls] at h0 h4
      obtain ⟨d, r, hd, hd1, rfl⟩ := h0
      obtain ⟨d', r', hd', hd1', -⟩ := h4
      have hd1 : reSpace d = true := by simpa [CItem.test] using hd1
      have hd1' : reSpace d' = true := by simpa [CItem.test] using hd1'
      have hd : v = d :: r := hd
      -- the first blank is `y`
      have hr : r <:+ c := by
        rw [hd] at e
        rcases List.append_eq_append_iff.1 e with ⟨w, h5, h6⟩ | ⟨w, h5, h6⟩
        · cases w with
          | nil => simp at h6; rw [h6.2]
          | cons w0 w =>
            simp at h6
            have : d ∈ c := by rw [h6.2]; simp
            rw [hc.2 d this] at hd1; cases hd1
        · cases w with
          | nil => simp at h6; rw [← h6.2]
          | cons w0 w =>
            simp at h6
            have : d ∈ b := by rw [h5, h6.1]; simp
            rw [hb.2 d this] at hd1; cases hd1
      obtain ⟨w1, e1, -⟩ := ms_eats _ _ _ h1
      obtain ⟨w2, e2, -⟩ := ms_eats _ _ _ h2
      have : d' ∈ c := by
        refine hr.mem ?_
        have e1 : r = w1 ++ s1.rest := e1
        rw [e1, e2, hd']; simp
      rw [hc.2 d' this] at hd1'; cases hd1'
    · rw [k3, hkf]; rfl
  have hfin : run reAddfragments.re kf ⟨0, L, []⟩ = kf ⟨0 + (c!"addfragments" : Str).length + ws.length + a.length + 1 + b.length + 1 + c.length, [],
      (3, c) :: (2, b) :: [(1, a)]⟩ := by
    rw [hshape, ← hL, run_seq, run_lit_append, run_seq, (leads_blanks' _ _ hws.1 (gap_space hws) (word_head ha.1 ha.2)).run, k4]
    rw [k4, hkf]; rfl
  rw [reMatch_eq_run, hk, hfin, hkf]
  exact ⟨_, rfl, rfl, rfl, rfl⟩

/-! ## export -/

/-- `\s*` where there is no blank -/
theorem leads_space0 {rest : Str} (pos : Nat) (caps : List (Nat × Str)) (hr : ∀ c ∈ rest.head?, reSpace c = false) :
    Leads (.star true (.cls false [.space])) ⟨pos, rest, caps⟩ ⟨pos, rest, caps⟩ := by
  have := leads_star_cls (neg := false) (is := [.space]) pos [] rest caps (by simp) (by intro c hc; simp [CItem.test, hr c hc])
  simpa using this

theorem leads_space {ws rest : Str} (pos : Nat) (caps : List (Nat × Str)) (h : ∀ c ∈ ws, reSpace c = true) (hr : ∀ c ∈ rest.head?, reSpace c = false) :
    Leads (.star true (.cls false [.space])) ⟨pos, ws ++ rest, caps⟩ ⟨pos + ws.length, rest, caps⟩ :=
  leads_star_cls (neg := false) (is := [.space]) pos ws rest caps (by intro c hc; simp [CItem.test, h c hc]) (by intro c hc; simp [CItem.test, hr c hc])

/-- a text without a quote after an `=` with a quote has no value -/
theorem plainValue_late {ws2 val tail bl y z a : Str} (hws2 : ∀ c ∈ ws2, reSpace c = true) (hv : PlainValue val) (ht : '"' ∉ tail)
    (hbl : ∀ c ∈ bl, reSpace c = true) (e : ws2 ++ ('"' :: (val ++ ('"' :: tail))) = a ++ ('=' :: (bl ++ ('"' :: (y ++ ('"' :: z)))))) : False := by
  -- the `=` is behind the first quote
  have h1 : ∃ a', val ++ ('"' :: tail) = a' ++ ('=' :: (bl ++ ('"' :: (y ++ ('"' :: z))))) := by
    rw [show ws2 ++ ('"' :: (val ++ ('"' :: tail))) = (ws2 ++ ['"']) ++ (val ++ ('"' :: tail)) by simp] at e
    rcases List.append_eq_append_iff.1 e with ⟨w, h5, h6⟩ | ⟨w, h5, h6⟩
    · exact ⟨w, h6⟩
    · cases w with
      | nil => exact ⟨[], by simpa using h6.symm⟩
      | cons w0 w =>
        simp at h6
        have : w0 ∈ ws2 ++ ['"'] := by rw [h5]; simp
        rw [← h6.1] at this
        simp at this
        exact absurd (hws2 _ this) (by decide)
  obtain ⟨a', h1⟩ := h1
  have hnb : '"' ∉ bl := fun h => by have := hbl _ h; revert this; decide
  have hq : ∀ {u v w : Str}, val ++ ('"' :: tail) = u ++ v → '"' ∉ tail → (∃ p q, v = p ++ '"' :: (q ++ '"' :: w)) → ∃ m, val = u ++ m ∧ v = m ++ ('"' :: tail) := by
    intro u v w e ht hv
    rcases List.append_eq_append_iff.1 e with ⟨x, h5, h6⟩ | ⟨x, h5, h6⟩
    · exfalso
      cases x with
      | nil =>
        obtain ⟨p, q, rfl⟩ := hv
        simp at h6
        cases p with
        | nil => simp at h6; exact ht (by rw [h6]; simp)
        | cons p0 p => simp at h6; exact ht (by rw [h6.2]; simp)
      | cons x0 x =>
        simp at h6
        obtain ⟨p, q, rfl⟩ := hv
        exact ht (by rw [h6.2]; simp)
    · exact ⟨x, h5, h6⟩
  obtain ⟨m, h2, h3⟩ := hq h1 ht ⟨'=' :: bl, y, rfl⟩
  cases m with
  | nil => simp at h3
  | cons m0 m =>
    simp at h3
    obtain ⟨rfl, h3⟩ := h3
    -- the quote after the `=` lies in the value
    rcases List.append_eq_append_iff.1 h3 with ⟨x, h5, h6⟩ | ⟨x, h5, h6⟩
    · cases x with
      | nil =>
        simp at h6
        exact ht (by rw [← h6]; simp)
      | cons x0 x =>
        simp at h6
        obtain ⟨c, hc, hcs⟩ := hv.2 a' bl x (by rw [h2, h5, ← h6.1])
        rw [hbl c hc] at hcs; cases hcs
    · cases x with
      | nil =>
        simp at h6
        exact ht (by rw [h6]; simp)
      | cons x0 x =>
        simp at h6
        exact hnb (by rw [h5, ← h6.1]; simp)

theorem reExportWval_match {ws name ws1 ws2 val tail : Str} (hws : Gap ws) (hn : name ≠ []) (hnc : ∀ c ∈ name, NameChar c)
    (hw1 : Blanks ws1) (hw2 : Blanks ws2) (hv : PlainValue val) (ht : '"' ∉ tail ∧ '\n' ∉ tail) :
    ∃ m, reMatch reExportWval.re (c!"export" ++ (ws ++ (name ++ (ws1 ++ ('=' :: (ws2 ++ ('"' :: (val ++ ('"' :: tail))))))))) = some m ∧
      reExportWval.group m c!"name" = some (name ++ ws1) ∧ reExportWval.group m c!"value" = some val := by
  generalize hV : ws2 ++ ('"' :: (val ++ ('"' :: tail))) = V
  generalize hL : c!"export" ++ (ws ++ (name ++ (ws1 ++ ('=' :: V)))) = L
  generalize hk : (fun t => some (mkMt ⟨0, L, []⟩ t)) = kf
  have hkf : ∀ t, kf t = some (mkMt ⟨0, L, []⟩ t) := fun t => by rw [← hk]
  have hs1 : ∀ c ∈ ws1, reSpace c = true := fun c hc => (hw1 c hc).1
  have hs2 : ∀ c ∈ ws2, reSpace c = true := fun c hc => (hw2 c hc).1
  -- the value
  have k1 : ∀ pos caps, run (.seq (.grp 3 (.star true .any)) (.lit c!"\"")) kf ⟨pos, val ++ ('"' :: tail), caps⟩ =
      kf ⟨pos + val.length + 1, tail, (3, val) :: caps⟩ := by
    intro pos caps
    have hlit : ∀ pos caps, run (.lit c!"\"") kf ⟨pos, '"' :: tail, caps⟩ = kf ⟨pos + 1, tail, caps⟩ :=
      fun pos caps => run_lit_append c!"\"" kf pos tail caps
    rw [run_seq, run_grp, run_star_greedy_last charRe_any]
    · simp only [hlit]
      rw [Nat.add_sub_cancel_left, List.take_left]
    · intro c hc; simp; rintro rfl; exact hv.1 hc
    · intro u v pos e hu
      obtain ⟨x, u', rfl⟩ := List.exists_cons_of_ne_nil hu
      simp at e
      rw [run_none]
      intro t h
      exfalso
      rw [mem_ms_lit] at h
      obtain ⟨⟨q, hq⟩, -⟩ := h
      have hq : c!"\"" ++ q = v := hq
      exact ht.1 (by rw [e.2, ← hq]; simp)
    · simp only [hlit, hkf]; rfl
  have k2 : ∀ pos caps, run (.seq (.star true (.cls false [.space])) (.seq (.lit c!"\"") (.seq (.grp 3 (.star true .any)) (.lit c!"\"")))) kf ⟨pos, V, caps⟩ =
      kf ⟨pos + ws2.length + 1 + val.length + 1, tail, (3, val) :: caps⟩ := by
    intro pos caps
    have h1 : run (.seq (.lit c!"\"") (.seq (.grp 3 (.star true .any)) (.lit c!"\""))) kf ⟨pos + ws2.length, '"' :: (val ++ ('"' :: tail)), caps⟩ =
        kf ⟨pos + ws2.length + 1 + val.length + 1, tail, (3, val) :: caps⟩ := by
      have := run_lit_append c!"\"" (run (.seq (.grp 3 (.star true .any)) (.lit c!"\"")) kf) (pos + ws2.length) (val ++ ('"' :: tail)) caps
      simp only [List.cons_append, List.nil_append] at this
      rw [run_seq, this]; exact k1 _ _
    rw [run_seq, ← hV, (leads_space pos caps hs2 (by simp; decide)).run, h1]
    rw [h1, hkf]; rfl
  have k3 : ∀ pos caps, run (.seq (.star true (.cls false [.space])) (.seq (.lit c!"=") (.seq (.star true (.cls false [.space])) (.seq (.lit c!"\"")
      (.seq (.grp 3 (.star true .any)) (.lit c!"\"")))))) kf ⟨pos, '=' :: V, caps⟩ =
      kf ⟨pos + 1 + ws2.length + 1 + val.length + 1, tail, (3, val) :: caps⟩ := by
    intro pos caps
    have h1 : run (.seq (.lit c!"=") (.seq (.star true (.cls false [.space])) (.seq (.lit c!"\"") (.seq (.grp 3 (.star true .any)) (.lit c!"\""))))) kf ⟨pos, '=' :: V, caps⟩ =
        kf ⟨pos + 1 + ws2.length + 1 + val.length + 1, tail, (3, val) :: caps⟩ := by
      have := run_lit_append c!"=" (run (.seq (.star true (.cls false [.space])) (.seq (.lit c!"\"") (.seq (.grp 3 (.star true .any)) (.lit c!"\"")))) kf) pos V caps
      simp only [List.cons_append, List.nil_append] at this
      rw [run_seq, this]; exact k2 _ _
    rw [run_seq, (leads_space0 pos caps (by simp; decide)).run, h1]
    rw [h1, hkf]; rfl
  have k4 : ∀ pos caps, run (.seq (.grp 2 (.seq .any (.star true .any))) (.seq (.star true (.cls false [.space])) (.seq (.lit c!"=") (.seq (.star true (.cls false [.space]))
      (.seq (.lit c!"\"") (.seq (.grp 3 (.star true .any)) (.lit c!"\""))))))) kf ⟨pos, (name ++ ws1) ++ ('=' :: V), caps⟩ =
      kf ⟨pos + (name ++ ws1).length + 1 + ws2.length + 1 + val.length + 1, tail, (3, val) :: (2, name ++ ws1) :: caps⟩ := by
    intro pos caps
    rw [run_seq, run_plus_last _ _ _ _ _ (by simp [hn]) (by
      intro h
      rcases List.mem_append.1 h with h | h
      · exact absurd (hnc _ h) (by decide)
      · exact (hw1 _ h).2 rfl), k3]
    · intro u v pos cp e hu
      obtain ⟨z, u', rfl⟩ := List.exists_cons_of_ne_nil hu
      have e : V = u' ++ v := by simp at e; exact e.2
      rw [run_none]
      intro t h
      exfalso
      simp only [mem_ms_seq] at h
      obtain ⟨s1, h1, s2, h2, s3, h3, s4, h4, s5, h5, h6⟩ := h
      obtain ⟨w1, e1, -⟩ := ms_eats _ _ _ h1
      obtain ⟨w3, e3, -, h3a⟩ := ms_eats _ _ _ h3
      obtain ⟨w5, e5, -⟩ := ms_eats _ _ _ h5
      rw [mem_ms_lit] at h2 h4 h6
      obtain ⟨⟨q2, hq2⟩, rfl⟩ := h2
      obtain ⟨⟨q4, hq4⟩, rfl⟩ := h4
      obtain ⟨⟨q6, hq6⟩, rfl⟩ := h6
      have e1 : v = w1 ++ s1.rest := e1
      have e3 : q2 = w3 ++ s3.rest := by
        have : s1.rest.drop 1 = w3 ++ s3.rest := e3
        rw [← hq2] at this; simpa using this
      have e5 : q4 = w5 ++ s5.rest := by
        have : s3.rest.drop 1 = w5 ++ s5.rest := e5
        rw [← hq4] at this; simpa using this
      refine plainValue_late (ws2 := ws2) (val := val) (tail := tail) (bl := w3) (y := w5) (z := q6) (a := u' ++ w1) hs2 hv ht.1 ?_ ?_
      · intro c hc
        have := h3a c hc
        simpa [Re.eats, CItem.test] using this
      · rw [hV, e, e1, ← hq2, e3, ← hq4, e5, ← hq6]; simp
    · rw [k3, hkf]; rfl
  have hfin : run reExportWval.re kf ⟨0, L, []⟩ = kf ⟨0 + (c!"export" : Str).length + ws.length + (name ++ ws1).length + 1 + ws2.length + 1 + val.length + 1, tail,
      (3, val) :: (2, name ++ ws1) :: [(1, ws)]⟩ := by
    have hshape : reExportWval.re = .seq .bos (.seq (.star false (.cls false [.space])) (.seq (.lit c!"export") (.seq (blanksRe 1)
      (.seq (.grp 2 (.seq .any (.star true .any))) (.seq (.star true (.cls false [.space])) (.seq (.lit c!"=") (.seq (.star true (.cls false [.space]))
      (.seq (.lit c!"\"") (.seq (.grp 3 (.star true .any)) (.lit c!"\"")))))))))) := rfl
    have e : name ++ (ws1 ++ ('=' :: V)) = (name ++ ws1) ++ ('=' :: V) := by simp
    have k5 : run (.seq (.lit c!"export") (.seq (blanksRe 1)
      (.seq (.grp 2 (.seq .any (.star true .any))) (.seq (.star true (.cls false [.space])) (.seq (.lit c!"=") (.seq (.star true (.cls false [.space]))
      (.seq (.lit c!"\"") (.seq (.grp 3 (.star true .any)) (.lit c!"\""))))))))) kf ⟨0, L, []⟩ =
      kf ⟨0 + (c!"export" : Str).length + ws.length + (name ++ ws1).length + 1 + ws2.length + 1 + val.length + 1, tail,
      (3, val) :: (2, name ++ ws1) :: [(1, ws)]⟩ := by
      rw [← hL, run_seq, run_lit_append, run_seq, (leads_blanks (g := 1) _ _ hws.1 (gap_space hws) ?_).run, e, k4]
      · rw [e, k4, hkf]; rfl
      · intro c hc
        obtain ⟨x, y, rfl⟩ := List.exists_cons_of_ne_nil hn
        simp at hc; subst hc
        exact (nameChar_not_space (hnc _ (by simp))).1
    rw [hshape, run_seq, run_bos, if_pos rfl, run_seq, (leads_lazy _ _).run, k5]
    rw [k5, hkf]; rfl
  rw [reMatch_eq_run, hk, hfin, hkf]
  exact ⟨_, rfl, rfl, rfl⟩

theorem not_wval_quote {s : Str} (h : '"' ∉ s) : reMatch reExportWval.re s = none := by
  rw [reMatch_none_iff]
  intro t ht
  simp only [reExportWval, mem_ms_seq] at ht
  obtain ⟨s0, h0, s1, h1, s2, h2, s3, h3, s4, h4, s5, h5, s6, h6, s7, h7, s8, h8, -⟩ := ht
  rw [mem_ms_lit] at h8
  obtain ⟨⟨q, hq⟩, -⟩ := h8
  have hsuf : s7.rest <:+ s :=
    (ms_adv _ _ _ h7).suffix.trans ((ms_adv _ _ _ h6).suffix.trans ((ms_adv _ _ _ h5).suffix.trans ((ms_adv _ _ _ h4).suffix.trans
      ((ms_adv _ _ _ h3).suffix.trans ((ms_adv _ _ _ h2).suffix.trans ((ms_adv _ _ _ h1).suffix.trans (ms_adv _ _ _ h0).suffix))))))
  exact h (hsuf.mem (by rw [← hq]; simp))

theorem reExportWoval_match {ws rest : Str} (hws : Gap ws) (hn : rest ≠ []) (hh : ∀ c ∈ rest.head?, reSpace c = false) (hnl : '\n' ∉ rest) :
    ∃ m, reMatch reExportWoval.re (c!"export" ++ (ws ++ rest)) = some m ∧ reExportWoval.group m c!"name" = some rest := by
  have hend : ∀ (pos : Nat) (caps : List (Nat × Str)), Leads (.seq (.star true (.cls false [.space])) .eos) ⟨pos, [], caps⟩ ⟨pos, [], caps⟩ := by
    intro pos caps
    exact leads_seq (leads_space0 pos caps (by simp)) (by simp [Leads, ms])
  have := leads_seq (leads_bos (s := ⟨0, c!"export" ++ (ws ++ rest), []⟩) rfl) (leads_seq (leads_lazy (.cls false [.space]) _) (leads_seq (leads_lit c!"export" 0 (ws ++ rest) [])
    (leads_seq (leads_blanks (g := 1) _ _ hws.1 (gap_space hws) hh) (leads_seq (leads_line (g := 2) _ _ hn hnl) (hend _ _)))))
  obtain ⟨m, h1, h2⟩ := reMatch_of_leads (p := reExportWoval) ⟨_, this, rfl⟩
  exact ⟨m, h1, by rw [h2]; rfl⟩

/-! ## functions -/

theorem funcChar_test {c : Char} (h : FuncChar c) :
    (([.word, .one '.', .one '-', .one '+', .one '{', .one '}', .one ':', .one '$'] : List CItem).any (·.test c)) = true := by
  have key : TaskChar c ∨ c ∈ c!".+{}:$" := by
    rcases h with h | h | h | h
    · exact Or.inl (Or.inl h)
    · exact Or.inl (Or.inr (Or.inl h))
    · exact Or.inl (Or.inr (Or.inr (Or.inl h)))
    · simp only [List.mem_cons, List.not_mem_nil, or_false] at h
      rcases h with rfl | rfl | rfl | rfl | rfl | rfl | rfl | rfl
      · exact Or.inl (by decide)
      · exact Or.inr (by decide)
      · exact Or.inl (by decide)
      all_goals exact Or.inr (by decide)
  rcases key with h | h
  · rcases taskChar_word h with h | rfl
    · simp [CItem.test, h]
    · simp [CItem.test]
  · simp only [List.mem_cons, List.not_mem_nil, or_false] at h
    rcases h with rfl | rfl | rfl | rfl | rfl | rfl <;> simp [CItem.test]

theorem funcChar_not_space {c : Char} (h : FuncChar c) : reSpace c = false ∧ c ≠ '#' ∧ c ≠ '\n' ∧ c ≠ '\\' := by
  have e : ∀ a b : Char, (a ≤ b) = (a.toNat ≤ b.toNat) := fun a b => by
    simp [Char.le_def, UInt32.le_iff_toNat_le]
  have hs : reSpace c = false := by
    have h' := h
    unfold FuncChar at h'
    simp only [e, List.mem_cons, List.not_mem_nil, or_false] at h'
    rcases h' with h | h | h | h | h | h | h | h | h | h | h
    · simp at h; simp [reSpace]; omega
    · simp at h; simp [reSpace]; omega
    · simp at h; simp [reSpace]; omega
    all_goals subst h; decide
  refine ⟨hs, ?_, ?_, ?_⟩ <;> rintro rfl <;> revert h <;> decide

theorem tabs_space {ws : Str} (h : Tabs ws) : ∀ d ∈ ws, reSpace d = true := by
  intro d hd
  rcases h d hd with rfl | rfl <;> decide

/-- the loop over `python` and `fakeroot` -/
def flagsRe : Re := .star true (.grp 1 (.alt (.seq (.grp 2 (.lit c!"python")) (.star true (.cls false [.space])))
  (.grp 3 (.seq (.lit c!"fakeroot") (.star true (.cls false [.space]))))))

theorem python_head {u : Str} : ∀ c ∈ (c!"python" ++ u).head?, reSpace c = false := by simp; decide
theorem fakeroot_head {u : Str} : ∀ c ∈ (c!"fakeroot" ++ u).head?, reSpace c = false := by simp; decide

theorem flags_head {flags u : Str} {py fr : Bool} (h : FuncFlags flags py fr) (hu : ∀ c ∈ u.head?, reSpace c = false) :
    ∀ c ∈ (flags ++ u).head?, reSpace c = false := by
  cases h with
  | none => simpa using hu
  | python _ _ => rw [List.append_assoc]; exact python_head
  | fakeroot _ _ => rw [List.append_assoc]; exact fakeroot_head

theorem leads_flags {flags rest : Str} {py fr : Bool} (h : FuncFlags flags py fr) (hr : ∀ c ∈ rest.head?, reSpace c = false)
    (hno : ¬ c!"python" <+: rest ∧ ¬ c!"fakeroot" <+: rest) (pos : Nat) (caps : List (Nat × Str)) :
    ∃ caps', Leads flagsRe ⟨pos, flags ++ rest, caps⟩ ⟨pos + flags.length, rest, caps'⟩ ∧
      ((caps'.find? (fun c => c.1 == 2)).isSome = (py || (caps.find? (fun c => c.1 == 2)).isSome)) ∧
      ((caps'.find? (fun c => c.1 == 3)).isSome = (fr || (caps.find? (fun c => c.1 == 3)).isSome)) ∧
      (∀ k, 3 < k → caps'.find? (fun c => c.1 == k) = caps.find? (fun c => c.1 == k)) := by
  induction h generalizing pos caps with
  | none =>
    refine ⟨caps, ?_, by simp, by simp, fun _ _ => rfl⟩
    refine leads_stop ?_
    intro u hu
    exfalso
    simp only [ms, List.mem_map, List.mem_append, List.mem_flatMap] at hu
    obtain ⟨x, hx, -⟩ := hu
    rcases hx with ⟨y, ⟨z, hz, -⟩, -⟩ | ⟨y, ⟨z, hz, -⟩, -⟩
    · split at hz
      · rename_i h; exact hno.1 (List.isPrefixOf_iff_prefix.1 h)
      · cases hz
    · split at hz
      · rename_i h; exact hno.2 (List.isPrefixOf_iff_prefix.1 h)
      · cases hz
  | @python ws t py fr hws ht ih =>
    have h1 := leads_seq (leads_grp (n := 2) (leads_lit c!"python" pos (ws ++ (t ++ rest)) caps))
      (leads_space _ _ (tabs_space hws) (flags_head ht hr))
    have h2 := leads_grp (n := 1) (leads_left (b := .grp 3 (.seq (.lit c!"fakeroot") (.star true (.cls false [.space])))) h1)
    obtain ⟨caps', h3, h4, h5, h6⟩ := ih (pos + 6 + ws.length) ((1, (c!"python" ++ (ws ++ (t ++ rest))).take (pos + 6 + ws.length - pos)) ::
      (2, (c!"python" ++ (ws ++ (t ++ rest))).take (pos + 6 - pos)) :: caps)
    refine ⟨caps', ?_, ?_, ?_, ?_⟩
    · have := leads_star h2 (by simp; omega) h3
      rw [show pos + (c!"python" ++ (ws ++ t)).length = pos + 6 + ws.length + t.length by simp; omega]
      rw [show c!"python" ++ (ws ++ t) ++ rest = c!"python" ++ (ws ++ (t ++ rest)) by simp]
      exact this
    · rw [h4]; simp
    · rw [h5]; simp
    · intro k hk
      rw [h6 k hk, List.find?_cons_of_neg (by simp; omega), List.find?_cons_of_neg (by simp; omega)]
  | @fakeroot ws t py fr hws ht ih =>
    have h1 := leads_grp (n := 3) (leads_seq (leads_lit c!"fakeroot" pos (ws ++ (t ++ rest)) caps)
      (leads_space (pos + 8) caps (tabs_space hws) (flags_head ht hr)))
    have h2 := leads_grp (n := 1) (leads_right (a := .seq (.grp 2 (.lit c!"python")) (.star true (.cls false [.space])))
      (not_mem_first rfl (by simp [Re.first, Re.nullable])) h1)
    obtain ⟨caps', h3, h4, h5, h6⟩ := ih (pos + 8 + ws.length) ((1, (c!"fakeroot" ++ (ws ++ (t ++ rest))).take (pos + 8 + ws.length - pos)) ::
      (3, (c!"fakeroot" ++ (ws ++ (t ++ rest))).take (pos + 8 + ws.length - pos)) :: caps)
    refine ⟨caps', ?_, ?_, ?_, ?_⟩
    · have := leads_star h2 (by simp; omega) h3
      rw [show pos + (c!"fakeroot" ++ (ws ++ t)).length = pos + 8 + ws.length + t.length by simp; omega]
      rw [show c!"fakeroot" ++ (ws ++ t) ++ rest = c!"fakeroot" ++ (ws ++ (t ++ rest)) by simp]
      exact this
    · rw [h4]; simp
    · rw [h5]; simp
    · intro k hk
      rw [h6 k hk, List.find?_cons_of_neg (by simp; omega), List.find?_cons_of_neg (by simp; omega)]

theorem tabs_no_func {c : Char} (h : c = ' ' ∨ c = '\t' ∨ c = '(') :
    (([.word, .one '.', .one '-', .one '+', .one '{', .one '}', .one ':', .one '$'] : List CItem).any (·.test c)) = false := by
  rcases h with rfl | rfl | rfl <;> rfl

theorem prefix_short {p name : Str} {c : Char} {u : Str} (hp : c ∉ p) (h : p <+: name ++ c :: u) : p <+: name := by
  obtain ⟨q, hq⟩ := h
  rcases List.append_eq_append_iff.1 hq with ⟨a, e1, e2⟩ | ⟨a, e1, e2⟩
  · exact ⟨a, e1.symm⟩
  · cases a with
    | nil => exact ⟨[], by simpa using e1⟩
    | cons x y =>
      exfalso
      simp at e2
      exact hp (by rw [e1, e2.1]; simp)

theorem leads_of_run {r : Re} {s t : St} (h : run r some s = some t) : Leads r s t := by
  rw [Leads, ← h, run]
  cases ms r s <;> rfl

theorem leads_body {g : Nat} {body tail : Str} (pos : Nat) (caps : List (Nat × Str)) (hb : '\n' ∉ body) (ht : '}' ∉ tail) :
    Leads (.seq (.grp g (.star true .any)) (.seq (.star true (.cls false [.space])) (.lit c!"}")))
      ⟨pos, body ++ ('}' :: tail), caps⟩ ⟨pos + body.length + 1, tail, (g, body) :: caps⟩ := by
  have e4 : List.take (pos + body.length - pos) (body ++ ('}' :: tail)) = body := by
    rw [Nat.add_sub_cancel_left, List.take_left]
  have e0 : ∀ caps, Leads (.seq (.star true (.cls false [.space])) (.lit c!"}")) ⟨pos + body.length, '}' :: tail, caps⟩
      ⟨pos + body.length + 1, tail, caps⟩ := fun caps =>
    leads_seq (leads_space0 _ _ (by simp; decide)) (leads_lit c!"}" _ _ _)
  refine leads_of_run ?_
  rw [run_seq, run_grp, run_star_greedy_last charRe_any]
  · simp only [e4]
    exact (e0 _).run rfl
  · intro x hx; simp; rintro rfl; exact hb hx
  · intro u v pos' e hu
    rw [run_none]
    intro t ht'
    exfalso
    rw [ms, List.mem_flatMap] at ht'
    obtain ⟨x, hx, hy⟩ := ht'
    rw [ms] at hy
    dsimp only at hy
    obtain ⟨w, hw, -⟩ := mem_ms_star_cls.1 hx
    split at hy
    · rename_i h
      have h1 : '}' ∈ x.rest := (List.isPrefixOf_iff_prefix.1 h).subset (by simp)
      have h2 : '}' ∈ v := by
        have : '}' ∈ w ++ x.rest := by simp [h1]
        rw [← hw] at this; exact this
      obtain ⟨a, b, rfl⟩ := List.exists_cons_of_ne_nil hu
      simp at e
      exact ht (by rw [e.2]; simp [h2])
    · cases hy
  · simp only [e4]
    rw [(e0 _).run rfl]; rfl

theorem reFunc_match {flags name ws1 ws2 ws3 body tail : Str} {py fr : Bool} (hf : FuncFlags flags py fr) (hn : ∀ c ∈ name, FuncChar c)
    (hno : ¬ c!"python" <+: name ∧ ¬ c!"fakeroot" <+: name) (hanon : name = [] → ws1 = []) (h1 : Tabs ws1) (h2 : Tabs ws2) (h3 : Tabs ws3)
    (hb : '\n' ∉ body) (ht : '}' ∉ tail) :
    ∃ m, reMatch reFunc.re (flags ++ (name ++ (ws1 ++ ('(' :: (ws2 ++ (')' :: (ws3 ++ ('{' :: (body ++ ('}' :: tail)))))))))) = some m ∧
      (reFunc.group m c!"py").isSome = py ∧ (reFunc.group m c!"fr").isSome = fr ∧
      (reFunc.group m c!"func").getD [] = name ∧ reFunc.group m c!"funcbody" = some body := by
  obtain ⟨d, u, hd, hdc⟩ : ∃ d u, ws1 ++ ('(' :: (ws2 ++ (')' :: (ws3 ++ ('{' :: (body ++ ('}' :: tail))))))) = d :: u ∧ (d = ' ' ∨ d = '\t' ∨ d = '(') := by
    cases ws1 with
    | nil => exact ⟨_, _, rfl, by simp⟩
    | cons a b => exact ⟨_, _, rfl, by have := h1 a (by simp); tauto⟩
  have hname : ∀ c ∈ name, reSpace c = false := fun c hc => (funcChar_not_space (hn c hc)).1
  have hhead : ∀ c ∈ (name ++ (ws1 ++ ('(' :: (ws2 ++ (')' :: (ws3 ++ ('{' :: (body ++ ('}' :: tail))))))))).head?, reSpace c = false := by
    by_cases hne : name = []
    · rw [hanon hne, hne]; simp; decide
    · exact word_head hne hname
  have hno' : ¬ c!"python" <+: (name ++ (ws1 ++ ('(' :: (ws2 ++ (')' :: (ws3 ++ ('{' :: (body ++ ('}' :: tail))))))))) ∧
      ¬ c!"fakeroot" <+: (name ++ (ws1 ++ ('(' :: (ws2 ++ (')' :: (ws3 ++ ('{' :: (body ++ ('}' :: tail))))))))) := by
    rw [hd]
    exact ⟨fun h => hno.1 (prefix_short (by rcases hdc with rfl | rfl | rfl <;> decide) h),
      fun h => hno.2 (prefix_short (by rcases hdc with rfl | rfl | rfl <;> decide) h)⟩
  obtain ⟨caps, l1, c2, c3, c4⟩ := leads_flags hf hhead hno' 0 []
  have lrest : ∀ pos caps, Leads (.seq (.star true (.cls false [.space])) (.seq (.lit c!"(") (.seq (.star true (.cls false [.space])) (.seq (.lit c!")")
      (.seq (.star true (.cls false [.space])) (.seq (.lit c!"{") (.seq (.grp 5 (.star true .any)) (.seq (.star true (.cls false [.space])) (.lit c!"}")))))))))
      ⟨pos, ws1 ++ ('(' :: (ws2 ++ (')' :: (ws3 ++ ('{' :: (body ++ ('}' :: tail))))))), caps⟩
      ⟨pos + ws1.length + 1 + ws2.length + 1 + ws3.length + 1 + body.length + 1, tail, (5, body) :: caps⟩ := by
    intro pos caps
    refine leads_seq (leads_space _ _ (tabs_space h1) (by simp; decide)) ?_
    refine leads_seq (leads_lit c!"(" _ _ _) ?_
    refine leads_seq (leads_space _ _ (tabs_space h2) (by simp; decide)) ?_
    refine leads_seq (leads_lit c!")" _ _ _) ?_
    refine leads_seq (leads_space _ _ (tabs_space h3) (by simp; decide)) ?_
    refine leads_seq (leads_lit c!"{" _ _ _) ?_
    exact leads_body _ _ hb ht
  have lname : ∃ caps', Leads (.alt (.grp 4 (.seq (.cls false [.word, .one '.', .one '-', .one '+', .one '{', .one '}', .one ':', .one '$'])
      (.star true (.cls false [.word, .one '.', .one '-', .one '+', .one '{', .one '}', .one ':', .one '$'])))) .eps)
      ⟨0 + flags.length, name ++ (ws1 ++ ('(' :: (ws2 ++ (')' :: (ws3 ++ ('{' :: (body ++ ('}' :: tail)))))))), caps⟩
      ⟨0 + flags.length + name.length, ws1 ++ ('(' :: (ws2 ++ (')' :: (ws3 ++ ('{' :: (body ++ ('}' :: tail))))))), caps'⟩ ∧
      ((caps'.find? (fun c => c.1 == 4)).map (·.2)).getD [] = name ∧
      caps'.find? (fun c => c.1 == 2) = caps.find? (fun c => c.1 == 2) ∧ caps'.find? (fun c => c.1 == 3) = caps.find? (fun c => c.1 == 3) := by
    rw [hd]
    by_cases hne : name = []
    · subst hne
      refine ⟨caps, leads_right ?_ (leads_eps _), by rw [c4 4 (by omega)]; rfl, rfl, rfl⟩
      refine not_mem_first rfl ?_
      intro c hc
      simp at hc
      subst hc
      simpa [Re.first, Re.nullable] using tabs_no_func hdc
    · refine ⟨_, leads_left (leads_grp (leads_plus_cls _ name (d :: u) _ hne ?_ ?_)), ?_, ?_, ?_⟩
      · intro c hc
        rw [funcChar_test (hn c hc)]; simp
      · intro c hc
        simp at hc; subst hc
        exact tabs_no_func hdc
      · simp
      · simp
      · simp
  obtain ⟨caps', l2, d4, d2, d3⟩ := lname
  obtain ⟨m, h1, h2⟩ := reMatch_of_leads (p := reFunc) ⟨_, leads_seq (leads_bos rfl) (leads_seq l1 (leads_seq l2 (lrest _ _))), rfl⟩
  refine ⟨m, h1, ?_, ?_, ?_, ?_⟩
  · rw [h2]
    simp only [show reFunc.idx c!"py" = 2 from rfl, Option.isSome_map]
    rw [List.find?_cons_of_neg (by simp), d2, c2]; simp
  · rw [h2]
    simp only [show reFunc.idx c!"fr" = 3 from rfl, Option.isSome_map]
    rw [List.find?_cons_of_neg (by simp), d3, c3]; simp
  · rw [h2]
    simp only [show reFunc.idx c!"func" = 4 from rfl]
    rw [List.find?_cons_of_neg (by simp), d4]
  · rw [h2]; rfl
/-! ## INHERIT -/

theorem run_quote {α : Type} {g : Nat} {q : Char} {rest : Str} (k : St → Option α) (pos : Nat) (caps : List (Nat × Str)) (hq : q = '\'' ∨ q = '"')
    (hk : (k ⟨pos + 1, rest, (g, [q]) :: caps⟩).isSome) :
    run (.grp g (.alt (.lit c!"'") (.lit c!"\""))) k ⟨pos, q :: rest, caps⟩ = k ⟨pos + 1, rest, (g, [q]) :: caps⟩ := by
  have e : ms (.grp g (.alt (.lit c!"'") (.lit c!"\""))) ⟨pos, q :: rest, caps⟩ = [⟨pos + 1, rest, (g, [q]) :: caps⟩] := by
    rcases hq with rfl | rfl <;> simp [ms]
  rw [run, e]
  simp only [List.findSome?]
  split <;> simp_all

theorem run_quote_none {α : Type} {g : Nat} {v : Str} (k : St → Option α) (pos : Nat) (caps : List (Nat × Str)) (h : '\'' ∉ v ∧ '"' ∉ v) :
    run (.grp g (.alt (.lit c!"'") (.lit c!"\""))) k ⟨pos, v, caps⟩ = none := by
  rw [run_none]
  intro t ht
  exfalso
  cases v with
  | nil => simp [ms] at ht
  | cons a b =>
    simp [ms] at ht
    rcases ht with ⟨h1, -⟩ | ⟨h1, -⟩
    · exact h.1 (by rw [← h1]; simp)
    · exact h.2 (by rw [← h1]; simp)

theorem reInheritGlob_match {ws1 pre post ws2 val tail : Str} {q q' : Char} (h : IsOp ws1 pre post ws2 (q :: (val ++ (q' :: tail))))
    (hq : q = '\'' ∨ q = '"') (hq' : q' = '\'' ∨ q' = '"') (hv : '\n' ∉ val) (ht : '\'' ∉ tail ∧ '"' ∉ tail) :
    ∃ m, reMatch reInheritGlob.re (c!"INHERIT" ++ (ws1 ++ (pre ++ '=' :: (post ++ (ws2 ++ (q :: (val ++ (q' :: tail)))))))) = some m ∧
      reInheritGlob.group m c!"inhname" = some val := by
  have hshape : reInheritGlob.re = .seq .bos (.seq (.lit c!"INHERIT") (.seq (.grp 1 (opRe 2 3 4 5)) (.seq (.grp 6 (.alt (.lit c!"'") (.lit c!"\"")))
    (.seq (.grp 7 (.star true .any)) (.grp 8 (.alt (.lit c!"'") (.lit c!"\""))))))) := rfl
  generalize hL : c!"INHERIT" ++ (ws1 ++ (pre ++ '=' :: (post ++ (ws2 ++ (q :: (val ++ (q' :: tail))))))) = L
  generalize hk : (fun t => some (mkMt ⟨0, L, []⟩ t)) = kf
  have hkf : ∀ t, kf t = some (mkMt ⟨0, L, []⟩ t) := fun t => by rw [← hk]
  have k7 : ∀ pos caps, run (.seq (.grp 7 (.star true .any)) (.grp 8 (.alt (.lit c!"'") (.lit c!"\"")))) kf ⟨pos, val ++ (q' :: tail), caps⟩ =
      kf ⟨pos + val.length + 1, tail, (8, [q']) :: (7, val) :: caps⟩ := by
    intro pos caps
    have e4 : List.take (pos + val.length - pos) (val ++ (q' :: tail)) = val := by rw [Nat.add_sub_cancel_left, List.take_left]
    rw [run_seq, run_grp, run_star_greedy_last charRe_any]
    · simp only [e4]
      exact run_quote _ _ _ hq' (by rw [hkf]; rfl)
    · intro x hx; simp; rintro rfl; exact hv hx
    · intro u v pos e hu
      refine run_quote_none _ _ _ ?_
      obtain ⟨a, b, rfl⟩ := List.exists_cons_of_ne_nil hu
      simp at e
      constructor
      · intro hc; exact ht.1 (by rw [e.2]; simp [hc])
      · intro hc; exact ht.2 (by rw [e.2]; simp [hc])
    · simp only [e4]
      rw [run_quote _ _ _ hq' (by rw [hkf]; rfl), hkf]; rfl
  have k6 : ∀ pos caps, run (.seq (.grp 6 (.alt (.lit c!"'") (.lit c!"\""))) (.seq (.grp 7 (.star true .any)) (.grp 8 (.alt (.lit c!"'") (.lit c!"\""))))) kf
      ⟨pos, q :: (val ++ (q' :: tail)), caps⟩ = kf ⟨pos + 1 + val.length + 1, tail, (8, [q']) :: (7, val) :: (6, [q]) :: caps⟩ := by
    intro pos caps
    rw [run_seq, run_quote _ _ _ hq (by rw [k7, hkf]; rfl), k7]
  have main : ∃ t, run reInheritGlob.re kf ⟨0, L, []⟩ = kf t ∧ ∃ caps, t.caps = (8, [q']) :: (7, val) :: caps := by
    rw [hshape, run_seq, run_bos, if_pos rfl, run_seq, ← hL, run_lit_append, run_seq, run_grp, run_op h]
    · simp only [k6]
      exact ⟨_, rfl, _, rfl⟩
    · intro pos caps
      simp only [k6, hkf]; rfl
  obtain ⟨t, ht, caps, hcaps⟩ := main
  rw [reMatch_eq_run, hk, ht, hkf]
  refine ⟨_, rfl, ?_⟩
  show Mt.group _ 7 = _
  simp [Mt.group, mkMt, hcaps]

/-! ## def -/

theorem defChar_test {c : Char} (h : DefChar c) :
    (([.range 'a' 'z', .range '0' '9', .one '_', .one '-'] : List CItem).any (·.test c)) = true := by
  have e : ∀ a b : Char, (a ≤ b) = (a.toNat ≤ b.toNat) := fun a b => by
    simp [Char.le_def, UInt32.le_iff_toNat_le]
  unfold DefChar at h
  simp only [e] at h
  simpa [CItem.test] using h

theorem rePython_match {ws name ws2 rest : Str} (hws : Gap ws) (hn : name ≠ [] ∧ ∀ c ∈ name, DefChar c) (h2 : Tabs ws2)
    (hr : '\n' ∉ rest) (hc : c!"):" <:+: rest) :
    ∃ m, reMatch rePython.re (c!"def" ++ (ws ++ (name ++ (ws2 ++ ('(' :: rest))))) = some m ∧
      rePython.group m c!"funcname" = some name := by
  have hend : ∀ pos caps, ∃ t, Leads (.seq (.star true .any) (.lit c!"):")) ⟨pos, rest, caps⟩ t ∧ t.caps = caps := by
    intro pos caps
    obtain ⟨a, b, e⟩ := hc
    have hmem : (⟨pos + a.length + 2, b, caps⟩ : St) ∈ ms (.seq (.star true .any) (.lit c!"):")) ⟨pos, rest, caps⟩ := by
      rw [ms, List.mem_flatMap]
      refine ⟨⟨pos + a.length, c!"):" ++ b, caps⟩, mem_ms_star_any.2 ⟨a, ?_, ?_, rfl, rfl⟩, ?_⟩
      · rw [← e]; simp
      · intro hc'; exact hr (by rw [← e]; simp [hc'])
      · exact (leads_lit c!"):" _ _ _).mem
    cases hm : ms (.seq (.star true .any) (.lit c!"):")) ⟨pos, rest, caps⟩ with
    | nil => rw [hm] at hmem; cases hmem
    | cons x l =>
      refine ⟨x, by rw [Leads, hm]; rfl, ?_⟩
      have hx : x ∈ ms (.seq (.star true .any) (.lit c!"):")) ⟨pos, rest, caps⟩ := by rw [hm]; simp
      rw [ms, List.mem_flatMap] at hx
      obtain ⟨y, hy, hz⟩ := hx
      obtain ⟨w, -, -, -, h4⟩ := mem_ms_star_any.1 hy
      rw [ms] at hz
      dsimp only at hz
      split at hz
      · simp at hz; rw [hz]; exact h4
      · cases hz
  obtain ⟨n0, n', rfl⟩ := List.exists_cons_of_ne_nil hn.1
  have hdef : ∀ c, DefChar c → reSpace c = false := by
    intro c h
    refine (funcChar_not_space (c := c) ?_).1
    rcases h with h | h | rfl | rfl
    · exact Or.inr (Or.inr (Or.inl h))
    · exact Or.inr (Or.inl h)
    · decide
    · decide
  have l2 : ∀ pos caps, ∃ caps', Leads (.grp 4 (.alt (.star true (.cls false [.space])) (.star true (.lit c!"\t")))) ⟨pos, ws2 ++ ('(' :: rest), caps⟩
      ⟨pos + ws2.length, '(' :: rest, (4, caps') :: caps⟩ := fun pos caps =>
    ⟨_, leads_grp (leads_left (leads_space pos caps (tabs_space h2) (by simp; decide)))⟩
  obtain ⟨p4, l4⟩ := l2 (0 + 3 + ws.length + (n0 :: n').length) ((3, n0 :: n') :: (2, ws) :: [(1, [])])
  obtain ⟨t, lt, tc⟩ := hend (0 + 3 + ws.length + (n0 :: n').length + ws2.length + 1) ((4, p4) :: (3, n0 :: n') :: (2, ws) :: [(1, [])])
  have l0 := leads_no_blanks (g := 1) (c := 'd') (u := c!"ef" ++ (ws ++ ((n0 :: n') ++ (ws2 ++ ('(' :: rest))))) 0 [] (by decide)
  have l1 := leads_lit c!"def" 0 (ws ++ ((n0 :: n') ++ (ws2 ++ ('(' :: rest)))) [(1, [])]
  have l2 := leads_blanks (g := 2) (0 + 3) [(1, [])] hws.1 (gap_space hws) (rest := (n0 :: n') ++ (ws2 ++ ('(' :: rest)))
    (by simp; exact hdef _ (hn.2 _ (by simp)))
  have l3 : Leads (.grp 3 (.seq (.cls false [.range 'a' 'z', .range '0' '9', .one '_', .one '-']) (.star true (.cls false [.range 'a' 'z', .range '0' '9', .one '_', .one '-']))))
      ⟨0 + 3 + ws.length, (n0 :: n') ++ (ws2 ++ ('(' :: rest)), [(2, ws), (1, [])]⟩
      ⟨0 + 3 + ws.length + (n0 :: n').length, ws2 ++ ('(' :: rest), (3, n0 :: n') :: [(2, ws), (1, [])]⟩ := by
    have := leads_grp (n := 3) (leads_plus_cls (neg := false) (is := [.range 'a' 'z', .range '0' '9', .one '_', .one '-'])
      (0 + 3 + ws.length) (n0 :: n') (ws2 ++ ('(' :: rest)) [(2, ws), (1, [])] hn.1
      (by intro c hc; rw [defChar_test (hn.2 c hc)]; simp)
      (by
        intro c hc
        have : c = ' ' ∨ c = '\t' ∨ c = '(' := by
          cases ws2 with
          | nil => simp at hc; subst hc; simp
          | cons a b => simp at hc; subst hc; have := h2 a (by simp); tauto
        rcases this with rfl | rfl | rfl <;> rfl))
    simpa only [Nat.add_sub_cancel_left, List.take_left] using this
  have l5 := leads_lit c!"(" (0 + 3 + ws.length + (n0 :: n').length + ws2.length) rest ((4, p4) :: (3, n0 :: n') :: [(2, ws), (1, [])])
  obtain ⟨m, h1, h2⟩ := reMatch_of_leads (p := rePython) ⟨_, leads_seq (leads_bos rfl) (leads_seq l0 (leads_seq l1 (leads_seq l2 (leads_seq l3
    (leads_seq l4 (leads_seq l5 lt)))))), rfl⟩
  refine ⟨m, h1, ?_⟩
  rw [h2, tc]; rfl

end Oelint

import Verif.Lemmas.Tasks
import Verif.Spec.Forms
/-! The patterns of the other single statements. -/
set_option linter.unusedSectionVars false
set_option linter.unusedSimpArgs false
namespace Oelint
variable [Uni]
open Spec

/-! ## flags -/

/-- the test for the characters of flags in the pattern -/
def flagTest (c : Char) : Bool :=
  isWord c || (c == '-' || (c == '.' || (c == '/' || (c == '@' || c == '_'))))

theorem charRe_flag : CharRe (.alt (.cls false [.word]) (.alt (.lit c!"-") (.alt (.lit c!".") (.alt (.lit c!"/") (.alt (.lit c!"@") (.lit c!"_"))))))
    flagTest :=
  (charRe_alt (charRe_cls _ _) (charRe_alt (charRe_lit '-') (charRe_alt (charRe_lit '.') (charRe_alt (charRe_lit '/') (charRe_alt (charRe_lit '@')
    (charRe_lit '_')))))).congr (fun x => by simp [flagTest, CItem.test])

theorem flagChar_test {c : Char} (h : FlagChar c) : flagTest c = true := by
  have key : TaskChar c ∨ c ∈ c!"./@" := by
    rcases h with h | h | h | h
    · exact Or.inl (Or.inl h)
    · exact Or.inl (Or.inr (Or.inl h))
    · exact Or.inl (Or.inr (Or.inr (Or.inl h)))
    · simp only [List.mem_cons, List.not_mem_nil, or_false] at h
      rcases h with rfl | rfl | rfl | rfl | rfl
      · exact Or.inl (by decide)
      · exact Or.inl (by decide)
      all_goals exact Or.inr (by decide)
  rcases key with h | h
  · rcases taskChar_word h with h | rfl
    · simp [flagTest, h]
    · simp [flagTest]
  · simp only [List.mem_cons, List.not_mem_nil, or_false] at h
    rcases h with rfl | rfl | rfl <;> simp [flagTest]

theorem not_func_flag {u v : Str} (h : '(' ∉ u) : reMatch reFunc.re (u ++ '[' :: v) = none := by
  refine Gated.none (e := '(') (gated_seq rfl (gated_seq rfl (gated_seq ?_ (gated_seq rfl (gated_lit rfl (by decide)))))) h
  simp [Re.eats, CItem.test, isWord]

/-- the expression for blanks at the start of a line -/
theorem leads_no_blanks {g : Nat} {c : Char} {u : Str} (pos : Nat) (caps : List (Nat × Str)) (h : reSpace c = false) :
    Leads (.grp g (.alt (.star true (.cls false [.space])) (.star true (.lit c!"\t")))) ⟨pos, c :: u, caps⟩ ⟨pos, c :: u, (g, []) :: caps⟩ := by
  have := leads_grp (n := g) (leads_left (b := .star true (.lit c!"\t")) (leads_star_cls (neg := false) (is := [.space]) pos [] (c :: u) caps
    (by simp) (by simp [CItem.test, h])))
  simpa using this

theorem reFlagass_match {n f ws1 pre post ws2 val : Str} (hn : AssignName n) (hf : f ≠ [] ∧ ∀ c ∈ f, FlagChar c)
    (h : IsOp ws1 pre post ws2 val) (hnl : '\n' ∉ val) :
    ∃ m, reMatch reFlagass.re (n ++ ('[' :: (f ++ (']' :: (ws1 ++ (pre ++ '=' :: (post ++ (ws2 ++ val)))))))) = some m ∧
      reFlagass.group m c!"name" = some n ∧ reFlagass.group m c!"ident" = some f ∧
      reFlagass.group m c!"varop" = some (ws1 ++ (pre ++ '=' :: (post ++ ws2))) ∧
      reFlagass.group m c!"varval" = some val := by
  obtain ⟨c0, n', e⟩ : ∃ c t, n = c :: t := List.exists_cons_of_ne_nil hn.ne
  obtain ⟨f0, f', ef⟩ : ∃ c t, f = c :: t := List.exists_cons_of_ne_nil hf.1
  have hshape : reFlagass.re = .seq .bos (.seq (.grp 1 (.alt (.star true (.cls false [.space])) (.star true (.lit c!"\t"))))
    (.seq (.grp 2 (.seq (.grp 3 (.alt (.cls false [.range 'A' 'Z', .range '0' '9', .range 'a' 'z', .one '_', .one '.', .one '-'])
    (.alt (.lit c!"$") (.alt (.lit c!"{") (.alt (.lit c!"}") (.lit c!":"))))))
    (.star false (.grp 3 (.alt (.cls false [.range 'A' 'Z', .range '0' '9', .range 'a' 'z', .one '_', .one '.', .one '-'])
    (.alt (.lit c!"$") (.alt (.lit c!"{") (.alt (.lit c!"}") (.lit c!":")))))))))
    (.seq (.lit c!"[") (.seq (.grp 4 (.seq (.grp 5 (.alt (.cls false [.word]) (.alt (.lit c!"-") (.alt (.lit c!".") (.alt (.lit c!"/") (.alt (.lit c!"@") (.lit c!"_")))))))
      (.star true (.grp 5 (.alt (.cls false [.word]) (.alt (.lit c!"-") (.alt (.lit c!".") (.alt (.lit c!"/") (.alt (.lit c!"@") (.lit c!"_"))))))))))
    (.seq (.lit c!"]") (.seq (.grp 6 (opRe 7 8 9 10)) (.grp 11 (.star true .any)))))))) := rfl
  generalize hT : ws1 ++ (pre ++ '=' :: (post ++ (ws2 ++ val))) = T
  generalize hL : n ++ ('[' :: (f ++ (']' :: T))) = L
  generalize hk : (fun t => some (mkMt ⟨0, L, []⟩ t)) = kf
  have hkf : ∀ t, kf t = some (mkMt ⟨0, L, []⟩ t) := fun t => by rw [← hk]
  have k11 : ∀ pos caps, run (.grp 11 (.star true .any)) kf ⟨pos, val, caps⟩ =
      kf (⟨pos + val.length, [], (11, val) :: caps⟩) := by
    intro pos caps
    rw [run_grp]
    have := run_star_greedy_all charRe_any (fun t => kf ⟨t.pos, t.rest, (11, val.take (t.pos - pos)) :: t.caps⟩) pos val [] caps
      (by intro c hc; simp; rintro rfl; exact hnl hc) (by simp) (by rw [hkf]; rfl)
    simp only [List.append_nil] at this
    rw [this]; simp
  have k6 : ∀ pos caps, run (.seq (.grp 6 (opRe 7 8 9 10)) (.grp 11 (.star true .any))) kf ⟨pos, T, caps⟩ =
      kf (⟨pos + (ws1 ++ (pre ++ '=' :: (post ++ ws2))).length + val.length, [],
        (11, val) :: (6, ws1 ++ (pre ++ '=' :: (post ++ ws2))) :: pushes 10 ws2 (pushes 9 post (pushes 8 pre (pushes 7 ws1 caps)))⟩) := by
    intro pos caps
    rw [run_seq, run_grp, ← hT, run_op h]
    · simp only [k11]
      congr 4
      rw [show ws1 ++ (pre ++ '=' :: (post ++ (ws2 ++ val))) = (ws1 ++ (pre ++ '=' :: (post ++ ws2))) ++ val by simp]
      rw [Nat.add_sub_cancel_left, List.take_left]
    · intro pos caps; simp only [k11, hkf]; rfl
  have k5 : ∀ pos caps, run (.seq (.lit c!"]") (.seq (.grp 6 (opRe 7 8 9 10)) (.grp 11 (.star true .any)))) kf ⟨pos, ']' :: T, caps⟩ =
      kf (⟨pos + 1 + (ws1 ++ (pre ++ '=' :: (post ++ ws2))).length + val.length, [],
        (11, val) :: (6, ws1 ++ (pre ++ '=' :: (post ++ ws2))) :: pushes 10 ws2 (pushes 9 post (pushes 8 pre (pushes 7 ws1 caps)))⟩) := by
    intro pos caps
    have := run_lit_append c!"]" (run (.seq (.grp 6 (opRe 7 8 9 10)) (.grp 11 (.star true .any))) kf) pos T caps
    simp only [List.cons_append, List.nil_append] at this
    rw [run_seq, this, k6]; rfl
  have hfc : ∀ c ∈ f, flagTest c = true := fun c hc => flagChar_test (hf.2 c hc)
  have hstop : flagTest ']' = false := by simp [flagTest, isWord]
  have k4 : ∀ pos caps, run (.seq (.grp 4 (.seq (.grp 5 (.alt (.cls false [.word]) (.alt (.lit c!"-") (.alt (.lit c!".") (.alt (.lit c!"/") (.alt (.lit c!"@") (.lit c!"_")))))))
      (.star true (.grp 5 (.alt (.cls false [.word]) (.alt (.lit c!"-") (.alt (.lit c!".") (.alt (.lit c!"/") (.alt (.lit c!"@") (.lit c!"_"))))))))))
      (.seq (.lit c!"]") (.seq (.grp 6 (opRe 7 8 9 10)) (.grp 11 (.star true .any))))) kf ⟨pos, f ++ (']' :: T), caps⟩ =
      kf (⟨pos + f.length + 1 + (ws1 ++ (pre ++ '=' :: (post ++ ws2))).length + val.length, [],
        (11, val) :: (6, ws1 ++ (pre ++ '=' :: (post ++ ws2))) :: pushes 10 ws2 (pushes 9 post (pushes 8 pre (pushes 7 ws1
          ((4, f) :: pushes 5 f caps))))⟩) := by
    intro pos caps
    rw [run_seq, run_grp, run_seq, ef, List.cons_append, run_grp_char charRe_flag]
    simp only [hfc f0 (by rw [ef]; simp), if_true]
    rw [run_star_grp_greedy charRe_flag _ _ _ _ _ (fun c hc => hfc c (by rw [ef]; simp [hc]))]
    · simp only [k5]
      congr 2
      · simp; omega
      · congr 7
        · rw [show pos + 1 + f'.length - pos = f'.length + 1 by omega]
          simp
        · rw [pushes_cons]
    · rintro c u ⟨⟩; exact hstop
    · simp only [k5, hkf]; rfl
  have k3 : ∀ pos caps, run (.seq (.lit c!"[") (.seq (.grp 4 (.seq (.grp 5 (.alt (.cls false [.word]) (.alt (.lit c!"-") (.alt (.lit c!".") (.alt (.lit c!"/") (.alt (.lit c!"@") (.lit c!"_")))))))
      (.star true (.grp 5 (.alt (.cls false [.word]) (.alt (.lit c!"-") (.alt (.lit c!".") (.alt (.lit c!"/") (.alt (.lit c!"@") (.lit c!"_"))))))))))
      (.seq (.lit c!"]") (.seq (.grp 6 (opRe 7 8 9 10)) (.grp 11 (.star true .any)))))) kf ⟨pos, '[' :: (f ++ (']' :: T)), caps⟩ =
      kf (⟨pos + 1 + f.length + 1 + (ws1 ++ (pre ++ '=' :: (post ++ ws2))).length + val.length, [],
        (11, val) :: (6, ws1 ++ (pre ++ '=' :: (post ++ ws2))) :: pushes 10 ws2 (pushes 9 post (pushes 8 pre (pushes 7 ws1
          ((4, f) :: pushes 5 f caps))))⟩) := by
    intro pos caps
    have := run_lit_append c!"[" (run (.seq (.grp 4 (.seq (.grp 5 (.alt (.cls false [.word]) (.alt (.lit c!"-") (.alt (.lit c!".") (.alt (.lit c!"/") (.alt (.lit c!"@") (.lit c!"_")))))))
      (.star true (.grp 5 (.alt (.cls false [.word]) (.alt (.lit c!"-") (.alt (.lit c!".") (.alt (.lit c!"/") (.alt (.lit c!"@") (.lit c!"_"))))))))))
      (.seq (.lit c!"]") (.seq (.grp 6 (opRe 7 8 9 10)) (.grp 11 (.star true .any))))) kf) pos (f ++ (']' :: T)) caps
    simp only [List.cons_append, List.nil_append] at this
    rw [run_seq, this, k4]; rfl
  have hc : ∀ c ∈ n, nameTest c = true := fun c hc => nameTest_iff.2 (hn.chars c hc)
  have h0 : reSpace c0 = false := (nameChar_not_space (hn.chars c0 (by rw [e]; simp))).1
  have main : ∃ t, run (reFlagass.re) kf ⟨0, L, []⟩ = kf t ∧
      t.caps = (11, val) :: (6, ws1 ++ (pre ++ '=' :: (post ++ ws2))) :: pushes 10 ws2 (pushes 9 post (pushes 8 pre (pushes 7 ws1
          ((4, f) :: pushes 5 f ((2, n) :: pushes 3 n [(1, [])]))))) := by
    rw [hshape, run_seq, run_bos, if_pos rfl, run_seq, ← hL]
    rw [e, List.cons_append, (leads_no_blanks (g := 1) 0 [] h0).run, run_seq, run_grp, run_seq, run_grp_char charRe_name]
    · simp only [hc c0 (by rw [e]; simp), if_true]
      rw [run_star_grp_lazy charRe_name]
      · simp only [k3]
        refine ⟨_, rfl, ?_⟩
        simp [Nat.add_comm 1, pushes_cons]
      · intro c hc'; exact hc c (by rw [e]; simp [hc'])
      · intro w1 w2 pos caps he hne
        obtain ⟨x, w2', rfl⟩ := List.exists_cons_of_ne_nil hne
        rw [List.cons_append, run_seq, run_lit]
        have hx : x ≠ '[' := (nameChar_ne_paren (hn.chars x (by rw [e, he]; simp))).2
        rw [if_neg]
        simpa using fun h => hx h.symm
      · simp only [k3, hkf]; rfl
    · rw [run_seq, run_grp, run_seq, run_grp_char charRe_name]
      simp only [hc c0 (by rw [e]; simp), if_true]
      rw [run_star_grp_lazy charRe_name]
      · simp only [k3, hkf]; rfl
      · intro c hc'; exact hc c (by rw [e]; simp [hc'])
      · intro w1 w2 pos caps he hne
        obtain ⟨x, w2', rfl⟩ := List.exists_cons_of_ne_nil hne
        rw [List.cons_append, run_seq, run_lit]
        have hx : x ≠ '[' := (nameChar_ne_paren (hn.chars x (by rw [e, he]; simp))).2
        rw [if_neg]
        simpa using fun h => hx h.symm
      · simp only [k3, hkf]; rfl
  obtain ⟨t, ht, hcaps⟩ := main
  rw [reMatch_eq_run, hk, ht, hkf]
  refine ⟨_, rfl, ?_, ?_, ?_, ?_⟩
  · show Mt.group _ 2 = _
    simp only [Mt.group, mkMt, hcaps, List.find?_cons]
    simp only [show ((11 : Nat) == 2) = false from rfl, show ((6 : Nat) == 2) = false from rfl]
    rw [find_pushes (by decide), find_pushes (by decide), find_pushes (by decide), find_pushes (by decide)]
    simp only [List.find?_cons, show ((4 : Nat) == 2) = false from rfl]
    rw [find_pushes (by decide)]
    simp
  · show Mt.group _ 4 = _
    simp only [Mt.group, mkMt, hcaps, List.find?_cons]
    simp only [show ((11 : Nat) == 4) = false from rfl, show ((6 : Nat) == 4) = false from rfl]
    rw [find_pushes (by decide), find_pushes (by decide), find_pushes (by decide), find_pushes (by decide)]
    simp
  · show Mt.group _ 6 = _
    simp [Mt.group, mkMt, hcaps]
  · show Mt.group _ 11 = _
    simp [Mt.group, mkMt, hcaps]

theorem flagLine_isOp {line n f ws1 op ws2 val : Str} (h : FlagLine line n f ws1 op ws2 val) :
    ∃ pre post, op = pre ++ '=' :: post ∧ IsOp ws1 pre post ws2 val :=
  assigns_isOp ⟨rfl, h.name, h.op, h.blanks1, h.blanks2, h.val⟩

theorem classify_flag (W : World) (add : AddFn) (file : Str) (lineno : Int) (p : Params) (s : Stash)
    {line n f ws1 op ws2 val : Str} (h : FlagLine line n f ws1 op ws2 val) :
    classify W add file lineno p line parseOrder s =
      (.ok (mkItem s.nextUid p (.flagAssignment n f val (ws1 ++ (op ++ ws2))), 0), { s with nextUid := s.nextUid + 1 }) := by
  obtain ⟨pre, post, rfl, hop⟩ := flagLine_isOp h
  have hline := h.eq
  have hname := h.name
  have htail : ∀ c ∈ ('[' :: (f ++ (']' :: (ws1 ++ ((pre ++ '=' :: post) ++ (ws2 ++ val)))))).head?, ¬ KwChar c := by
    intro c hc; simp at hc; subst hc; unfold KwChar; decide
  have hno : '(' ∉ n := fun hc => (nameChar_ne_paren (hname.chars _ hc)).1 rfl
  obtain ⟨m, hm, g1, g2, g3, g4⟩ := reFlagass_match hname h.flag hop h.val.1
  have hmatch : reMatch reFlagass.re line = some m := by rw [hline, ← hm]; simp
  have hskip := classify_skip (W := W) (file := file) (add := add) (line := lineno) (p := p) (cnt := line)
    (parseOrder.take 12) (parseOrder.drop 12) (by
      intro kp hkp
      simp only [parseOrder, List.take, List.mem_cons, List.not_mem_nil, or_false] at hkp
      rcases hkp with rfl | rfl | rfl | rfl | rfl | rfl | rfl | rfl | rfl | rfl | rfl | rfl
      · rw [hline]; exact not_comments hname htail
      · rw [hline]; exact not_func_flag hno
      · rw [hline]; exact not_inherit hname htail
      · rw [hline]; exact not_inheritGlob hname htail
      · rw [hline]; exact not_exportWval hname htail
      · rw [hline]; exact not_exportWoval hname htail
      · rw [hline]; exact not_python hname htail
      · rw [hline]; exact not_include hname htail
      · rw [hline]; exact not_includeall hname htail
      · rw [hline]; exact not_addtask hname htail
      · rw [hline]; exact not_deltask hname htail
      · rw [hline]; exact not_unset hname htail)
  rw [List.take_append_drop] at hskip
  rw [hskip]
  simp only [parseOrder, List.drop, classify, hmatch, handleKind, g1, g2, g3, g4, M.bind_def, freshUid, M.pure_def, Option.getD_some]
  simp [List.append_assoc]

/-! ## statements that start with a keyword and blanks -/

/-- `\s+|\t+` -/
def blanksRe (g : Nat) : Re :=
  .grp g (.alt (.seq (.cls false [.space]) (.star true (.cls false [.space]))) (.seq (.lit c!"\t") (.star true (.lit c!"\t"))))

theorem leads_blanks {g : Nat} {ws rest : Str} (pos : Nat) (caps : List (Nat × Str)) (hne : ws ≠ []) (h : ∀ c ∈ ws, reSpace c = true)
    (hr : ∀ c ∈ rest.head?, reSpace c = false) :
    Leads (blanksRe g) ⟨pos, ws ++ rest, caps⟩ ⟨pos + ws.length, rest, (g, ws) :: caps⟩ := by
  have := leads_grp (n := g) (leads_left (b := .seq (.lit c!"\t") (.star true (.lit c!"\t")))
    (leads_plus_cls (neg := false) (is := [.space]) pos ws rest caps hne (by intro c hc; simp [CItem.test, h c hc])
      (by intro c hc; simp [CItem.test, hr c hc])))
  simpa [blanksRe] using this

theorem leads_blanks' {ws rest : Str} (pos : Nat) (caps : List (Nat × Str)) (hne : ws ≠ []) (h : ∀ c ∈ ws, reSpace c = true)
    (hr : ∀ c ∈ rest.head?, reSpace c = false) :
    Leads (.seq (.cls false [.space]) (.star true (.cls false [.space]))) ⟨pos, ws ++ rest, caps⟩ ⟨pos + ws.length, rest, caps⟩ :=
  leads_plus_cls (neg := false) (is := [.space]) pos ws rest caps hne (by intro c hc; simp [CItem.test, h c hc])
      (by intro c hc; simp [CItem.test, hr c hc])

/-- `.+` to the end -/
theorem leads_line {g : Nat} {w : Str} (pos : Nat) (caps : List (Nat × Str)) (hne : w ≠ []) (hn : '\n' ∉ w) :
    Leads (.grp g (.seq .any (.star true .any))) ⟨pos, w, caps⟩ ⟨pos + w.length, [], (g, w) :: caps⟩ := by
  obtain ⟨c, u, rfl⟩ := List.exists_cons_of_ne_nil hne
  have h1 := leads_star_any (pos + 1) u [] caps (fun h => hn (by simp [h])) (by simp)
  rw [List.append_nil] at h1
  have := leads_grp (n := g) (leads_seq (leads_any pos u caps (c := c) (by rintro rfl; exact hn (by simp))) h1)
  simp only [] at this
  rw [show pos + 1 + u.length - pos = (c :: u).length by simp; omega, List.take_length] at this
  rw [show pos + (c :: u).length = pos + 1 + u.length by simp; omega]
  exact this

/-- `.*` to the end -/
theorem leads_line' {g : Nat} {w : Str} (pos : Nat) (caps : List (Nat × Str)) (hn : '\n' ∉ w) :
    Leads (.grp g (.star true .any)) ⟨pos, w, caps⟩ ⟨pos + w.length, [], (g, w) :: caps⟩ := by
  have h1 := leads_star_any pos w [] caps hn (by simp)
  rw [List.append_nil] at h1
  have := leads_grp (n := g) h1
  simpa using this

/-- a greedy loop ends where the rest matches for the last time -/
theorem run_star_greedy_last {α : Type} {r : Re} {p : Char → Bool} (h : CharRe r p) (k : St → Option α) (pos : Nat) (w rest : Str)
    (caps : List (Nat × Str)) (hw : ∀ c ∈ w, p c = true)
    (hlate : ∀ u v pos, rest = u ++ v → u ≠ [] → k ⟨pos, v, caps⟩ = none) (hk : (k ⟨pos + w.length, rest, caps⟩).isSome) :
    run (.star true r) k ⟨pos, w ++ rest, caps⟩ = k ⟨pos + w.length, rest, caps⟩ := by
  have hnone : ∀ (v u : Str) (pos : Nat), rest = u ++ v → u ≠ [] → run (.star true r) k ⟨pos, v, caps⟩ = none := by
    intro v
    induction v with
    | nil => intro u pos e hu; rw [run_star_char_nil h]; exact hlate u [] pos e hu
    | cons c v ih =>
      intro u pos e hu
      rw [run_star_char_cons h, hlate u (c :: v) pos e hu, ih (u ++ [c]) (pos + 1) (by rw [e]; simp) (by simp)]
      simp
  induction w generalizing pos with
  | nil =>
    cases hr : rest with
    | nil => rw [List.append_nil, run_star_char_nil h]; simp
    | cons c v =>
      rw [List.nil_append, run_star_char_cons h, hnone v [c] (pos + 1) hr (by simp)]
      simp
  | cons c w ih =>
    have e : pos + (c :: w).length = pos + 1 + w.length := by simp; omega
    rw [e] at hk ⊢
    rw [List.cons_append, run_star_char_cons h, hw c (by simp), if_pos rfl, ih _ (fun x hx => hw x (List.mem_cons_of_mem _ hx)) hk]
    obtain ⟨a, ha⟩ := Option.isSome_iff_exists.1 hk
    rw [ha]; rfl

theorem gap_space {ws : Str} (h : Gap ws) : ∀ d ∈ ws, reSpace d = true := by
  intro d hd
  rcases h.2 d hd with rfl | rfl <;> decide

/-- a keyword and something that is no parenthesis is not the start of a function -/
theorem not_func_kw {c x : Char} {w ws rest : Str} (hp : c ≠ 'p' ∧ c ≠ 'f') (hw : ∀ d ∈ c :: w, reSpace d = false ∧ d ≠ '(')
    (hws : Gap ws) (hx : reSpace x = false ∧ x ≠ '(') :
    reMatch reFunc.re ((c :: w) ++ (ws ++ x :: rest)) = none := by
  rw [reMatch_none_iff]
  intro t ht
  simp only [reFunc, mem_ms_seq, mem_ms_bos] at ht
  obtain ⟨s1, ⟨-, rfl⟩, s2, h2, s3, h3, s4, h4, s5, h5, -⟩ := ht
  -- no `python` and no `fakeroot`
  have e2 : s2.rest = (c :: w) ++ (ws ++ x :: rest) := by
    by_cases hpos : 0 < s2.pos
    · obtain ⟨d, u, e, hf⟩ := ms_first _ _ _ h2 hpos
      simp at e
      rw [← e.1] at hf
      simp [Re.first, Re.nullable, hp.1, hp.2, Ne.symm hp.1, Ne.symm hp.2] at hf
    · obtain ⟨n, -, a, b⟩ := ms_adv _ _ _ h2
      have : n = 0 := by simp at a; omega
      rw [b, this]; rfl
  obtain ⟨u, hu, -, hua⟩ := ms_eats _ _ _ h3
  obtain ⟨b, hb, -, hba⟩ := ms_eats _ _ _ h4
  rw [mem_ms_lit] at h5
  obtain ⟨⟨q, hq⟩, -⟩ := h5
  have e : (c :: w) ++ (ws ++ x :: rest) = u ++ (b ++ '(' :: q) := by
    rw [← e2, hu, hb, ← hq]; rfl
  have hu' : ∀ d ∈ u, d ≠ ' ' ∧ d ≠ '\t' := by
    intro d hd
    have := hua d hd
    constructor <;> (rintro rfl; simp [Re.eats, CItem.test, isWord] at this)
  have hb' : ∀ d ∈ b, reSpace d = true := by
    intro d hd
    have := hba d hd
    simpa [Re.eats, CItem.test] using this
  obtain ⟨g, gs, rfl⟩ := List.exists_cons_of_ne_nil hws.1
  have hg := hws.2 g (by simp)
  have hgs : reSpace g = true := gap_space hws g (by simp)
  have hgu : g ∉ u := by
    intro h
    have := hu' g h
    rcases hg with rfl | rfl <;> simp at this
  -- the name ends within the keyword
  rcases List.append_eq_append_iff.1 e with ⟨y, h6, h7⟩ | ⟨y, h6, h7⟩
  · cases y with
    | nil =>
      simp at h7
      cases b with
      | nil => simp at h7; exact absurd h7.1 (by rintro rfl; exact absurd hgs (by decide))
      | cons b0 b =>
        have hrest : gs ++ x :: rest = b ++ '(' :: q := by simp at h7; exact h7.2
        rcases List.append_eq_append_iff.1 hrest with ⟨z, h8, h9⟩ | ⟨z, h8, h9⟩
        · cases z with
          | nil => simp at h9; exact hx.2 h9.1
          | cons z0 z =>
            simp at h9
            have := hb' z0 (by simp [h8])
            rw [← h9.1, hx.1] at this; cases this
        · cases z with
          | nil => simp at h9; exact hx.2 h9.1.symm
          | cons z0 z =>
            simp at h9
            have := gap_space hws z0 (by simp [h8])
            rw [← h9.1] at this; revert this; decide
    | cons y0 y =>
      simp at h7
      exact hgu (by rw [h6, h7.1]; simp)
  · cases y with
    | nil =>
      simp at h7
      cases b with
      | nil => simp at h7; exact absurd h7.1 (by rintro rfl; exact absurd hgs (by decide))
      | cons b0 b =>
        have hrest : gs ++ x :: rest = b ++ '(' :: q := by simp at h7; exact h7.2.symm
        rcases List.append_eq_append_iff.1 hrest with ⟨z, h8, h9⟩ | ⟨z, h8, h9⟩
        · cases z with
          | nil => simp at h9; exact hx.2 h9.1
          | cons z0 z =>
            simp at h9
            have := hb' z0 (by simp [h8])
            rw [← h9.1, hx.1] at this; cases this
        · cases z with
          | nil => simp at h9; exact hx.2 h9.1.symm
          | cons z0 z =>
            simp at h9
            have := gap_space hws z0 (by simp [h8])
            rw [← h9.1] at this; revert this; decide
    | cons y0 y =>
      have hy0 : y0 ∈ c :: w := by rw [h6]; simp
      cases b with
      | nil => simp at h7; exact (hw y0 hy0).2 h7.1.symm
      | cons b0 b =>
        simp at h7
        have := hb' b0 (by simp)
        rw [h7.1, (hw y0 hy0).1] at this; cases this

/-! ## inherit -/

/-- no blanks at the start of a line, with a group in the loop -/
theorem leads_no_blanks_loop {g : Nat} {c : Char} {u : Str} (pos : Nat) (caps : List (Nat × Str)) (h : reSpace c = false) (ht : c ≠ '\t') :
    Leads (.star true (.grp g (.alt (.cls false [.space]) (.lit c!"\t")))) ⟨pos, c :: u, caps⟩ ⟨pos, c :: u, caps⟩ := by
  refine leads_stop ?_
  intro x hx
  exact absurd hx (not_mem_first rfl (by simp [Re.first, Re.nullable, CItem.test, h, Ne.symm ht, ht]) x)

theorem leads_defer {u : Str} (pos : Nat) (caps : List (Nat × Str)) (g : Nat) (hu : u.head? ≠ some '_') :
    Leads (.star true (.grp g (.lit c!"_defer"))) ⟨pos, u, caps⟩ ⟨pos, u, caps⟩ := by
  refine leads_stop ?_
  intro x hx
  refine absurd hx (not_mem_first rfl ?_ x)
  intro c hc
  have : c ≠ '_' := by rintro rfl; exact hu hc
  simp [Re.first, Re.nullable, this, Ne.symm this]

theorem leads_lit' {p u : Str} (q : Str) (pos : Nat) (caps : List (Nat × Str)) (h : q = p ++ u) :
    Leads (.lit p) ⟨pos, q, caps⟩ ⟨pos + p.length, u, caps⟩ := by
  subst h; exact leads_lit p pos u caps

theorem gap_head {ws u : Str} (h : Gap ws) : ∀ c ∈ (ws ++ u).head?, c = ' ' ∨ c = '\t' := by
  intro c hc
  obtain ⟨g, gs, rfl⟩ := List.exists_cons_of_ne_nil h.1
  simp at hc; subst hc
  exact h.2 _ (by simp)

theorem reInherit_match {stmt ws names : Str} (hs : stmt = c!"inherit" ∨ stmt = c!"inherit_defer") (hws : Gap ws)
    (hn : names ≠ []) (hh : ∀ c ∈ names.head?, reSpace c = false) (hnl : '\n' ∉ names) :
    ∃ m, reMatch reInherit.re (stmt ++ (ws ++ names)) = some m ∧ reInherit.group m c!"statement" = some stmt ∧
      reInherit.group m c!"inhname" = some names := by
  have hhead : (ws ++ names).head? ≠ some '_' := by
    intro h
    rcases gap_head (u := names) hws '_' h with h | h <;> cases h
  have hstmt : Leads (.grp 2 (.seq (.lit c!"inherit") (.star true (.grp 3 (.lit c!"_defer"))))) ⟨0, stmt ++ (ws ++ names), []⟩
      ⟨stmt.length, ws ++ names, (2, stmt) :: (if stmt = c!"inherit" then [] else [(3, c!"_defer")])⟩ := by
    rcases hs with rfl | rfl
    · have := leads_grp (n := 2) (leads_seq (leads_lit c!"inherit" 0 (ws ++ names) []) (leads_defer _ _ 3 hhead))
      simpa using this
    · have h1 : Leads (.star true (.grp 3 (.lit c!"_defer"))) ⟨7, c!"_defer" ++ (ws ++ names), []⟩ ⟨13, ws ++ names, [(3, c!"_defer")]⟩ := by
        have := leads_grp (n := 3) (leads_lit c!"_defer" 7 (ws ++ names) [])
        refine leads_star this (by simp) ?_
        have := leads_defer (u := ws ++ names) 13 [(3, c!"_defer")] 3 hhead
        simpa using this
      have := leads_grp (n := 2) (leads_seq (leads_lit' (p := c!"inherit") (c!"inherit_defer" ++ (ws ++ names)) 0 [] rfl) h1)
      simpa using this
  obtain ⟨c, u, hu, hc⟩ : ∃ c u, stmt = c :: u ∧ reSpace c = false := by
    rcases hs with rfl | rfl <;> exact ⟨_, _, rfl, by decide⟩
  have h0 : Leads (.star true (.grp 1 (.alt (.cls false [.space]) (.lit c!"\t")))) ⟨0, stmt ++ (ws ++ names), []⟩ ⟨0, stmt ++ (ws ++ names), []⟩ := by
    rw [hu]
    exact leads_no_blanks_loop 0 [] hc (by rintro rfl; revert hc; decide)
  have := leads_seq (leads_bos rfl) (leads_seq h0 (leads_seq hstmt (leads_seq (leads_blanks (g := 4) _ _ hws.1 (gap_space hws) hh) (leads_line (g := 5) _ _ hn hnl))))
  obtain ⟨m, h1, h2⟩ := reMatch_of_leads (p := reInherit) ⟨_, this, rfl⟩
  refine ⟨m, h1, ?_, ?_⟩
  · rw [h2]; rfl
  · rw [h2]; rfl

/-! ## include and require -/

theorem incChar_test {c : Char} : (([.range 'A' 'z', .range 'a' 'z', .range '0' '9', .one '-', .one '.', .one '/', .one '$', .one '{', .one '}'] :
    List CItem).any (·.test c)) = true ↔ IncChar c := by
  have e : ∀ a b : Char, (a ≤ b) = (a.toNat ≤ b.toNat) := fun a b => by
    simp [Char.le_def, UInt32.le_iff_toNat_le]
  simp only [IncChar, CItem.test, e, List.any_cons, List.any_nil, Bool.or_false, Bool.or_eq_true, Bool.and_eq_true, decide_eq_true_eq, beq_iff_eq,
    List.mem_cons, List.not_mem_nil, or_false]
  have a1 : 'A'.toNat = 65 := rfl
  have a2 : 'z'.toNat = 122 := rfl
  have a3 : 'a'.toNat = 97 := rfl
  have a4 : '0'.toNat = 48 := rfl
  have a5 : '9'.toNat = 57 := rfl
  constructor
  · rintro (h | h | h | h)
    · exact Or.inl h
    · exact Or.inl ⟨by omega, h.2⟩
    · exact Or.inr (Or.inl h)
    · exact Or.inr (Or.inr h)
  · rintro (h | h | h)
    · exact Or.inl h
    · exact Or.inr (Or.inr (Or.inl h))
    · exact Or.inr (Or.inr (Or.inr h))

theorem reInclude_match {stmt ws name tail : Str} (hs : stmt = c!"include" ∨ stmt = c!"require") (hws : Gap ws)
    (hn : name ≠ []) (hc : ∀ c ∈ name, IncChar c) (ht : ∀ c ∈ tail.head?, ¬ IncChar c) :
    ∃ m, reMatch reInclude.re (stmt ++ (ws ++ (name ++ tail))) = some m ∧ reInclude.group m c!"statement" = some stmt ∧
      reInclude.group m c!"incname" = some name := by
  have hstmt : ∀ caps, Leads (.grp 2 (.alt (.lit c!"include") (.lit c!"require"))) ⟨0, stmt ++ (ws ++ (name ++ tail)), caps⟩
      ⟨stmt.length, ws ++ (name ++ tail), (2, stmt) :: caps⟩ := by
    intro caps
    rcases hs with rfl | rfl
    · have := leads_grp (n := 2) (leads_left (b := .lit c!"require") (leads_lit c!"include" 0 (ws ++ (name ++ tail)) caps))
      simpa using this
    · have := leads_grp (n := 2) (leads_right (a := .lit c!"include") (not_mem_first rfl (by simp [Re.first, Re.nullable]))
        (leads_lit c!"require" 0 (ws ++ (name ++ tail)) caps))
      simpa using this
  obtain ⟨c, u, hu, hcs⟩ : ∃ c u, stmt = c :: u ∧ reSpace c = false := by
    rcases hs with rfl | rfl <;> exact ⟨_, _, rfl, by decide⟩
  have h0 : Leads (.grp 1 (.alt (.star true (.cls false [.space])) (.star true (.lit c!"\t")))) ⟨0, stmt ++ (ws ++ (name ++ tail)), []⟩
      ⟨0, stmt ++ (ws ++ (name ++ tail)), [(1, [])]⟩ := by
    rw [hu]
    exact leads_no_blanks 0 [] hcs
  have hhead : ∀ c ∈ (name ++ tail).head?, reSpace c = false := by
    intro d hd
    obtain ⟨x, y, rfl⟩ := List.exists_cons_of_ne_nil hn
    simp at hd; subst hd
    have := hc x (by simp)
    cases hsp : reSpace x with
    | false => rfl
    | true =>
      exfalso
      have e : ∀ a b : Char, (a ≤ b) = (a.toNat ≤ b.toNat) := fun a b => by simp [Char.le_def, UInt32.le_iff_toNat_le]
      simp only [IncChar, e, List.mem_cons, List.not_mem_nil, or_false] at this
      have a1 : 'A'.toNat = 65 := rfl
      have a2 : 'z'.toNat = 122 := rfl
      have a4 : '0'.toNat = 48 := rfl
      have a5 : '9'.toNat = 57 := rfl
      rcases this with h | h | h | h | h | h | h | h
      · simp [reSpace] at hsp; omega
      · simp [reSpace] at hsp; omega
      all_goals (subst h; revert hsp; decide)
  have hname := leads_grp (n := 4) (leads_plus_cls (neg := false) (is := [.range 'A' 'z', .range 'a' 'z', .range '0' '9', .one '-', .one '.', .one '/', .one '$', .one '{', .one '}'])
    (stmt.length + ws.length) name tail ((3, ws) :: (2, stmt) :: [(1, [])]) hn
    (by intro d hd; rw [incChar_test.2 (hc d hd)]; decide)
    (by intro d hd; rw [← Bool.not_eq_true, incChar_test]; exact ht d hd))
  have := leads_seq (leads_bos rfl) (leads_seq h0 (leads_seq (hstmt _) (leads_seq (leads_blanks (g := 3) _ _ hws.1 (gap_space hws) hhead) hname)))
  obtain ⟨m, h1, h2⟩ := reMatch_of_leads (p := reInclude) ⟨_, this, rfl⟩
  refine ⟨m, h1, ?_, ?_⟩
  · rw [h2]; rfl
  · rw [h2]
    show some (List.take _ (name ++ tail)) = _
    rw [show stmt.length + ws.length + name.length - (stmt.length + ws.length) = name.length by omega, List.take_left]

/-! ## EXPORT_FUNCTIONS, include_all -/

theorem reExportFunc_match {ws names : Str} (hws : Gap ws) (hh : ∀ c ∈ names.head?, reSpace c = false) (hnl : '\n' ∉ names) :
    ∃ m, reMatch reExportFunc.re (c!"EXPORT_FUNCTIONS" ++ (ws ++ names)) = some m ∧ reExportFunc.group m c!"func" = some names := by
  have := leads_seq (leads_bos (s := ⟨0, c!"EXPORT_FUNCTIONS" ++ (ws ++ names), []⟩) rfl) (leads_seq (leads_lit c!"EXPORT_FUNCTIONS" 0 (ws ++ names) [])
    (leads_seq (leads_blanks' _ _ hws.1 (gap_space hws) hh) (leads_line' (g := 1) _ _ hnl)))
  obtain ⟨m, h1, h2⟩ := reMatch_of_leads (p := reExportFunc) ⟨_, this, rfl⟩
  exact ⟨m, h1, by rw [h2]; rfl⟩

theorem reIncludeall_match {ws f : Str} (hws : Gap ws) (hn : f ≠ []) (hh : ∀ c ∈ f.head?, reSpace c = false) (hnl : '\n' ∉ f) :
    ∃ m, reMatch reIncludeall.re (c!"include_all" ++ (ws ++ f)) = some m ∧ reIncludeall.group m c!"file" = some f := by
  have := leads_seq (leads_lit c!"include_all" 0 (ws ++ f) [])
    (leads_seq (leads_blanks' _ _ hws.1 (gap_space hws) hh) (leads_line (g := 1) _ _ hn hnl))
  obtain ⟨m, h1, h2⟩ := reMatch_of_leads (p := reIncludeall) ⟨_, this, rfl⟩
  exact ⟨m, h1, by rw [h2]; rfl⟩

/-! ## addpylib, addfragments -/

theorem mem_ms_plus_first {s t : St} (h : t ∈ ms (.seq (.cls false [.space]) (.star true (.cls false [.space]))) s) :
    ∃ c u, s.rest = c :: u ∧ reSpace c = true := by
  rw [mem_ms_seq] at h
  obtain ⟨x, hx, -⟩ := h
  rw [mem_ms_cls] at hx
  obtain ⟨c, u, e, h1, -⟩ := hx
  refine ⟨c, u, e, ?_⟩
  simpa [CItem.test] using h1

theorem mem_ms_blanks_first {g : Nat} {s t : St} (h : t ∈ ms (blanksRe g) s) : ∃ c u, s.rest = c :: u ∧ reSpace c = true := by
  obtain ⟨c, u, e, hf⟩ := ms_first _ _ _ h (ms_progress _ rfl _ _ h)
  refine ⟨c, u, e, ?_⟩
  simp [blanksRe, Re.first, Re.nullable, CItem.test] at hf
  rcases hf with hf | hf
  · exact hf
  · subst hf; decide

/-- blanks of which the last is `b`, as a loop before them leaves them -/
theorem run_blank1 {α : Type} {g : Nat} {b : Char} {rest : Str} (k : St → Option α) (pos : Nat) (caps : List (Nat × Str)) (hb : reSpace b = true)
    (hr : ∀ c ∈ rest.head?, reSpace c = false) (hk : (k ⟨pos + 1, rest, (g, [b]) :: caps⟩).isSome) :
    run (blanksRe g) k ⟨pos, b :: rest, caps⟩ = k ⟨pos + 1, rest, (g, [b]) :: caps⟩ := by
  have := leads_blanks (g := g) (ws := [b]) (rest := rest) pos caps (by simp) (by simpa using hb) hr
  exact this.run hk

theorem reAddpylib_match {ws p ws2 ns : Str} (hws : Gap ws) (hp : p ≠ []) (hpn : '\n' ∉ p) (hws2 : Gap ws2)
    (hns : ∀ c ∈ ns, reSpace c = false) :
    ∃ m, reMatch reAddpylib.re (c!"addpylib" ++ (ws ++ (c!"${LAYERDIR}/" ++ (p ++ (ws2 ++ ns))))) = some m ∧
      reAddpylib.group m c!"path" = some (c!"${LAYERDIR}/" ++ (p ++ ws2.dropLast)) ∧ reAddpylib.group m c!"namespace" = some ns := by
  have hnl : '\n' ∉ ns := fun h => by have := hns _ h; revert this; decide
  obtain ⟨b, hb, e2⟩ : ∃ b, reSpace b = true ∧ ws2 = ws2.dropLast ++ [b] :=
    ⟨ws2.getLast hws2.1, gap_space hws2 _ (List.getLast_mem _), (List.dropLast_append_getLast hws2.1).symm⟩
  generalize hd : ws2.dropLast = d at e2
  have hdc : ∀ c ∈ d, c ≠ '\n' := by
    intro c hc
    have : c ∈ ws2 := by rw [e2]; simp [hc]
    rcases hws2.2 c this with rfl | rfl <;> decide
  obtain ⟨p0, p', rfl⟩ := List.exists_cons_of_ne_nil hp
  generalize hL : c!"addpylib" ++ (ws ++ (c!"${LAYERDIR}/" ++ ((p0 :: p') ++ (ws2 ++ ns)))) = L
  generalize hk : (fun t => some (mkMt ⟨0, L, []⟩ t)) = kf
  have hkf : ∀ t, kf t = some (mkMt ⟨0, L, []⟩ t) := fun t => by rw [← hk]
  have k5 : ∀ pos caps, run (.grp 5 (.star true .any)) kf ⟨pos, ns, caps⟩ = kf ⟨pos + ns.length, [], (5, ns) :: caps⟩ :=
    fun pos caps => (leads_line' (g := 5) pos caps hnl).run (by rw [hkf]; rfl)
  have k4 : ∀ pos caps, run (.seq (blanksRe 4) (.grp 5 (.star true .any))) kf ⟨pos, b :: ns, caps⟩ =
      kf ⟨pos + 1 + ns.length, [], (5, ns) :: (4, [b]) :: caps⟩ := by
    intro pos caps
    rw [run_seq, run_blank1 _ _ _ hb (fun c hc => hns c (List.mem_of_mem_head? hc)), k5]
    rw [k5, hkf]; rfl
  have k3 : ∀ pos caps, run (.seq (.grp 3 (.seq (.lit c!"${LAYERDIR}/") (.seq .any (.star true .any)))) (.seq (blanksRe 4) (.grp 5 (.star true .any)))) kf
      ⟨pos, c!"${LAYERDIR}/" ++ ((p0 :: p') ++ (ws2 ++ ns)), caps⟩ =
      kf ⟨pos + (c!"${LAYERDIR}/" ++ ((p0 :: p') ++ d)).length + 1 + ns.length, [], (5, ns) :: (4, [b]) :: (3, c!"${LAYERDIR}/" ++ ((p0 :: p') ++ d)) :: caps⟩ := by
    intro pos caps
    have e : p' ++ (ws2 ++ ns) = (p' ++ d) ++ b :: ns := by rw [e2]; simp
    rw [run_seq, run_grp, run_seq, run_lit_append, run_seq, show (p0 :: p') ++ (ws2 ++ ns) = p0 :: (p' ++ (ws2 ++ ns)) from rfl, run_any_cons,
      if_neg (by rintro rfl; exact hpn (by simp))]
    rw [e, run_star_greedy_last charRe_any]
    · simp only [k4]
      have e3 : pos + (c!"${LAYERDIR}/" : Str).length + 1 + (p' ++ d).length = pos + (c!"${LAYERDIR}/" ++ ((p0 :: p') ++ d)).length := by
        simp; omega
      rw [e3]
      congr 4
      rw [Nat.add_sub_cancel_left, show c!"${LAYERDIR}/" ++ (p0 :: (p' ++ d ++ b :: ns)) = (c!"${LAYERDIR}/" ++ ((p0 :: p') ++ d)) ++ b :: ns by simp, List.take_left]
    · intro c hc
      rcases List.mem_append.1 hc with hc | hc
      · simp; rintro rfl; exact hpn (by simp [hc])
      · simpa using hdc c hc
    · intro u v pos e hu
      obtain ⟨x, u', rfl⟩ := List.exists_cons_of_ne_nil hu
      simp at e
      rw [run_seq, run_none]
      intro t ht
      obtain ⟨c, z, h1, h2⟩ := mem_ms_blanks_first ht
      have : c ∈ ns := by rw [e.2]; simp at h1; rw [h1]; simp
      rw [hns c this] at h2; cases h2
    · simp only [k4, hkf]; rfl
  have h1 : Leads (.grp 1 (.alt (.seq (.cls false [.space]) (.star true (.cls false [.space]))) (.star true (.lit c!"\t")))) ⟨0, L, []⟩ ⟨0, L, [(1, [])]⟩ := by
    have hL' : L = 'a' :: (c!"ddpylib" ++ (ws ++ (c!"${LAYERDIR}/" ++ ((p0 :: p') ++ (ws2 ++ ns))))) := by rw [← hL]; rfl
    rw [hL']
    have := leads_grp (n := 1) (leads_right (a := .seq (.cls false [.space]) (.star true (.cls false [.space]))) (b := .star true (.lit c!"\t"))
      (s := ⟨0, 'a' :: (c!"ddpylib" ++ (ws ++ (c!"${LAYERDIR}/" ++ ((p0 :: p') ++ (ws2 ++ ns))))), []⟩)
      (not_mem_first rfl (by simp [Re.first, Re.nullable, CItem.test]; decide))
      (leads_stop (by intro u hu; exact absurd hu (not_mem_first rfl (by simp [Re.first, Re.nullable]) u))))
    simpa using this
  have hfin : run reAddpylib.re kf ⟨0, L, []⟩ = kf ⟨0 + (c!"addpylib" : Str).length + ws.length + (c!"${LAYERDIR}/" ++ ((p0 :: p') ++ d)).length + 1 + ns.length, [],
      (5, ns) :: (4, [b]) :: (3, c!"${LAYERDIR}/" ++ ((p0 :: p') ++ d)) :: (2, ws) :: [(1, [])]⟩ := by
    have hshape : reAddpylib.re = .seq .bos (.seq (.grp 1 (.alt (.seq (.cls false [.space]) (.star true (.cls false [.space]))) (.star true (.lit c!"\t"))))
      (.seq (.lit c!"addpylib") (.seq (blanksRe 2) (.seq (.grp 3 (.seq (.lit c!"${LAYERDIR}/") (.seq .any (.star true .any)))) (.seq (blanksRe 4) (.grp 5 (.star true .any))))))) := rfl
    have k0 : ∀ caps, run (.seq (.lit c!"addpylib") (.seq (blanksRe 2) (.seq (.grp 3 (.seq (.lit c!"${LAYERDIR}/") (.seq .any (.star true .any)))) (.seq (blanksRe 4) (.grp 5 (.star true .any))))))
        kf ⟨0, L, caps⟩ = kf ⟨0 + (c!"addpylib" : Str).length + ws.length + (c!"${LAYERDIR}/" ++ ((p0 :: p') ++ d)).length + 1 + ns.length, [],
      (5, ns) :: (4, [b]) :: (3, c!"${LAYERDIR}/" ++ ((p0 :: p') ++ d)) :: (2, ws) :: caps⟩ := by
      intro caps
      rw [← hL, run_seq, run_lit_append, run_seq, (leads_blanks (g := 2) _ _ hws.1 (gap_space hws) (by simp; decide)).run, k3]
      rw [k3, hkf]; rfl
    rw [hshape, run_seq, run_bos, if_pos rfl, run_seq, h1.run, k0]
    rw [k0, hkf]; rfl
  rw [reMatch_eq_run, hk, hfin, hkf]
  exact ⟨_, rfl, rfl, rfl⟩

end Oelint

import Verif.Lemmas.Forms2
import Verif.Lemmas.Order
/-! What the parser makes of the other single statements. -/
set_option linter.unusedSectionVars false
set_option linter.unusedSimpArgs false
namespace Oelint
variable [Uni]
open Spec

theorem mem_ms_grp {n : Nat} {r : Re} {s t : St} :
    t ∈ ms (.grp n r) s ↔ ∃ u ∈ ms r s, t = ⟨u.pos, u.rest, (n, s.rest.take (u.pos - s.pos)) :: u.caps⟩ := by
  simp only [ms, List.mem_map, eq_comm]

/-- an expression that starts with optional blanks does not match a text that starts otherwise -/
theorem none_after {B R : Re} {c : Char} {u : Str} (hB : B.eats c = false) (hR : ∀ s : St, s.rest = c :: u → ∀ t, t ∉ ms R s) :
    reMatch (.seq .bos (.seq B R)) (c :: u) = none := by
  rw [reMatch_none_iff]
  intro t ht
  simp only [mem_ms_seq, mem_ms_bos] at ht
  obtain ⟨s1, ⟨-, rfl⟩, s2, h2, h3⟩ := ht
  obtain ⟨w, e, -, hw⟩ := ms_eats _ _ _ h2
  cases w with
  | nil => exact hR s2 (by simpa using e.symm) t h3
  | cons d w =>
    simp at e
    have := hw d (by simp)
    rw [← e.1, hB] at this; cases this

/-- a word other than `inherit` -/
theorem not_inherit_kw {c : Char} {u : Str} (hc : reSpace c = false) (hk : ¬ c!"inherit" <+: c :: u) : reMatch reInherit.re (c :: u) = none := by
  refine none_after (by simp [Re.eats, CItem.test, hc]; rintro rfl; exact absurd hc (by decide)) ?_
  intro s hs t ht
  simp only [mem_ms_seq, mem_ms_grp, mem_ms_lit] at ht
  obtain ⟨a, ⟨b, ⟨d, ⟨hd, -⟩, -⟩, -⟩, -⟩ := ht
  rw [hs] at hd
  exact hk hd

theorem not_include_kw {c : Char} {u : Str} (hc : reSpace c = false) (h : ∀ v, v = c!"include" ∨ v = c!"require" → ∀ d w, c :: u = v ++ d :: w → reSpace d = false)
    (hend : c :: u ≠ c!"include" ∧ c :: u ≠ c!"require") :
    reMatch reInclude.re (c :: u) = none := by
  refine none_after (by simp [Re.eats, CItem.test, hc]; rintro rfl; exact absurd hc (by decide)) ?_
  intro s hs t ht
  rw [mem_ms_seq] at ht
  obtain ⟨a, ha, ht⟩ := ht
  rw [mem_ms_seq] at ht
  obtain ⟨b, hb, -⟩ := ht
  have hpre : ∃ v, (v = c!"include" ∨ v = c!"require") ∧ s.rest = v ++ a.rest := by
    rw [mem_ms_grp] at ha
    obtain ⟨x, hx, rfl⟩ := ha
    simp only [ms, List.mem_append] at hx
    rcases hx with hx | hx
    · split at hx
      · rename_i h1
        obtain ⟨q, hq⟩ := List.isPrefixOf_iff_prefix.1 h1
        simp at hx; subst hx
        exact ⟨_, Or.inl rfl, by rw [← hq]; simp⟩
      · cases hx
    · split at hx
      · rename_i h1
        obtain ⟨q, hq⟩ := List.isPrefixOf_iff_prefix.1 h1
        simp at hx; subst hx
        exact ⟨_, Or.inr rfl, by rw [← hq]; simp⟩
      · cases hx
  obtain ⟨v, hv, e⟩ := hpre
  rw [hs] at e
  have hprog := ms_progress _ (by rfl) _ _ hb
  obtain ⟨d, w, e2, hf⟩ := ms_first _ _ _ hb hprog
  rw [e2] at e
  have := h v hv d w e
  have htab : d ≠ '\t' := by rintro rfl; exact absurd this (by decide)
  simp [Re.first, Re.nullable, CItem.test, this, htab, Ne.symm htab] at hf

theorem not_addtask_kw {c : Char} {u : Str} (hc : reSpace c = false) (hk : ¬ c!"addtask" <+: c :: u) : reMatch reAddtask.re (c :: u) = none := by
  refine none_after (by simp [Re.eats, CItem.test, hc]; rintro rfl; exact absurd hc (by decide)) ?_
  intro s hs t ht
  rw [mem_ms_seq] at ht
  obtain ⟨a, ha, -⟩ := ht
  rw [mem_ms_lit, hs] at ha
  exact hk ha.1

theorem not_addpylib_kw {c : Char} {u : Str} (hc : reSpace c = false) (hk : ¬ c!"addpylib" <+: c :: u) : reMatch reAddpylib.re (c :: u) = none := by
  refine none_after (by simp [Re.eats, CItem.test, hc]; rintro rfl; exact absurd hc (by decide)) ?_
  intro s hs t ht
  rw [mem_ms_seq] at ht
  obtain ⟨a, ha, -⟩ := ht
  rw [mem_ms_lit, hs] at ha
  exact hk ha.1

/-- a keyword and a blank is not the start of an assignment to a flag -/
theorem not_flag_kw {kw ws rest : Str} (hkw : ∀ c ∈ kw, NameChar c) (hne : kw ≠ []) (hws : Gap ws) : reMatch reFlagass.re (kw ++ (ws ++ rest)) = none := by
  rw [reMatch_none_iff]
  intro t ht
  simp only [reFlagass] at ht
  rw [mem_ms_seq] at ht
  obtain ⟨s1, hs1, ht⟩ := ht
  rw [mem_ms_bos] at hs1
  obtain ⟨-, rfl⟩ := hs1
  rw [mem_ms_seq] at ht
  obtain ⟨s2, hs2, ht⟩ := ht
  rw [mem_ms_seq] at ht
  obtain ⟨s3, hs3, ht⟩ := ht
  rw [mem_ms_seq] at ht
  obtain ⟨s4, hs4, -⟩ := ht
  rw [mem_ms_lit] at hs4
  obtain ⟨⟨q, hq⟩, -⟩ := hs4
  obtain ⟨w1, e1, -, h1⟩ := ms_eats _ _ _ hs2
  obtain ⟨w2, e2, -, h2⟩ := ms_eats _ _ _ hs3
  obtain ⟨g, gs, rfl⟩ := List.exists_cons_of_ne_nil hws.1
  obtain ⟨k, ks, rfl⟩ := List.exists_cons_of_ne_nil hne
  have hk := nameChar_not_space (hkw k (by simp))
  have hkt : '\t' ≠ k := nameChar_ne_tab (hkw k (by simp))
  have hw1 : w1 = [] := by
    cases w1 with
    | nil => rfl
    | cons a b =>
      exfalso
      simp at e1
      have := h1 a (by simp)
      rw [← e1.1] at this
      simp [Re.eats, CItem.test, hk.1] at this
      exact hkt this.symm
  subst hw1
  have e : (k :: ks) ++ (g :: gs ++ rest) = w2 ++ '[' :: q := by
    have : (k :: ks) ++ (g :: gs ++ rest) = s2.rest := by simpa using e1
    rw [this, e2, ← hq]; rfl
  have hg := hws.2 g (by simp)
  have hw2 : g ∉ w2 := by
    intro hm
    have := h2 g hm
    rcases hg with rfl | rfl <;> simp [Re.eats, CItem.test] at this
  rcases List.append_eq_append_iff.1 e with ⟨y, h6, h7⟩ | ⟨y, h6, h7⟩
  · cases y with
    | nil => simp at h7; rcases hg with rfl | rfl <;> simp at h7
    | cons y0 y => simp at h7; exact hw2 (by rw [h6, h7.1]; simp)
  · cases y with
    | nil => simp at h7; rcases hg with rfl | rfl <;> simp at h7
    | cons y0 y =>
      simp at h7
      have := hkw y0 (by rw [h6]; simp)
      rw [← h7.1] at this; revert this; decide

/-! ## the statements -/

section
variable {W : World} {add : AddFn} {file : Str} {lineno : Int} {p : Params} {s s' : Stash} {it : Item} {d : Int}

theorem classify_at {cnt : Str} (i : Nat) (hpre : ∀ kp ∈ parseOrder.take i, reMatch kp.2.re cnt = none) :
    classify W add file lineno p cnt parseOrder = classify W add file lineno p cnt (parseOrder.drop i) := by
  have := classify_skip (W := W) (file := file) (add := add) (line := lineno) (p := p) (cnt := cnt) (parseOrder.take i) (parseOrder.drop i) hpre
  rwa [List.take_append_drop] at this

theorem bind_ok {α β : Type} {m : M α} {f : α → M β} {b : β} {s s' : Stash} (h : (m >>= f) s = (.ok b, s')) :
    ∃ a s1, m s = (.ok a, s1) ∧ f a s1 = (.ok b, s') := by
  rw [M.bind_def] at h
  cases hm : m s with
  | mk r s1 =>
    rw [hm] at h
    cases r with
    | ok a => exact ⟨a, s1, rfl, h⟩
    | error e => simp at h

theorem inherit_kind {pat : Pattern} {m : Mt} (h : handleKind W add file lineno p .inherit pat m s = (.ok (some (it, d)), s')) :
    ∃ found, it.payload = .inherit ((pat.group m c!"statement").getD []) ((pat.group m c!"inhname").getD []) found := by
  simp only [handleKind] at h
  obtain ⟨a, s1, -, h⟩ := bind_ok h
  obtain ⟨b, s2, -, h⟩ := bind_ok h
  obtain ⟨c, s3, -, h⟩ := bind_ok h
  simp [M.pure_def] at h
  obtain ⟨⟨rfl, -⟩, -⟩ := h
  exact ⟨_, rfl⟩

theorem inheritGlob_kind {pat : Pattern} {m : Mt} (h : handleKind W add file lineno p .inheritGlob pat m s = (.ok (some (it, d)), s')) :
    ∃ found, it.payload = .inherit c!"INHERIT" ((pat.group m c!"inhname").getD []) found := by
  simp only [handleKind] at h
  obtain ⟨a, s1, -, h⟩ := bind_ok h
  obtain ⟨b, s2, -, h⟩ := bind_ok h
  obtain ⟨c, s3, -, h⟩ := bind_ok h
  simp [M.pure_def] at h
  obtain ⟨⟨rfl, -⟩, -⟩ := h
  exact ⟨_, rfl⟩

/-- the first pattern that matches decides, if it does not give up -/
theorem classify_first {cnt : Str} {k : Kind} {pat : Pattern} {rest : List (Kind × Pattern)} {m : Mt} (hm : reMatch pat.re cnt = some m)
    (h : classify W add file lineno p cnt ((k, pat) :: rest) s = (.ok (it, d), s')) :
    ∃ r s1, handleKind W add file lineno p k pat m s = (.ok r, s1) ∧
      (r = some (it, d) ∨ r = none ∧ classify W add file lineno p cnt rest s1 = (.ok (it, d), s')) := by
  rw [classify, hm] at h
  obtain ⟨r, s1, h1, h2⟩ := bind_ok h
  refine ⟨r, s1, h1, ?_⟩
  cases r with
  | none => exact Or.inr ⟨rfl, h2⟩
  | some r => simp [M.pure_def] at h2; exact Or.inl (by rw [h2.1])

theorem classify_inherit {stmt ws names : Str} (hs : stmt = c!"inherit" ∨ stmt = c!"inherit_defer") (hws : Gap ws)
    (hn : names ≠ []) (hh : ∀ c ∈ names.head?, reSpace c = false ∧ c ≠ '(') (hnl : '\n' ∉ names)
    (h : classify W add file lineno p (stmt ++ (ws ++ names)) parseOrder s = (.ok (it, d), s')) :
    ∃ found, it.payload = .inherit stmt names found := by
  obtain ⟨m, hm, g1, g2⟩ := reInherit_match hs hws hn (fun c hc => (hh c hc).1) hnl
  rw [classify_at 2] at h
  · obtain ⟨r, s1, h1, h2⟩ := classify_first hm h
    rcases h2 with rfl | ⟨rfl, -⟩
    · obtain ⟨f, hf⟩ := inherit_kind h1
      exact ⟨f, by rw [hf, g1, g2]; rfl⟩
    · exfalso
      simp only [handleKind] at h1
      obtain ⟨a, s1, -, h1⟩ := bind_ok h1
      obtain ⟨b, s2, -, h1⟩ := bind_ok h1
      obtain ⟨c, s3, -, h1⟩ := bind_ok h1
      simp [M.pure_def] at h1
  · intro kp hkp
    obtain ⟨x, u, rfl⟩ := List.exists_cons_of_ne_nil hn
    have hx := hh x (by simp)
    simp only [parseOrder, List.take, List.mem_cons, List.not_mem_nil, or_false] at hkp
    rcases hkp with rfl | rfl
    · rcases hs with rfl | rfl <;> exact reMatch_none_first rfl rfl
    · rcases hs with rfl | rfl <;> exact not_func_kw (by decide) (by decide) hws hx

theorem classify_inheritGlob {ws1 pre post ws2 val tail : Str} {q q' : Char} (hop : IsOp ws1 pre post ws2 (q :: (val ++ (q' :: tail))))
    (hq : q = '\'' ∨ q = '"') (hq' : q' = '\'' ∨ q' = '"') (hv : '\n' ∉ val) (ht : '\'' ∉ tail ∧ '"' ∉ tail)
    (h : classify W add file lineno p (c!"INHERIT" ++ (ws1 ++ (pre ++ '=' :: (post ++ (ws2 ++ (q :: (val ++ (q' :: tail)))))))) parseOrder s = (.ok (it, d), s')) :
    ∃ found, it.payload = .inherit c!"INHERIT" val found := by
  obtain ⟨m, hm, g⟩ := reInheritGlob_match hop hq hq' hv ht
  rw [classify_at 3] at h
  · obtain ⟨r, s1, h1, h2⟩ := classify_first hm h
    rcases h2 with rfl | ⟨rfl, -⟩
    · obtain ⟨f, hf⟩ := inheritGlob_kind h1
      exact ⟨f, by rw [hf, g]; rfl⟩
    · exfalso
      simp only [handleKind] at h1
      obtain ⟨a, s1, -, h1⟩ := bind_ok h1
      obtain ⟨b, s2, -, h1⟩ := bind_ok h1
      obtain ⟨c, s3, -, h1⟩ := bind_ok h1
      simp [M.pure_def] at h1
  · intro kp hkp
    simp only [parseOrder, List.take, List.mem_cons, List.not_mem_nil, or_false] at hkp
    rcases hkp with rfl | rfl | rfl
    · exact reMatch_none_first rfl rfl
    · rw [show c!"INHERIT" ++ (ws1 ++ (pre ++ '=' :: (post ++ (ws2 ++ (q :: (val ++ (q' :: tail))))))) =
        (c!"INHERIT" ++ (ws1 ++ pre)) ++ '=' :: (post ++ (ws2 ++ (q :: (val ++ (q' :: tail))))) by simp]
      refine not_func ?_
      intro hc
      simp only [List.mem_append] at hc
      rcases hc with hc | hc | hc
      · revert hc; decide
      · have := hop.blanks1 _ hc; revert this; decide
      · have := hop.pre _ hc; revert this; decide
    · exact reMatch_none_first rfl rfl

theorem simple_kind {uid : Nat} {pl : Payload} {r : Option (Item × Int)} {s1 : Stash} (h : (do
    let uid ← freshUid
    pure (some (mkItem uid p pl, (0 : Int))) : M _) s = (.ok r, s1)) : ∃ uid, r = some (mkItem uid p pl, 0) := by
  obtain ⟨c, s3, -, h⟩ := bind_ok h
  simp [M.pure_def] at h
  exact ⟨c, h.1.symm⟩

theorem classify_exportWval {ws name ws1 ws2 val tail : Str} (hws : Gap ws) (hn : name ≠ []) (hnc : ∀ c ∈ name, NameChar c)
    (hw1 : Blanks ws1) (hw2 : Blanks ws2) (hv : PlainValue val) (ht : '"' ∉ tail ∧ '\n' ∉ tail)
    (h : classify W add file lineno p (c!"export" ++ (ws ++ (name ++ (ws1 ++ ('=' :: (ws2 ++ ('"' :: (val ++ ('"' :: tail))))))))) parseOrder s = (.ok (it, d), s')) :
    it.payload = .export (stripP pySpace (name ++ ws1)) val := by
  obtain ⟨m, hm, g1, g2⟩ := reExportWval_match hws hn hnc hw1 hw2 hv ht
  rw [classify_at 4] at h
  · obtain ⟨r, s1, h1, h2⟩ := classify_first hm h
    simp only [handleKind, g1, g2] at h1
    obtain ⟨uid, rfl⟩ := simple_kind (uid := 0) h1
    rcases h2 with h2 | ⟨h2, -⟩
    · simp at h2; rw [← h2.1]; rfl
    · cases h2
  · intro kp hkp
    obtain ⟨x, u, rfl⟩ := List.exists_cons_of_ne_nil hn
    have hx := hnc x (by simp)
    simp only [parseOrder, List.take, List.mem_cons, List.not_mem_nil, or_false] at hkp
    rcases hkp with rfl | rfl | rfl | rfl
    · exact reMatch_none_first rfl rfl
    · exact not_func_kw (by decide) (by decide) hws ⟨(nameChar_not_space hx).1, (nameChar_ne_paren hx).1⟩
    · exact reMatch_none_first rfl rfl
    · exact reMatch_none_first rfl rfl

theorem classify_exportWoval {ws rest : Str} (hws : Gap ws) (hn : rest ≠ []) (hh : ∀ c ∈ rest.head?, reSpace c = false ∧ c ≠ '(') (hnl : '\n' ∉ rest)
    (hno : reMatch reExportWval.re (c!"export" ++ (ws ++ rest)) = none)
    (h : classify W add file lineno p (c!"export" ++ (ws ++ rest)) parseOrder s = (.ok (it, d), s')) :
    it.payload = .export (stripP pySpace rest) [] := by
  obtain ⟨m, hm, g1⟩ := reExportWoval_match hws hn (fun c hc => (hh c hc).1) hnl
  rw [classify_at 5] at h
  · obtain ⟨r, s1, h1, h2⟩ := classify_first hm h
    simp only [handleKind, g1] at h1
    obtain ⟨uid, rfl⟩ := simple_kind (uid := 0) h1
    rcases h2 with h2 | ⟨h2, -⟩
    · simp at h2; rw [← h2.1]; rfl
    · cases h2
  · intro kp hkp
    obtain ⟨x, u, rfl⟩ := List.exists_cons_of_ne_nil hn
    simp only [parseOrder, List.take, List.mem_cons, List.not_mem_nil, or_false] at hkp
    rcases hkp with rfl | rfl | rfl | rfl | rfl
    · exact reMatch_none_first rfl rfl
    · exact not_func_kw (by decide) (by decide) hws (hh x (by simp))
    · exact reMatch_none_first rfl rfl
    · exact reMatch_none_first rfl rfl
    · exact hno

theorem defChar_name {c : Char} (h : DefChar c) : FuncChar c := by
  rcases h with h | h | rfl | rfl
  · exact Or.inr (Or.inr (Or.inl h))
  · exact Or.inr (Or.inl h)
  · decide
  · decide

theorem classify_python {ws name ws2 rest : Str} (hws : Gap ws) (hn : name ≠ [] ∧ ∀ c ∈ name, DefChar c) (h2 : Tabs ws2)
    (hr : '\n' ∉ rest) (hc : c!"):" <:+: rest)
    (h : classify W add file lineno p (c!"def" ++ (ws ++ (name ++ (ws2 ++ ('(' :: rest))))) parseOrder s = (.ok (it, d), s')) :
    it.payload = .pythonBlock name := by
  obtain ⟨m, hm, g1⟩ := rePython_match hws hn h2 hr hc
  rw [classify_at 6] at h
  · obtain ⟨r, s1, h1, h2⟩ := classify_first hm h
    simp only [handleKind, g1] at h1
    obtain ⟨uid, rfl⟩ := simple_kind (uid := 0) h1
    rcases h2 with h2 | ⟨h2, -⟩
    · simp at h2; rw [← h2.1]; rfl
    · cases h2
  · intro kp hkp
    obtain ⟨x, u, rfl⟩ := List.exists_cons_of_ne_nil hn.1
    have hx := hn.2 x (by simp)
    simp only [parseOrder, List.take, List.mem_cons, List.not_mem_nil, or_false] at hkp
    rcases hkp with rfl | rfl | rfl | rfl | rfl | rfl
    · exact reMatch_none_first rfl rfl
    · refine not_func_kw (by decide) (by decide) hws ⟨(funcChar_not_space (defChar_name hx)).1, ?_⟩
      rintro rfl; revert hx; decide
    all_goals exact reMatch_none_first rfl rfl

theorem classify_includeall {ws f : Str} (hws : Gap ws) (hn : f ≠ []) (hh : ∀ c ∈ f.head?, reSpace c = false ∧ c ≠ '(') (hnl : '\n' ∉ f)
    (h : classify W add file lineno p (c!"include_all" ++ (ws ++ f)) parseOrder s = (.ok (it, d), s')) :
    it.payload = .includeAll f := by
  obtain ⟨m, hm, g1⟩ := reIncludeall_match hws hn (fun c hc => (hh c hc).1) hnl
  rw [classify_at 8] at h
  · obtain ⟨r, s1, h1, h2⟩ := classify_first hm h
    simp only [handleKind, g1] at h1
    obtain ⟨uid, rfl⟩ := simple_kind (uid := 0) h1
    rcases h2 with h2 | ⟨h2, -⟩
    · simp at h2; rw [← h2.1]; rfl
    · cases h2
  · intro kp hkp
    obtain ⟨x, u, rfl⟩ := List.exists_cons_of_ne_nil hn
    simp only [parseOrder, List.take, List.mem_cons, List.not_mem_nil, or_false] at hkp
    rcases hkp with rfl | rfl | rfl | rfl | rfl | rfl | rfl | rfl
    · exact reMatch_none_first rfl rfl
    · exact not_func_kw (by decide) (by decide) hws (hh x (by simp))
    · refine not_inherit_kw (by decide) ?_
      rintro ⟨t, ht⟩; simp at ht
    · exact reMatch_none_first rfl rfl
    · exact reMatch_none_first rfl rfl
    · exact reMatch_none_first rfl rfl
    · exact reMatch_none_first rfl rfl
    · refine not_include_kw (by decide) ?_ ⟨by simp, by simp⟩
      rintro v (rfl | rfl) d w e
      · simp at e; rw [← e.1]; decide
      · simp at e

theorem classify_exportFunc {ws names : Str} (hws : Gap ws) (hn : names ≠ []) (hh : ∀ c ∈ names.head?, reSpace c = false ∧ c ≠ '(') (hnl : '\n' ∉ names)
    (h : classify W add file lineno p (c!"EXPORT_FUNCTIONS" ++ (ws ++ names)) parseOrder s = (.ok (it, d), s')) :
    it.payload = .functionExports names := by
  obtain ⟨m, hm, g1⟩ := reExportFunc_match hws (fun c hc => (hh c hc).1) hnl
  rw [classify_at 13] at h
  · obtain ⟨r, s1, h1, h2⟩ := classify_first hm h
    simp only [handleKind, g1] at h1
    obtain ⟨uid, rfl⟩ := simple_kind (uid := 0) h1
    rcases h2 with h2 | ⟨h2, -⟩
    · simp at h2; rw [← h2.1]; rfl
    · cases h2
  · intro kp hkp
    obtain ⟨x, u, rfl⟩ := List.exists_cons_of_ne_nil hn
    simp only [parseOrder, List.take, List.mem_cons, List.not_mem_nil, or_false] at hkp
    rcases hkp with rfl | rfl | rfl | rfl | rfl | rfl | rfl | rfl | rfl | rfl | rfl | rfl | rfl
    · exact reMatch_none_first rfl rfl
    · exact not_func_kw (by decide) (by decide) hws (hh x (by simp))
    · exact reMatch_none_first rfl rfl
    · exact reMatch_none_first rfl rfl
    · exact reMatch_none_first rfl rfl
    · exact reMatch_none_first rfl rfl
    · exact reMatch_none_first rfl rfl
    · exact reMatch_none_first rfl rfl
    · exact reMatch_none_first rfl rfl
    · exact reMatch_none_first rfl rfl
    · exact reMatch_none_first rfl rfl
    · exact reMatch_none_first rfl rfl
    · exact not_flag_kw (by decide) (by decide) hws

theorem classify_addpylib {ws q ws2 ns : Str} (hws : Gap ws) (hp : q ≠ []) (hpn : '\n' ∉ q) (hws2 : Gap ws2)
    (hns : ∀ c ∈ ns, reSpace c = false)
    (h : classify W add file lineno p (c!"addpylib" ++ (ws ++ (c!"${LAYERDIR}/" ++ (q ++ (ws2 ++ ns))))) parseOrder s = (.ok (it, d), s')) :
    it.payload = .addPylib (c!"${LAYERDIR}/" ++ (q ++ ws2.dropLast)) ns := by
  obtain ⟨m, hm, g1, g2⟩ := reAddpylib_match hws hp hpn hws2 hns
  rw [classify_at 14] at h
  · obtain ⟨r, s1, h1, h2⟩ := classify_first hm h
    simp only [handleKind, g1, g2] at h1
    obtain ⟨uid, rfl⟩ := simple_kind (uid := 0) h1
    rcases h2 with h2 | ⟨h2, -⟩
    · simp at h2; rw [← h2.1]; rfl
    · cases h2
  · intro kp hkp
    simp only [parseOrder, List.take, List.mem_cons, List.not_mem_nil, or_false] at hkp
    rcases hkp with rfl | rfl | rfl | rfl | rfl | rfl | rfl | rfl | rfl | rfl | rfl | rfl | rfl | rfl
    · exact reMatch_none_first rfl rfl
    · exact not_func_kw (by decide) (by decide) hws (by decide)
    · exact reMatch_none_first rfl rfl
    · exact reMatch_none_first rfl rfl
    · exact reMatch_none_first rfl rfl
    · exact reMatch_none_first rfl rfl
    · exact reMatch_none_first rfl rfl
    · exact reMatch_none_first rfl rfl
    · exact reMatch_none_first rfl rfl
    · refine not_addtask_kw (by decide) ?_
      rintro ⟨t, ht⟩; simp at ht
    · exact reMatch_none_first rfl rfl
    · exact reMatch_none_first rfl rfl
    · exact not_flag_kw (by decide) (by decide) hws
    · exact reMatch_none_first rfl rfl

theorem classify_addfragments {ws a b c : Str} {x y : Char} (hws : Gap ws) (ha : a ≠ [] ∧ ∀ d ∈ a, reSpace d = false)
    (hb : b ≠ [] ∧ ∀ d ∈ b, reSpace d = false) (hc : c ≠ [] ∧ ∀ d ∈ c, reSpace d = false) (hx : reSpace x = true) (hy : reSpace y = true)
    (hpar : a.head? ≠ some '(')
    (h : classify W add file lineno p (c!"addfragments" ++ (ws ++ (a ++ (x :: (b ++ (y :: c)))))) parseOrder s = (.ok (it, d), s')) :
    it.payload = .addFragements a b c := by
  obtain ⟨m, hm, g1, g2, g3⟩ := reAddfragments_match hws ha hb hc hx hy
  rw [classify_at 15] at h
  · obtain ⟨r, s1, h1, h2⟩ := classify_first hm h
    simp only [handleKind, g1, g2, g3] at h1
    obtain ⟨uid, rfl⟩ := simple_kind (uid := 0) h1
    rcases h2 with h2 | ⟨h2, -⟩
    · simp at h2; rw [← h2.1]; rfl
    · cases h2
  · intro kp hkp
    obtain ⟨z, u, rfl⟩ := List.exists_cons_of_ne_nil ha.1
    simp only [parseOrder, List.take, List.mem_cons, List.not_mem_nil, or_false] at hkp
    rcases hkp with rfl | rfl | rfl | rfl | rfl | rfl | rfl | rfl | rfl | rfl | rfl | rfl | rfl | rfl | rfl
    · exact reMatch_none_first rfl rfl
    · exact not_func_kw (by decide) (by decide) hws ⟨ha.2 z (by simp), by rintro rfl; exact hpar rfl⟩
    · exact reMatch_none_first rfl rfl
    · exact reMatch_none_first rfl rfl
    · exact reMatch_none_first rfl rfl
    · exact reMatch_none_first rfl rfl
    · exact reMatch_none_first rfl rfl
    · exact reMatch_none_first rfl rfl
    · exact reMatch_none_first rfl rfl
    · refine not_addtask_kw (by decide) ?_
      rintro ⟨t, ht⟩; simp at ht
    · exact reMatch_none_first rfl rfl
    · exact reMatch_none_first rfl rfl
    · exact not_flag_kw (by decide) (by decide) hws
    · exact reMatch_none_first rfl rfl
    · refine not_addpylib_kw (by decide) ?_
      rintro ⟨t, ht⟩; simp at ht

theorem incChar_not_space {c : Char} (h : IncChar c) : reSpace c = false ∧ c ≠ '(' := by
  have e : ∀ a b : Char, (a ≤ b) = (a.toNat ≤ b.toNat) := fun a b => by
    simp [Char.le_def, UInt32.le_iff_toNat_le]
  refine ⟨?_, by rintro rfl; revert h; decide⟩
  unfold IncChar at h
  simp only [e, List.mem_cons, List.not_mem_nil, or_false] at h
  rcases h with h | h | h | h | h | h | h | h
  · simp at h; simp [reSpace]; omega
  · simp at h; simp [reSpace]; omega
  all_goals subst h; decide

theorem classify_includes {stmt ws name tail : Str} (hs : stmt = c!"include" ∨ stmt = c!"require") (hws : Gap ws)
    (hn : name ≠ []) (hc : ∀ c ∈ name, IncChar c) (ht : ∀ c ∈ tail.head?, ¬ IncChar c)
    (h : classify W add file lineno p (stmt ++ (ws ++ (name ++ tail))) parseOrder s = (.ok (it, d), s')) :
    (∃ path, it.payload = .include name path stmt) ∨
      ∃ nm ign, expandTerm W s file name = .ok nm ∧ includeIgnore s.consts = .ok ign ∧ ign.has nm = true := by
  obtain ⟨m, hm, g1, g2⟩ := reInclude_match hs hws hn hc ht
  rw [classify_at 7] at h
  · obtain ⟨r, s1, h1, h2⟩ := classify_first hm h
    simp only [handleKind, g1, g2, Option.getD_some] at h1
    obtain ⟨nm, s3, e1, k1⟩ := bind_ok h1
    clear h1
    have hs3 := M.ask_ok e1
    subst hs3
    have e1' : expandTerm W s3 file name = .ok nm := (Prod.mk.inj e1).1
    obtain ⟨path, s4, e2, k2⟩ := bind_ok k1
    clear k1
    have hs4 := M.lift_ok e2
    subst hs4
    split at k2
    · obtain ⟨uid, rfl⟩ := simple_kind (uid := 0) k2
      rcases h2 with h2 | ⟨h2, -⟩
      · simp at h2; rw [← h2.1]; exact Or.inl ⟨_, rfl⟩
      · cases h2
    · obtain ⟨ign, s5, e3, h1⟩ := bind_ok k2
      clear k2
      have hs5 := M.ask_ok e3
      subst hs5
      have e3' : includeIgnore s5.consts = .ok ign := (Prod.mk.inj e3).1
      split at h1
      · rename_i hig
        exact Or.inr ⟨nm, ign, e1', e3', hig⟩
      · obtain ⟨tmp, s6, -, h1⟩ := bind_ok h1
        obtain ⟨uid, s7, -, h1⟩ := bind_ok h1
        simp [M.pure_def] at h1
        rcases h2 with h2 | ⟨h2, -⟩
        · rw [h2] at h1; simp at h1; rw [← h1.1.1]; exact Or.inl ⟨_, rfl⟩
        · rw [h2] at h1; simp at h1
  · intro kp hkp
    obtain ⟨x, u, rfl⟩ := List.exists_cons_of_ne_nil hn
    have hx : reSpace x = false ∧ x ≠ '(' := incChar_not_space (hc x (by simp))
    simp only [parseOrder, List.take, List.mem_cons, List.not_mem_nil, or_false] at hkp
    rcases hkp with rfl | rfl | rfl | rfl | rfl | rfl | rfl
    · rcases hs with rfl | rfl <;> exact reMatch_none_first rfl rfl
    · rcases hs with rfl | rfl <;> exact not_func_kw (by decide) (by decide) hws hx
    · rcases hs with rfl | rfl
      · refine not_inherit_kw (by decide) ?_
        rintro ⟨t, ht⟩; simp at ht
      · exact reMatch_none_first rfl rfl
    all_goals rcases hs with rfl | rfl <;> exact reMatch_none_first rfl rfl

theorem funcFlags_head {flags u : Str} {py fr : Bool} (h : FuncFlags flags py fr) (hu : ∀ c ∈ u.head?, c ≠ '#' ∧ reSpace c = false) :
    ∀ c ∈ (flags ++ u).head?, c ≠ '#' ∧ reSpace c = false := by
  cases h with
  | none => simpa using hu
  | python _ _ => rw [List.append_assoc]; simp; decide
  | fakeroot _ _ => rw [List.append_assoc]; simp; decide

theorem classify_func {flags name ws1 ws2 ws3 body tail : Str} {py fr : Bool} (hf : FuncFlags flags py fr) (hn : ∀ c ∈ name, FuncChar c)
    (hno : ¬ c!"python" <+: name ∧ ¬ c!"fakeroot" <+: name) (hanon : name = [] → ws1 = []) (w1 : Tabs ws1) (w2 : Tabs ws2) (w3 : Tabs ws3)
    (hb : '\n' ∉ body) (ht : '}' ∉ tail)
    (h : classify W add file lineno p (flags ++ (name ++ (ws1 ++ ('(' :: (ws2 ++ (')' :: (ws3 ++ ('{' :: (body ++ ('}' :: tail)))))))))) parseOrder s =
      (.ok (it, d), s')) :
    ∃ known uid nm py' fr', it = mkFunction known uid p nm body py' fr' ∧ nm.getD [] = name ∧ py'.isSome = py ∧ fr'.isSome = fr := by
  obtain ⟨m, hm, g1, g2, g3, g4⟩ := reFunc_match hf hn hno hanon w1 w2 w3 hb ht
  rw [classify_at 1] at h
  · obtain ⟨r, s1, h1, h2⟩ := classify_first hm h
    simp only [handleKind, g4] at h1
    obtain ⟨known, s3, -, h1⟩ := bind_ok h1
    obtain ⟨uid, s4, -, h1⟩ := bind_ok h1
    simp [M.pure_def] at h1
    rcases h2 with h2 | ⟨h2, -⟩
    · rw [h2] at h1
      simp at h1
      exact ⟨_, _, _, _, _, h1.1.1.symm, g3, g1, g2⟩
    · rw [h2] at h1; simp at h1
  · intro kp hkp
    simp only [parseOrder, List.take, List.mem_cons, List.not_mem_nil, or_false] at hkp
    subst hkp
    have hhead := funcFlags_head (u := name ++ (ws1 ++ ('(' :: (ws2 ++ (')' :: (ws3 ++ ('{' :: (body ++ ('}' :: tail))))))))) hf (by
      intro c hc
      cases name with
      | nil => rw [hanon rfl] at hc; simp at hc; subst hc; decide
      | cons a b =>
        simp at hc; subst hc
        have := funcChar_not_space (hn a (by simp))
        exact ⟨this.2.1, this.1⟩)
    cases hL : flags ++ (name ++ (ws1 ++ ('(' :: (ws2 ++ (')' :: (ws3 ++ ('{' :: (body ++ ('}' :: tail))))))))) with
    | nil =>
      have := congrArg List.length hL
      simp at this
    | cons c u =>
      rw [hL] at hhead
      have := hhead c (by simp)
      refine reMatch_none_first rfl ?_
      have htab : c ≠ '\t' := by rintro rfl; exact absurd this.2 (by decide)
      simp [reComments, Re.first, Re.nullable, CItem.test, this.1, this.2, Ne.symm this.1, htab, Ne.symm htab]

end
end Oelint

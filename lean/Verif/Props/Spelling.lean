import Verif.Spec.Spelling
import Verif.Props.Breaks
import Verif.Props.DependsVar
/-! C113: overrides written with `_` and with `:` say the same. -/
set_option linter.unusedSectionVars false
namespace Oelint
section
variable [Uni]
open Spec

theorem distributed_all {P : Str → Prop} {l : List Str} (h : ∀ p ∈ l, P p) : Distributed P l [] l := by
  induction l with
  | nil => exact .nil
  | cons a l ih => exact .right (h a (by simp)) (ih (fun p hp => h p (by simp [hp])))

theorem distributed_pre {P : Str → Prop} {a l : List Str} (ha : ∀ p ∈ a, ¬ P p) (h : ∀ p ∈ l, P p) : Distributed P (a ++ l) a l := by
  induction a with
  | nil => exact distributed_all h
  | cons x a ih => exact .left (ha x (by simp)) (ih (fun p hp => ha p (by simp [hp])))

theorem override_of_char {first o : Str} (hf : first ≠ c!"pkg") (h : ∃ c t, o = c :: t ∧ OverrideChar c) : Override first o := by
  obtain ⟨c, t, rfl, hc⟩ := h
  have hdash : c ≠ '-' := by rintro rfl; exact absurd hc (by unfold OverrideChar; decide)
  exact Or.inl ⟨hf, c, beforeDash t, by simp [beforeDash, hdash], hc⟩

theorem not_override_capital {first p : Str} (h : ∃ c t, p = c :: t ∧ 'A' ≤ c ∧ c ≤ 'Z') : ¬ Override first p := by
  obtain ⟨c, t, rfl, hc⟩ := h
  have hc' := capital_range hc
  have hdash : c ≠ '-' := by rintro rfl; exact absurd hc (by decide)
  have hbd : beforeDash (c :: t) = c :: beforeDash t := by simp [beforeDash, hdash]
  rintro (⟨-, x, u, hx, ho⟩ | hx)
  · rw [hbd] at hx; simp at hx; rw [← hx.1] at ho; exact hc'.2.1 ho
  · rw [hbd] at hx; simp at hx; exact hc'.2.2.2 hx.1

theorem joinS_append' (d : Char) (a b : List Str) (ha : a ≠ []) (hb : b ≠ []) : joinS [d] (a ++ b) = joinS [d] a ++ d :: joinS [d] b := by
  induction a with
  | nil => exact absurd rfl ha
  | cons x a ih =>
    cases a with
    | nil => simp [joinS_cons _ x b hb, joinS]
    | cons y a =>
      rw [List.cons_append, joinS_cons _ _ _ (by simp), ih (by simp), joinS_cons _ x (y :: a) (by simp)]
      simp

theorem Spec.Overridden.pieces {base : Str} {os : List Str} (h : Overridden base os) : ∃ first rest, Spec.Pieces '_' base (first :: rest) ∧
    Spec.Pieces '_' (joinS ['_'] (base :: os)) (first :: (rest ++ os)) ∧ first ≠ c!"pkg" ∧ (∀ p ∈ first :: rest, p ≠ []) ∧
    Distributed (Override first) (rest ++ os) rest os := by
  obtain ⟨ps, hp, hps⟩ := h.base.pieces
  obtain ⟨first, rest, rfl⟩ := List.exists_cons_of_ne_nil hp.1
  have hfirst : first ≠ c!"pkg" := by
    rintro rfl
    obtain ⟨c, t, e, hc⟩ := hps c!"pkg" (by simp)
    simp at e; rw [← e.1] at hc; exact absurd hc (by decide)
  refine ⟨first, rest, hp, ⟨by simp, ?_, ?_⟩, hfirst, ?_, distributed_pre (fun p hp => not_override_capital (hps p (by simp [hp])))
      (fun p hp => override_of_char hfirst (h.overrides p hp).2.2)⟩
  · by_cases ho : os = []
    · subst ho; simpa [joinS] using hp.2.1
    · rw [show first :: (rest ++ os) = (first :: rest) ++ os from rfl, joinS_append' _ _ _ (by simp) ho, hp.2.1, joinS_cons _ _ _ ho]
      simp
  · intro q hq
    rcases List.mem_cons.1 hq with rfl | hq
    · exact hp.2.2 q (by simp)
    · rcases List.mem_append.1 hq with hq | hq
      · exact hp.2.2 q (by simp [hq])
      · exact (h.overrides q hq).1
  · intro p hp; obtain ⟨c, t, rfl, -⟩ := hps p hp; simp

theorem Spec.Overridden.colons {base : Str} {os : List Str} (h : Overridden base os) : Spec.Pieces ':' (joinS [':'] (base :: os)) (base :: os) ∧
    base ≠ [] ∧ Distributed (Override base) os [] os := by
  have hcol : ':' ∉ base := by
    intro hc
    rcases h.base.chars _ hc with hx | hx | hx <;> exact absurd hx (by decide)
  have hpkg : base ≠ c!"pkg" := by
    rintro rfl
    rcases h.base.chars 'p' (by simp) with hx | hx | hx <;> exact absurd hx (by decide)
  refine ⟨⟨by simp, rfl, ?_⟩, ?_, distributed_all (fun p hp => override_of_char hpkg (h.overrides p hp).2.2)⟩
  · intro q hq
    rcases List.mem_cons.1 hq with rfl | hq
    · exact hcol
    · exact (h.overrides q hq).2.1
  · rintro rfl
    obtain ⟨ps, hp, hps⟩ := h.base.pieces
    have := pieces_unique hp
    rw [show splitC '_' ([] : Str) = [[]] from rfl] at this
    subst this
    obtain ⟨c, t, e, -⟩ := hps [] (by simp)
    cases e

theorem Spec.Overridden.nonempty {base : Str} {os : List Str} (h : Overridden base os) : ∀ o ∈ os, o ≠ [] := by
  intro o ho; obtain ⟨-, -, c, t, rfl, -⟩ := h.overrides o ho; simp

theorem spelled_old {base : Str} {os : List Str} (h : Overridden base os) (uid : Nat) (p : Params) (val op : Str)
    (hd : (mkVariable uid p (joinS ['_'] (base :: os)) val op).delim = '_') :
    (mkVariable uid p (joinS ['_'] (base :: os)) val op).payload = .variable ⟨base, joinS ['_'] os, os, val, op, base⟩ := by
  obtain ⟨v, f1, f2, f3⟩ := C18_no_piece_is_lost uid p (joinS ['_'] (base :: os)) val op
  rw [hd] at f2
  obtain ⟨first, rest, g1, g2, -, g4, g5⟩ := h.pieces
  obtain ⟨vs, ss, k1, k2, k3, k4, k5⟩ := f3 '_' first (rest ++ os) f2 g2
  obtain ⟨rfl, rfl⟩ := distributed_unique k1 g5
  rw [filter_nonempty g4, g1.2.1] at k2
  rw [filter_nonempty h.nonempty] at k3
  have hv := assigned_data f1
  rw [f1]
  obtain ⟨v1, v2, v3, v4, v5, v6⟩ := v
  simp only at k2 k3 k4 k5 hv
  simp [k2, k3, k4, k5, hv]

theorem spelled_colon {base : Str} {os : List Str} (h : Overridden base os) (uid : Nat) (p : Params) (val op : Str)
    (hd : (mkVariable uid p (joinS [':'] (base :: os)) val op).delim = ':') :
    (mkVariable uid p (joinS [':'] (base :: os)) val op).payload = .variable ⟨base, joinS [':'] os, os, val, op, base⟩ := by
  obtain ⟨v, f1, f2, f3⟩ := C18_no_piece_is_lost uid p (joinS [':'] (base :: os)) val op
  rw [hd] at f2
  obtain ⟨g1, g2, g3⟩ := h.colons
  obtain ⟨vs, ss, k1, k2, k3, k4, k5⟩ := f3 ':' base os f2 g1
  obtain ⟨rfl, rfl⟩ := distributed_unique k1 g3
  rw [filter_nonempty (by simpa using g2)] at k2
  rw [filter_nonempty h.nonempty] at k3
  have hv := assigned_data f1
  rw [f1]
  obtain ⟨v1, v2, v3, v4, v5, v6⟩ := v
  simp only at k2 k3 k4 k5 hv
  simp [joinS] at k2
  simp [k2, k3, k4, k5, hv]

theorem spelled_new {base : Str} {os : List Str} (h : Overridden base os) (uid : Nat) (p : Params) (val op : Str) :
    (os ≠ [] → (mkVariable uid p (joinS [':'] (base :: os)) val op).delim = ':') ∧
    (mkVariable uid p (joinS [':'] (base :: os)) val op).payload = .variable ⟨base, joinS [':'] os, os, val, op, base⟩ := by
  have hd : os ≠ [] → (mkVariable uid p (joinS [':'] (base :: os)) val op).delim = ':' := by
    intro ho
    obtain ⟨v, f1, f2, f3⟩ := C18_no_piece_is_lost uid p (joinS [':'] (base :: os)) val op
    rw [f2]
    unfold Spec.delimiter
    rw [if_pos]
    right
    rw [joinS_cons _ _ _ ho]
    simp
  refine ⟨hd, ?_⟩
  by_cases ho : os = []
  · subst ho
    obtain ⟨v, f1, f2, -⟩ := C18_no_piece_is_lost uid p (joinS [':'] [base]) val op
    have : Spec.delimiter p.newStyle (joinS [':'] [base]) = ':' ∨ Spec.delimiter p.newStyle (joinS [':'] [base]) = '_' := by
      unfold Spec.delimiter; split <;> simp
    rcases this with e | e
    · exact spelled_colon h uid p val op (f2.trans e)
    · exact spelled_old h uid p val op (f2.trans e)
  · exact spelled_colon h uid p val op (hd ho)

/-- **C113** `BASE_o1_..._on = VALUE` in the old syntax and `BASE:o1:...:on = VALUE` give variables with the same name, modifiers, operator and value,
and every question about them has the same answer. -/
theorem C113_same_variable (W : World) (n : Nat) (path : Str) (off : Int) (forced : Option Str) (s s' : Stash) (res : List Item)
    (h : addFile W n path off forced s = (.ok res, s')) (it : Item) (hi : it ∈ res)
    (W₁ : World) (n₁ : Nat) (path₁ : Str) (off₁ : Int) (forced₁ : Option Str) (s₁ s₁' : Stash) (res₁ : List Item)
    (h₁ : addFile W₁ n₁ path₁ off₁ forced₁ s₁ = (.ok res₁, s₁')) (it₁ : Item) (hi₁ : it₁ ∈ res₁)
    (base : Str) (os : List Str) (ho : Overridden base os) (ws1 op ws2 val : Str)
    (hl : Assignment (joined it.raw) (joinS ['_'] (base :: os)) ws1 op ws2 val) (hd : it.delim = '_')
    (hl₁ : Assignment (joined it₁.raw) (joinS [':'] (base :: os)) ws1 op ws2 val) :
    it.has c!"VarName" (.str base) ∧ it.has c!"SubItems" (.strs os) ∧ it₁.has c!"VarName" (.str base) ∧ it₁.has c!"SubItems" (.strs os) ∧
    (os ≠ [] → it₁.delim = ':') ∧
    (∀ k ∈ [c!"RawVarName", c!"VarOp", c!"VarValue", c!"VarValueStripped"], dget k it.getAttributes = dget k it₁.getAttributes) ∧
    it.getItems = it₁.getItems ∧
    ∃ v v₁, it.payload = .variable v ∧ it₁.payload = .variable v₁ ∧ v₁ = { v with subItem := v₁.subItem } ∧
      varIsAppend v = varIsAppend v₁ ∧ appendOperation v = appendOperation v₁ ∧ isImmediateModify v = isImmediateModify v₁ ∧
      varMachineEntry v = varMachineEntry v₁ ∧ getClassOverride v = getClassOverride v₁ ∧
      (∀ known, getDistroEntry known v.subItems = getDistroEntry known v₁.subItems) ∧
      (∀ o b, varGetItems v o b = varGetItems v₁ o b) ∧
      varNameComplete it.delim v = joinS ['_'] (base :: os) ∧ varNameComplete it₁.delim v₁ = joinS [':'] (base :: os) ∧
      varNameCompleteNoModifiers it.delim v = joinS ['_'] (base :: os.filter (fun o => !modifierNames.contains o)) ∧
      varNameCompleteNoModifiers it₁.delim v₁ = joinS [':'] (base :: os.filter (fun o => !modifierNames.contains o)) := by
  obtain ⟨uid, p, e1, e2⟩ := item_assigned h hi hl
  obtain ⟨uid₁, p₁, e1₁, e2₁⟩ := item_assigned h₁ hi₁ hl₁
  have hp := spelled_old ho uid p val (ws1 ++ (op ++ ws2)) (e2.symm.trans hd)
  obtain ⟨hd₁, hp₁⟩ := spelled_new ho uid₁ p₁ val (ws1 ++ (op ++ ws2))
  rw [← e1] at hp
  rw [← e1₁] at hp₁
  rw [← e2₁] at hd₁
  obtain ⟨a1, a2, a3, a4, a5, a6, a7, a8, a9, a10⟩ := has_var hp
  obtain ⟨b1, b2, b3, b4, b5, b6, b7, b8, b9, b10⟩ := has_var hp₁
  refine ⟨a1, a3, b1, b3, hd₁, ?_, ?_, _, _, hp, hp₁, rfl, rfl, rfl, rfl, rfl, rfl, fun _ => rfl, fun _ _ => rfl, by rw [hd]; rfl, ?_, by rw [hd]; rfl, ?_⟩
  · intro k hk
    simp only [List.mem_cons, List.not_mem_nil, or_false] at hk
    rcases hk with rfl | rfl | rfl | rfl
    · exact a8.trans b8.symm
    · exact a5.trans b5.symm
    · exact a4.trans b4.symm
    · exact a9.trans b9.symm
  · unfold Item.getItems
    rw [hp, hp₁]
    rfl
  · by_cases hos : os = []
    · subst hos; rfl
    · rw [hd₁ hos]; rfl
  · by_cases hos : os = []
    · subst hos; rfl
    · rw [hd₁ hos]; rfl

/-! ## values -/

theorem respelled_source {W W' : World} {s s' : Stash} {b : J} {file n q : Str}
    (h : List.Forall₂ Respelled (getItemsFor W s (varFilter file n)) (getItemsFor W' s' (varFilter file n))) :
    sourceOf W' s' b file n q = sourceOf W s b file n q := by
  unfold sourceOf assignments
  have key : List.Forall₂ (fun a b : Item × VarData => assignmentText a.1 a.2 = assignmentText b.1 b.2)
      ((getItemsFor W s (varFilter file n)).filterMap asAssignment) ((getItemsFor W' s' (varFilter file n)).filterMap asAssignment) := by
    generalize getItemsFor W s (varFilter file n) = k at h
    generalize getItemsFor W' s' (varFilter file n) = k' at h
    induction h with
    | nil => exact .nil
    | @cons x y k k' hxy _ ih =>
      rw [List.filterMap_cons, List.filterMap_cons]
      rcases hxy.payload with ⟨v, w, hx, hy, hw⟩ | ⟨m, m', fl, hx, hy⟩
      · have ha : appendOperation w = appendOperation v := by rw [hw]; rfl
        have ht : assignmentText x v = assignmentText y w := by
          unfold assignmentText; rw [hw, hxy.blocks]; rfl
        simp only [asAssignment, hx, hy, ha]
        by_cases hc : (appendOperation v).isEmpty = true
        · simp only [if_pos hc]; exact .cons ht ih
        · simp only [if_neg hc]; exact ih
      · simp only [asAssignment, hx, hy]; exact ih
  revert key
  generalize (getItemsFor W s (varFilter file n)).filterMap asAssignment = k
  generalize (getItemsFor W' s' (varFilter file n)).filterMap asAssignment = k'
  intro key
  cases key with
  | nil => rfl
  | cons hab _ => simp only [hab]

theorem respelled_keeps {s s' : Stash} (hm : s'.map = s.map) {file n : Str} {x y : Item} (h : Respelled x y) :
    keeps s (varFilter file n) x = keeps s' (varFilter file n) y := by
  rcases h.payload with ⟨v, w, hx, hy, hw⟩ | ⟨m, m', fl, hx, hy⟩
  · have hn : w.varName = v.varName := by rw [hw]
    have ha : attrFilter x [c!"VarName"] (given (.one n)) = attrFilter y [c!"VarName"] (given (.one n)) := by
      simp only [attrFilter, List.any_cons, List.any_nil, dget_varName hx, dget_varName hy, hn]
    unfold keeps isLinkedTo
    rw [show given (varFilter file n).attname = [c!"VarName"] from rfl, show (varFilter file n).attvalue = .one n from rfl, ha, hx, hy, h.origin, hm]
    rfl
  · unfold keeps
    simp [varFilter, given, hx, hy, Payload.classifier]

/-- **C113** (`ExpandTerm`). Two stashes with the same links and base set hold the same assignments in the same order of `Line`s, but for the spelling of their
overrides. Then every text expands to the same. -/
theorem C113_expandTerm (W W' : World) (s s' : Stash) (l l' : List Item) (hl : LinedNames (fun _ => True) s l) (hl' : LinedNames (fun _ => True) s' l')
    (hs : List.Forall₂ Respelled l l') (hm : s'.map = s.map) (hb : setsBase s'.consts = setsBase s.consts) (hf : W'.file = W.file)
    (file : Str) (spare : List Str) (t : Str) : expandTermS W' s' file spare t = expandTermS W s file spare t := by
  have h : SameSources W W' s s' file (fun _ => True) := by
    refine ⟨hb, fun b n q _ hn => respelled_source ?_, fun _ _ _ _ _ _ _ _ => ⟨fun _ _ => trivial, fun _ _ => trivial⟩⟩
    rw [linedNames_get hl W trivial hn, linedNames_get hl' W' trivial hn]
    exact forall₂_filter (fun x y h => respelled_keeps hm h) hs
  exact h.term hf spare t ⟨fun _ _ => trivial, fun _ _ => trivial⟩

theorem respelled_step {n n' : Str} {x y : Item} (h : Respelled x y) (hx : Concerns n x) (hy : Concerns n' y) (o : Option (Option Str)) :
    stepItem n o x = stepItem n' o y := by
  unfold stepItem
  unfold Concerns at hx hy
  rcases h.payload with ⟨v, w, hpx, hpy, hw⟩ | ⟨m, m', fl, hpx, hpy⟩
  · simp only [hpx, hpy] at hx hy ⊢
    have hM : Modifies w ↔ Modifies v := by rw [hw]; rfl
    have hi : ∀ c, immediateOp x v c = immediateOp y w c := by intro c; unfold immediateOp; rw [hw, h.blocks]; rfl
    simp only [hx, hy, hM, hi]
  · simp only [hpx, hpy] at hx hy ⊢
    rw [if_pos hx, if_pos hy]

/-- what the loops over the modifications look at -/
def keyFacts (v : VarData) : List Str × Str := (v.subItems, varValueStripped v)

theorem respelled_mod {n n' : Str} {x y : Item} (h : Respelled x y) (hx : Concerns n x) (hy : Concerns n' y) :
    (modOf n x).map keyFacts = (modOf n' y).map keyFacts := by
  unfold modOf
  unfold Concerns at hx hy
  rcases h.payload with ⟨v, w, hpx, hpy, hw⟩ | ⟨m, m', fl, hpx, hpy⟩
  · simp only [hpx, hpy] at hx hy ⊢
    have hM : Modifies w ↔ Modifies v := by rw [hw]; rfl
    have hk : keyFacts w = keyFacts v := by rw [hw]; rfl
    simp only [hx, hy, hM]
    split <;> simp [hk]
  · simp only [hpx, hpy]

theorem stepApp_key {v w : VarData} (h : keyFacts v = keyFacts w) (o : Option (Option Str)) : stepApp o v = stepApp o w := by
  simp only [keyFacts, Prod.mk.injEq] at h
  unfold stepApp; rw [h.1, h.2]

theorem stepRem_key {v w : VarData} (h : keyFacts v = keyFacts w) (o : Option (Option Str)) : stepRem o v = stepRem o w := by
  simp only [keyFacts, Prod.mk.injEq] at h
  unfold stepRem; rw [h.1, h.2]

theorem foldl_key {f : Option (Option Str) → VarData → Option (Option Str)} (hf : ∀ v w, keyFacts v = keyFacts w → ∀ o, f o v = f o w)
    {l l' : List VarData} (h : l.map keyFacts = l'.map keyFacts) (o : Option (Option Str)) : l.foldl f o = l'.foldl f o := by
  induction l generalizing l' o with
  | nil => cases l' <;> simp at h ⊢
  | cons v l ih => cases l' with
    | nil => simp at h
    | cons w l' =>
      simp only [List.map_cons, List.cons.injEq] at h
      rw [List.foldl_cons, List.foldl_cons, hf v w h.1, ih h.2]

theorem respelled_final {n n' : Str} {its its' : List Item} {d d' : ExpDict} (hd : dget n d = dget n' d')
    (h : List.Forall₂ Respelled (its.filter (fun x => decide (Concerns n x))) (its'.filter (fun x => decide (Concerns n' x)))) :
    dget n (finalDict its d) = dget n' (finalDict its' d') := by
  unfold finalDict
  rw [passRemove_dget, passRemove_dget, passAppend_dget, passAppend_dget, passImmediate_dget, passImmediate_dget, mods_concerns n its,
    mods_concerns n' its', foldl_concerns n its, foldl_concerns n' its', hd]
  have hc : ∀ x ∈ its.filter (fun x => decide (Concerns n x)), Concerns n x := fun x hx => by simpa using (List.mem_filter.1 hx).2
  have hc' : ∀ x ∈ its'.filter (fun x => decide (Concerns n' x)), Concerns n' x := fun x hx => by simpa using (List.mem_filter.1 hx).2
  generalize its.filter _ = l at h hc
  generalize its'.filter _ = l' at h hc'
  have h1 : (mods n l).map keyFacts = (mods n' l').map keyFacts := by
    unfold mods
    induction h with
    | nil => rfl
    | @cons x y _ _ h _ ih =>
      have ih := ih (fun x hx => hc x (by simp [hx])) (fun x hx => hc' x (by simp [hx]))
      have hm := respelled_mod h (hc _ (by simp)) (hc' _ (by simp))
      rw [List.filterMap_cons, List.filterMap_cons]
      cases hx : modOf n x <;> cases hy : modOf n' y <;> rw [hx, hy] at hm <;> simp at hm ⊢
      · exact ih
      · exact ⟨hm, ih⟩
  have h2 : ∀ o, l.foldl (stepItem n) o = l'.foldl (stepItem n') o := by
    clear h1
    induction h with
    | nil => exact fun _ => rfl
    | cons h _ ih =>
      intro o
      rw [List.foldl_cons, List.foldl_cons, respelled_step h (hc _ (by simp)) (hc' _ (by simp)),
        ih (fun x hx => hc x (by simp [hx])) (fun x hx => hc' x (by simp [hx]))]
  rw [h2, foldl_key (fun v w h o => stepApp_key h o) h1, foldl_key (fun v w h o => stepRem_key h o) h1]

/-- **C113** (`ExpandVar`). Two stashes as in `C113_expandTerm` hold the same statements about a variable, which one calls `n` and the other `n'`; either this is the
same name, or neither has a value without statements. Then `ExpandVar` gives the same items for `n` and `n'`, or none for both. -/
theorem C113_expandVar (W : World) (s s' : Stash) (l l' : List Item) (hl : LinedNames (fun _ => True) s l) (hl' : LinedNames (fun _ => True) s' l')
    (hs : List.Forall₂ Respelled l l') (hm : s'.map = s.map)
    (file : Str) (att val att' val' : Arg) (nolink nolink' : Bool) (r r' : List (Str × List Str)) (b : KV)
    (h : expandVar W s (some file) att val nolink = .ok r) (h' : expandVar W s' (some file) att' val' nolink' = .ok r')
    (hb : setsBase s.consts = .ok (.dict b)) (hb' : setsBase s'.consts = .ok (.dict b)) (hbn : b.keys.Nodup)
    (hp : PlainNames s s.items) (hp' : PlainNames s' s'.items)
    (n n' : Str) (hn : n = n' ∨ n ∉ b.keys ++ [c!"PN", c!"PV", c!"BPN"] ∧ n' ∉ b.keys ++ [c!"PN", c!"PV", c!"BPN"])
    (k k' : List Item) (hk : StatementsAbout s file att val nolink n k) (hk' : StatementsAbout s' file att' val' nolink' n' k')
    (hkk : List.Forall₂ Respelled k k') : dget n r = dget n' r' := by
  obtain ⟨its, d, h1, h2, h3⟩ := expandVar_ok h
  obtain ⟨its', d', h1', h2', h3'⟩ := expandVar_ok h'
  have hd : d' = d := by
    have : expInit s' file = expInit s file := by unfold expInit; rw [hb, hb']
    rw [this, h2] at h2'
    cases h2'; rfl
  subst hd
  have e : its.filter (fun x => decide (Concerns n x)) = k := by
    refine rising_unique hk.rising (h1.sorted.filter _) (h1.nodup.filter _) fun x => ?_
    rw [List.mem_filter, h1.mem, hk.all, decide_eq_true_iff]
    tauto
  have e' : its'.filter (fun x => decide (Concerns n' x)) = k' := by
    refine rising_unique hk'.rising (h1'.sorted.filter _) (h1'.nodup.filter _) fun x => ?_
    rw [List.mem_filter, h1'.mem, hk'.all, decide_eq_true_iff]
    tauto
  obtain ⟨b1, hb1, hall⟩ := expInit_base h2
  rw [hb] at hb1
  cases hb1
  obtain ⟨k1, k2, k3, k4⟩ := hall hbn
  have absent : ∀ m, m ∉ b.keys ++ [c!"PN", c!"PV", c!"BPN"] → dget m d' = none := by
    intro m hm
    cases hg : dget m d' with
    | none => rfl
    | some v =>
      refine absurd ?_ hm
      have := k4 m (dget_isSome_iff.1 (by rw [hg]; rfl))
      exact List.mem_append.2 this
  have hd : dget n d' = dget n' d' := by
    rcases hn with rfl | ⟨h1, h2⟩
    · rfl
    · rw [absent _ h1, absent _ h2]
  have hfin : dget n (finalDict its d') = dget n' (finalDict its' d') := respelled_final hd (by rw [e, e']; exact hkk)
  have plain : ∀ {s : Stash} {its : List Item}, (∀ x ∈ its, x ∈ s.items) → PlainNames s s.items → PlainNames s its := by
    intro s its hi hp k hk
    refine hp k (hk.imp_left ?_)
    rintro ⟨x, hx, hv⟩
    exact ⟨x, hi x hx, hv⟩
  have pl := plain (fun x hx => ((h1.mem x).1 hx).1) hp
  have pl' := plain (fun x hx => ((h1'.mem x).1 hx).1) hp'
  have keys : ∀ {s : Stash} {its : List Item}, setsBase s.consts = .ok (.dict b) → PlainNames s its → ∀ k ∈ (finalDict its d').map (·.1), expandTerm W s file k = .ok k := by
    intro s its hb hp k hk
    obtain ⟨h5, h6⟩ := hp k (finalDict_names hb k4 k hk)
    exact expandTerm_plain hb h5 h6
  obtain ⟨i1, i2⟩ := explode_plain h3 (finalDict_keys k1) (keys hb pl) n
  obtain ⟨j1, j2⟩ := explode_plain h3' (finalDict_keys k1) (keys hb' pl') n'
  cases hv : dget n (finalDict its d') with
  | none =>
    rw [← hfin, hv] at j1
    rw [hv] at i1
    have : ∀ {o : Option (List Str)}, (o.isSome = true ↔ (none : Option (Option Str)).isSome = true) → o = none := by
      intro o ho; cases o <;> simp at ho ⊢
    rw [this i1, this j1]
  | some v =>
    obtain ⟨t, ht, hr⟩ := i2 v hv
    obtain ⟨t', ht', hr'⟩ := j2 v (by rw [← hfin, hv])
    have := C113_expandTerm W W s s' l l' hl hl' hs hm (by rw [hb, hb']) rfl file [] (v.getD [])
    unfold expandTerm at ht ht'
    rw [this, ht] at ht'
    cases ht'
    rw [hr, hr']

/-! ## files -/

theorem old_inj {b b' : Str} {os os' : List Str} (h : Overridden b os) (h' : Overridden b' os') (e : joinS ['_'] (b :: os) = joinS ['_'] (b' :: os')) :
    b = b' ∧ os = os' := by
  obtain ⟨f, r, g1, g2, -, -, g5⟩ := h.pieces
  obtain ⟨f', r', g1', g2', -, -, g5'⟩ := h'.pieces
  have := pieces_unique g2
  rw [e, ← pieces_unique g2'] at this
  obtain ⟨rfl, h2⟩ := List.cons.inj this
  rw [h2] at g5
  obtain ⟨rfl, rfl⟩ := distributed_unique g5 g5'
  exact ⟨g1.2.1.symm.trans g1'.2.1, rfl⟩

theorem new_inj {b b' : Str} {os os' : List Str} (h : Overridden b os) (h' : Overridden b' os') (e : joinS [':'] (b :: os) = joinS [':'] (b' :: os')) :
    b = b' ∧ os = os' := by
  have := pieces_unique h.colons.1
  rw [e, ← pieces_unique h'.colons.1] at this
  exact List.cons.inj this

theorem Spec.Overridden.less {b : Str} {os : List Str} (h : Overridden b os) (p : Str → Bool) : Overridden b (os.filter p) :=
  ⟨h.base, fun o ho => h.overrides o (List.mem_filter.1 ho).1⟩

/-- what two spellings of an item have in common -/
structure TwoSpellings (x y : Item) : Prop where
  respelled : Respelled x y
  var : ∃ v w, x.payload = .variable v ∧ y.payload = .variable w
  concerns : ∀ base os, Overridden base os → (Concerns (joinS ['_'] (base :: os)) x ↔ Concerns (joinS [':'] (base :: os)) y)

open Classical in
/-- **C113** (files). A file of assignments is read into a fresh stash in the old syntax, and the same file with overrides written in the new syntax into another
one with the same constants. Then every text expands to the same in both, and `ExpandVar` gives the same items for every variable: for `BASE_o1_..._on` in the
first and `BASE:o1:...:on` in the second. -/
theorem C113_file (W W' : World) (hcwd : W'.cwd = W.cwd) (ns ns' neg neg' : Bool) (consts : J) (hu : UsableConstants consts) (uid uid' : Nat) (path : Str) (tx tx' : Str)
    (hf : W.file (abspath W.cwd path) = .text tx) (hf' : W'.file (abspath W.cwd path) = .text tx')
    (n n' : Nat) (off off' : Int) (forced : Option Str) (r r' : List Item) (u u' : Stash)
    (h : addFile W n path off forced (Stash.init ns neg consts uid) = (.ok r, u))
    (h' : addFile W' n' path off' forced (Stash.init ns' neg' consts uid') = (.ok r', u'))
    (hsp : List.Forall₂ (fun x y => Spellings (joined x.raw) (joined y.raw) ∧ x.inlineBlocks = y.inlineBlocks) r r')
    (hd : ∀ x ∈ r, x.delim = '_') (D : World) (file : Str) :
    (∀ spare t, expandTermS D u' file spare t = expandTermS D u file spare t) ∧
    ∀ nolink e e' b, expandVar D u (some file) .none .none nolink = .ok e → expandVar D u' (some file) .none .none nolink = .ok e' →
      setsBase u.consts = .ok (.dict b) → b.keys.Nodup → PlainNames u u.items → PlainNames u' u'.items →
      ∀ base os, Overridden base os → (os = [] ∨ ∀ k ∈ b.keys ++ [c!"PN", c!"PV", c!"BPN"], k ≠ joinS ['_'] (base :: os) ∧ k ≠ joinS [':'] (base :: os)) →
        dget (joinS [':'] (base :: os)) e' = dget (joinS ['_'] (base :: os)) e := by
  have hnew : alreadySeen (Stash.init ns neg consts uid) (abspath W.cwd path) = false := by simp [alreadySeen, Stash.init]
  have hnew' : alreadySeen (Stash.init ns' neg' consts uid') (abspath W.cwd path) = false := by simp [alreadySeen, Stash.init]
  have ho := ((C03_one_item_per_chunk W n path off forced _ _ r h).2 tx hnew hf).2
  have ho' := ((C03_one_item_per_chunk W' n' path off' forced _ _ r' h').2 tx' (by rw [hcwd]; exact hnew') (by rw [hcwd]; exact hf')).2
  have two : List.Forall₂ TwoSpellings r r' := by
    have main : ∀ x ∈ r, ∀ y ∈ r', Spellings (joined x.raw) (joined y.raw) ∧ x.inlineBlocks = y.inlineBlocks → TwoSpellings x y := by
      rintro x hx y hy ⟨⟨base, os, ws1, op, ws2, val, hO, a1, a2⟩, hblk⟩
      obtain ⟨-, -, -, -, hdl, -, -, v, w, e1, e2, e3, -, -, -, -, -, -, -, -, -, c1, c2⟩ :=
        C113_same_variable W n path off forced _ _ r h x hx W' n' path off' forced _ _ r' h' y hy base os hO ws1 op ws2 val a1 (hd x hx) a2
      refine ⟨⟨?_, hblk, Or.inl ⟨v, w, e1, e2, e3⟩⟩, ⟨v, w, e1, e2⟩, fun b' os' hO' => ?_⟩
      · rw [ho x hx, ho' y hy, hcwd]
      · unfold Concerns
        simp only [e1, e2, c1, c2]
        have hl := hO.less (fun o => !modifierNames.contains o)
        constructor
        · intro e; obtain ⟨rfl, rfl⟩ := old_inj hl hO' e; rfl
        · intro e; obtain ⟨rfl, rfl⟩ := new_inj hl hO' e; rfl
    clear h h' ho ho' hd
    induction hsp with
    | nil => exact .nil
    | cons h _ ih =>
      exact .cons (main _ (by simp) _ (by simp) h) (ih (fun x hx y hy => main x (by simp [hx]) y (by simp [hy])))
  have vars : (∀ x ∈ r, ∃ v, x.payload = .variable v) ∧ ∀ y ∈ r', ∃ v, y.payload = .variable v := by
    clear h h' ho ho' hd hsp
    induction two with
    | nil => simp
    | cons h _ ih =>
      obtain ⟨v, w, e1, e2⟩ := h.var
      refine ⟨?_, ?_⟩
      · intro z hz; rcases List.mem_cons.1 hz with rfl | hz
        · exact ⟨v, e1⟩
        · exact ih.1 z hz
      · intro z hz; rcases List.mem_cons.1 hz with rfl | hz
        · exact ⟨w, e2⟩
        · exact ih.2 z hz
  have idle : ∀ {l : List Item}, (∀ x ∈ l, ∃ v, x.payload = .variable v) → ∀ x ∈ l, loadedBy x = [] := by
    intro l hl x hx; obtain ⟨v, e⟩ := hl x hx; simp [loadedBy, e]
  obtain ⟨k1, k2, k3⟩ := addFile_idle (W := W) (W' := W') (s := Stash.init ns neg consts uid) (s' := Stash.init ns' neg' consts uid')
    hcwd rfl rfl rfl hnew hnew' h h' (idle vars.1) (idle vars.2)
  have hlin := (C02_lines W n path off forced _ _ r _ h hnew hf).2.1
  have hlin' := (C02_lines W' n' path off' forced _ _ r' _ h' (by rw [hcwd]; exact hnew') (by rw [hcwd]; exact hf')).2.1
  have c1 : ConstsOf consts u := by
    have := addFile_constsOf_any (W := W) (db := consts) (s := Stash.init ns neg consts uid) ⟨hu, otherNames_refl _⟩ n path off forced
    rwa [h] at this
  have c2 : ConstsOf consts u' := by
    have := addFile_constsOf_any (W := W') (db := consts) (s := Stash.init ns' neg' consts uid') ⟨hu, otherNames_refl _⟩ n' path off' forced
    rwa [h'] at this
  have names := constsOf_names c1 c2
  have hbase : setsBase u'.consts = setsBase u.consts := (twin_names W).sets (s' := { u with consts := u'.consts }) names
  have L : LinedNames (fun _ => True) u r := ⟨hlin, fun x => by
    rw [k1]; exact ⟨fun hx => ⟨hx, by obtain ⟨v, e⟩ := vars.1 x hx; exact ⟨v, e, trivial⟩⟩, fun hx => hx.1⟩⟩
  have L' : LinedNames (fun _ => True) u' r' := ⟨hlin', fun x => by
    rw [k2]; exact ⟨fun hx => ⟨hx, by obtain ⟨v, e⟩ := vars.2 x hx; exact ⟨v, e, trivial⟩⟩, fun hx => hx.1⟩⟩
  have resp : List.Forall₂ Respelled r r' := two.imp (fun _ _ h => h.respelled)
  refine ⟨fun spare t => C113_expandTerm D D u u' r r' L L' resp k3 hbase rfl file spare t, ?_⟩
  intro nolink e e' b he he' hb hbn hp hp' base os hO hos
  let f1 : Filter := { filename := some file, classifier := .one c!"Variable", attname := .none, attvalue := .none, nolink }
  let f2 : Filter := { filename := some file, classifier := .one c!"Unset" }
  let P : Stash → Str → Item → Bool := fun s name x => decide (Concerns name x) && (keeps s f1 x || keeps s f2 x)
  have about : ∀ (s : Stash) (name : Str) (r : List Item), s.items = r → r.Pairwise (fun a b => a.line < b.line) →
      StatementsAbout s file .none .none nolink name (r.filter (P s name)) := by
    intro s name r hm hp
    refine ⟨hp.filter _, fun x => ?_⟩
    rw [List.mem_filter, hm]
    simp only [P, Bool.and_eq_true, Bool.or_eq_true, decide_eq_true_iff, keeps_iff, f1, f2]
  have PP : ∀ x y, TwoSpellings x y → P u (joinS ['_'] (base :: os)) x = P u' (joinS [':'] (base :: os)) y := by
    intro x y hxy
    obtain ⟨v, w, e1, e2⟩ := hxy.var
    simp only [P]
    rw [decide_eq_decide.2 (hxy.concerns base os hO)]
    congr 1
    unfold keeps isLinkedTo
    rw [e1, e2, hxy.respelled.origin, k3]
    rfl
  refine (C113_expandVar D u u' r r' L L' resp k3 file .none .none .none .none nolink nolink e e' b he he' hb (hbase.trans hb) hbn hp hp' _ _ ?_ _ _
    (about u _ r k1 hlin) (about u' _ r' k2 hlin') ((forall₂_filter PP two).imp (fun _ _ h => h.respelled))).symm
  rcases hos with rfl | hos
  · exact .inl rfl
  · exact .inr ⟨fun hm => (hos _ hm).1 rfl, fun hm => (hos _ hm).2 rfl⟩
end

/-! ## examples -/
section
attribute [local instance] Sample.asciiUni
open Spec

/-- a file in the old syntax -/
def Sample.oldText : Str := c!"A = \"1\"\nA_append = \"2\"\nB_foo ?= \"${A}3\"\n"
/-- the same in the new syntax -/
def Sample.newText : Str := c!"A = \"1\"\nA:append = \"2\"\nB:foo ?= \"${A}3\"\n"
/-- the two disks -/
def Sample.oldDisk : World := Sample.world [(c!"/w/r.bb", Sample.oldText)]
/-- the two disks -/
def Sample.newDisk : World := Sample.world [(c!"/w/r.bb", Sample.newText)]

theorem Sample.assignName {c : Char} {n : Str} (h1 : ∀ x ∈ c :: n, NameChar x) (h2 : (c :: n).getLast? ≠ some ':' ∧ (c :: n).getLast? ≠ some '.')
    (h3 : c :: n ∉ keywords) (h4 : c ≠ 'i') : AssignName (c :: n) :=
  ⟨by simp, h1, h2, h3, fun k e => h4 (by simpa using (List.cons.inj e).1)⟩

theorem Sample.overridden {c : Char} {os : List Str} (h1 : 'A' ≤ c ∧ c ≤ 'Z') (h2 : (os.all fun o => !o.contains '_' && !o.contains ':' &&
    match o with | x :: _ => decide ('a' ≤ x ∧ x ≤ 'z') | [] => false) = true) : Overridden [c] os := by
  refine ⟨⟨by simpa using Or.inl h1, ⟨[[c]], ⟨by simp, rfl, ?_⟩, by simpa using h1⟩, by simp⟩, ?_⟩
  · rintro p hp hm
    rw [List.mem_singleton] at hp
    subst hp
    rw [List.mem_singleton] at hm
    subst hm
    exact absurd h1 (by decide)
  · intro o ho
    have := List.all_eq_true.1 h2 o ho
    cases o with
    | nil => simp at this
    | cons x o =>
      simp only [Bool.and_eq_true, Bool.not_eq_true', decide_eq_true_iff] at this
      exact ⟨by simpa using this.1.1, by simpa using this.1.2, x, o, rfl, Or.inl this.2⟩

/-- all hypotheses of `C113_file` hold -/
example : ∀ r r' u u', addFile Sample.oldDisk 5 c!"/w/r.bb" 0 none (Stash.init false false Sample.constants 0) = (.ok r, u) →
    addFile Sample.newDisk 5 c!"/w/r.bb" 0 none (Stash.init false false Sample.constants 9) = (.ok r', u') →
    ∀ (D : World) (e e' : List (Str × List Str)), expandVar D u (some c!"/w/r.bb") .none .none false = .ok e →
      expandVar D u' (some c!"/w/r.bb") .none .none false = .ok e' → dget c!"A" e' = dget c!"A" e ∧ dget c!"B:foo" e' = dget c!"B_foo" e := by
  intro r r' u u' h h' D e e' he he'
  have f1 : r.map (fun x => (joined x.raw, x.inlineBlocks)) = [(c!"A = \"1\"", []), (c!"A_append = \"2\"", []), (c!"B_foo ?= \"${A}3\"", [])] := by
    have h0 : (addFile Sample.oldDisk 5 c!"/w/r.bb" 0 none (Stash.init false false Sample.constants 0)).1.toOption.map
        (fun r => r.map (fun x => (joined x.raw, x.inlineBlocks))) = some [(c!"A = \"1\"", []), (c!"A_append = \"2\"", []), (c!"B_foo ?= \"${A}3\"", [])] := by
      decide +kernel
    rw [h] at h0
    exact Option.some.inj h0
  have hd : ∀ x ∈ r, x.delim = '_' := by
    have h0 : (addFile Sample.oldDisk 5 c!"/w/r.bb" 0 none (Stash.init false false Sample.constants 0)).1.toOption.map
        (fun r => r.all (fun x => x.delim == '_')) = some true := by decide +kernel
    rw [h] at h0
    have := Option.some.inj h0
    simpa using this
  have f2 : r'.map (fun x => (joined x.raw, x.inlineBlocks)) = [(c!"A = \"1\"", []), (c!"A:append = \"2\"", []), (c!"B:foo ?= \"${A}3\"", [])] := by
    have h0 : (addFile Sample.newDisk 5 c!"/w/r.bb" 0 none (Stash.init false false Sample.constants 9)).1.toOption.map
        (fun r => r.map (fun x => (joined x.raw, x.inlineBlocks))) = some [(c!"A = \"1\"", []), (c!"A:append = \"2\"", []), (c!"B:foo ?= \"${A}3\"", [])] := by
      decide +kernel
    rw [h'] at h0
    exact Option.some.inj h0
  have hb : setsBase u.consts = .ok J.empty := by
    have := Sample.emptyBase (u := (addFile Sample.oldDisk 5 c!"/w/r.bb" 0 none (Stash.init false false Sample.constants 0)).2) (by decide +kernel)
    rwa [h] at this
  have hp : PlainNames u u.items := by
    have := Sample.plainNames (s := (addFile Sample.oldDisk 5 c!"/w/r.bb" 0 none (Stash.init false false Sample.constants 0)).2) (by decide +kernel)
      (Sample.emptyBase (by decide +kernel))
    rwa [h] at this
  have hp' : PlainNames u' u'.items := by
    have := Sample.plainNames (s := (addFile Sample.newDisk 5 c!"/w/r.bb" 0 none (Stash.init false false Sample.constants 9)).2)
      (by decide +kernel) (Sample.emptyBase (by decide +kernel))
    rwa [h'] at this
  have an : ∀ n ∈ [c!"A", c!"A_append", c!"B_foo", c!"A:append", c!"B:foo"], AssignName n := by
    intro n hn
    simp only [List.mem_cons, List.not_mem_nil, or_false] at hn
    rcases hn with rfl | rfl | rfl | rfl | rfl <;>
      exact Sample.assignName (by unfold NameChar; decide +kernel) (by decide +kernel) (by decide +kernel) (by decide +kernel)
  have key : List.Forall₂ (fun x y : Str × List (Str × Str) => Spellings x.1 y.1 ∧ x.2 = y.2)
      (r.map (fun x => (joined x.raw, x.inlineBlocks))) (r'.map (fun x => (joined x.raw, x.inlineBlocks))) := by
    rw [f1, f2]
    refine .cons ⟨⟨c!"A", [], c!" ", c!"=", c!" ", c!"\"1\"", Sample.overridden (by decide) (by decide), ?_, ?_⟩, rfl⟩
      (.cons ⟨⟨c!"A", [c!"append"], c!" ", c!"=", c!" ", c!"\"2\"", Sample.overridden (by decide) (by decide), ?_, ?_⟩, rfl⟩
      (.cons ⟨⟨c!"B", [c!"foo"], c!" ", c!"?=", c!" ", c!"\"${A}3\"", Sample.overridden (by decide) (by decide), ?_, ?_⟩, rfl⟩ .nil))
    all_goals exact ⟨by decide +kernel, an _ (by decide +kernel), by decide, by unfold Blanks; decide +kernel, by unfold Blanks; decide +kernel, by decide +kernel⟩
  rw [List.forall₂_map_left_iff, List.forall₂_map_right_iff] at key
  obtain ⟨-, hv⟩ := C113_file Sample.oldDisk Sample.newDisk rfl false false false false Sample.constants Sample.usableConstants 0 9 c!"/w/r.bb" Sample.oldText Sample.newText
    (by decide +kernel) (by decide +kernel) 5 5 0 0 none r r' u u' h h' key hd D c!"/w/r.bb"
  have hv := hv false e e' .nil he he' hb (by decide) hp hp'
  exact ⟨hv c!"A" [] (Sample.overridden (by decide) (by decide)) (.inl rfl),
    hv c!"B" [c!"foo"] (Sample.overridden (by decide) (by decide)) (.inr (by decide +kernel))⟩

/-- the items in question -/
example : (expandVar (Sample.world []) (addFile Sample.oldDisk 5 c!"/w/r.bb" 0 none (Stash.init false false Sample.constants 0)).2 (some c!"/w/r.bb") .none .none false).toOption.map
      (fun e => (dget c!"A" e, dget c!"B_foo" e)) = some (some [c!"12"], some [c!"13"]) ∧
    (expandVar (Sample.world []) (addFile Sample.newDisk 5 c!"/w/r.bb" 0 none (Stash.init false false Sample.constants 9)).2 (some c!"/w/r.bb") .none .none false).toOption.map
      (fun e => (dget c!"A" e, dget c!"B:foo" e)) = some (some [c!"12"], some [c!"13"]) := by
  decide +kernel
end
end Oelint

import Verif.Lemmas.ExpandRefs
import Verif.Lemmas.Queries
import Verif.Lemmas.Tokens
import Verif.Lemmas.Names
import Verif.Spec.ExpandVar
/-! The four loops of `ExpandVar`, seen from one variable. -/
set_option linter.unusedSectionVars false
set_option linter.unusedSimpArgs false
namespace Oelint
variable [Uni]
open Spec

theorem modifies_iff {v : VarData} : isImmediateModify v = true ↔ ¬ Modifies v := by
  unfold isImmediateModify Modifies modifierNames
  simp
  constructor
  · intro h
    exact ⟨fun hm => (h _ hm).2.1 rfl, fun hm => (h _ hm).1 rfl, fun hm => (h _ hm).2.2 rfl⟩
  · rintro ⟨h1, h2, h3⟩ x hx
    exact ⟨by rintro rfl; exact h2 hx, by rintro rfl; exact h1 hx, by rintro rfl; exact h3 hx⟩

theorem inlinePlaceholder_eq : inlinePlaceholder = inlineBlock := rfl

/-! ## the first loop -/

/-- the first loop on one variable -/
def stepItem (n : Str) (o : Option (Option Str)) (x : Item) : Option (Option Str) :=
  match x.payload with
  | .unset m flag => if m = n ∧ flag = [] then none else o
  | .variable v =>
    if ¬ Modifies v ∧ varNameCompleteNoModifiers x.delim v = n then some (immediateOp x v (o.getD none)) else o
  | _ => o

theorem passImmediate_dget (n : Str) (its : List Item) (d : ExpDict) :
    dget n (passImmediate its d) = its.foldl (stepItem n) (dget n d) := by
  induction its generalizing d with
  | nil => rfl
  | cons x rest ih =>
    rw [List.foldl_cons]
    unfold passImmediate
    cases hp : x.payload with
    | unset m flag =>
      have hst : stepItem n (dget n d) x = if m = n ∧ flag = [] then none else dget n d := by unfold stepItem; rw [hp]
      rw [hst]
      simp only
      by_cases hf : flag = []
      · subst hf
        simp only [List.isEmpty_nil, Bool.not_true, Bool.false_eq_true, if_false, and_true]
        rw [ih]
        congr 1
        by_cases hd : dhas m d = true
        · rw [if_pos hd, dget_ddel]
          by_cases hm : m = n
          · subst hm; simp
          · simp [hm, Ne.symm hm]
        · rw [if_neg hd]
          by_cases hm : m = n
          · subst hm; rw [if_pos rfl]
            unfold dhas at hd
            simpa using hd
          · rw [if_neg hm]
      · have : (!flag.isEmpty) = true := by simp [hf]
        rw [if_pos this, ih, if_neg (by simp [hf])]
    | «variable» v =>
      have hst : stepItem n (dget n d) x = if ¬ Modifies v ∧ varNameCompleteNoModifiers x.delim v = n then
        some (immediateOp x v ((dget n d).getD none)) else dget n d := by unfold stepItem; rw [hp]
      rw [hst]
      simp only
      by_cases hm : Modifies v
      · have : (!isImmediateModify v) = true := by
          rw [Bool.not_eq_true', ← Bool.not_eq_true, modifies_iff]; simpa using hm
        rw [if_pos this, ih, if_neg (by simp [hm])]
      · have : ¬ (!isImmediateModify v) = true := by
          rw [Bool.not_eq_true', ← Bool.not_eq_true, modifies_iff]; simpa using hm
        rw [if_neg this, ih]
        congr 1
        rw [dget_dset]
        generalize hk : varNameCompleteNoModifiers x.delim v = k
        by_cases hn : n = k
        · subst hn
          have hc : ¬ Modifies v ∧ n = n := ⟨hm, rfl⟩
          rw [if_pos rfl]
          refine Eq.trans ?_ (if_pos hc).symm
          congr 2
          by_cases hd : dhas n d = true
          · rw [if_pos hd]
          · rw [if_neg hd, dget_dset_same]
            unfold dhas at hd
            have : dget n d = none := by simpa using hd
            rw [this]; rfl
        · have hc : ¬ (¬ Modifies v ∧ k = n) := fun h => hn h.2.symm
          rw [if_neg hn]
          refine Eq.trans ?_ (if_neg hc).symm
          split
          · rfl
          · rw [dget_dset_ne _ _ hn]
    | _ => simp only [ih]; unfold stepItem; rw [hp]

/-- the state of the code fits the state of bitbake -/
structure Fits (c : Cell) (o : Option (Option Str)) (es : List Event) : Prop where
  value : o.getD none = c.get
  next : c.value = none → c.weak ≠ none → ∀ e ∈ es.head?, e = .unset ∨ ∃ w, e = .assign c!"=" w ∨ e = .assign c!":=" w

theorem strip_one {op : Str} (h : op ∈ operators) : stripP pySpace (c!" " ++ op ++ c!" ") = op := by
  simp only [operators, List.mem_cons, List.not_mem_nil, or_false] at h
  rcases h with rfl | rfl | rfl | rfl | rfl | rfl | rfl | rfl <;> decide

theorem immediate_fits {n : Str} {its : List Item} {c : Cell} {o : Option (Option Str)} (h1 : OneBlank n its) (h2 : NoInline n its)
    (h3 : WeakLast c (events n its)) (hf : Fits c o (events n its)) :
    (its.foldl (stepItem n) o).getD none = (c.run (events n its)).get := by
  induction its generalizing c o with
  | nil => exact hf.value
  | cons x rest ih =>
    have h1' : OneBlank n rest := fun y hy => h1 y (List.mem_cons_of_mem _ hy)
    rw [List.foldl_cons]
    cases he : eventOf n x with
    | none =>
      have hev : events n (x :: rest) = events n rest := by unfold events; rw [List.filterMap_cons, he]
      have hst : stepItem n o x = o := by
        unfold eventOf at he
        unfold stepItem
        cases hp : x.payload with
        | unset m flag =>
          simp only [hp] at he ⊢
          by_cases hc : m = n ∧ flag = []
          · rw [if_pos hc] at he; cases he
          · rw [if_neg hc]
        | «variable» v =>
          simp only [hp] at he ⊢
          by_cases hc : ¬ Modifies v ∧ varNameCompleteNoModifiers x.delim v = n
          · rw [if_pos hc] at he; cases he
          · rw [if_neg hc]
        | _ => rfl
      unfold NoInline at h2
      rw [hev] at h2 h3 hf ⊢
      rw [hst]
      exact ih h1' h2 h3 hf
    | some e =>
      have hev : events n (x :: rest) = e :: events n rest := by unfold events; rw [List.filterMap_cons, he]
      unfold NoInline at h2
      rw [hev] at h2 h3 hf ⊢
      have h2' : NoInline n rest := fun e' he' => h2 e' (List.mem_cons_of_mem _ he')
      have h3' : WeakLast (c.step e) (events n rest) := by
        intro pre v post hpp hv
        exact h3 (e :: pre) v post (by rw [hpp]; rfl) hv
      rw [show Cell.run c (e :: events n rest) = Cell.run (c.step e) (events n rest) from rfl]
      refine ih h1' h2' h3' ?_
      unfold eventOf at he
      unfold stepItem
      cases hp : x.payload with
      | unset m flag =>
        simp only [hp] at he ⊢
        by_cases hc : m = n ∧ flag = []
        · rw [if_pos hc] at he ⊢
          cases he
          exact ⟨rfl, fun _ h => absurd rfl h⟩
        · rw [if_neg hc] at he; cases he
      | «variable» v =>
        simp only [hp] at he ⊢
        by_cases hc : ¬ Modifies v ∧ varNameCompleteNoModifiers x.delim v = n
        · rw [if_pos hc] at he ⊢
          cases he
          obtain ⟨op, hop, hvo⟩ := h1 x (by simp) v hp hc.1 hc.2
          have hni : hasSub inlineBlock (varValueStripped v) = false := by
            rw [← Bool.not_eq_true, hasSub_iff]
            exact h2 _ (List.mem_cons_self) _ _ rfl
          have hstr : stripP pySpace v.varOp = op := by rw [hvo]; exact strip_one hop
          rw [hstr] at h3 hf ⊢
          have hval := hf.value
          have hnext := hf.next
          have himm : immediateOp x v (o.getD none) = immediateOp x v c.get := by rw [hval]
          rw [himm]
          have hweak : op = c!"??=" → c.value = none → ∀ e ∈ (events n rest).head?, e = .unset ∨ ∃ w, e = .assign c!"=" w ∨ e = .assign c!":=" w :=
            fun h hv => h3 [] (varValueStripped v) (events n rest) (by rw [h]; rfl) hv
          clear h3 hf hval hstr h3' h2'
          unfold immediateOp
          simp only [hni, hvo, Bool.false_eq_true, if_false]
          obtain ⟨cv, cw⟩ := c
          cases cv with
          | some a =>
            simp only [operators, List.mem_cons, List.not_mem_nil, or_false] at hop
            rcases hop with rfl | rfl | rfl | rfl | rfl | rfl | rfl | rfl <;>
              exact ⟨by simp [Cell.get, Cell.step], by simp [Cell.step]⟩
          | none =>
            cases cw with
            | none =>
              simp only [operators, List.mem_cons, List.not_mem_nil, or_false] at hop
              rcases hop with rfl | rfl | rfl | rfl | rfl | rfl | rfl | rfl
              case inr.inr.inl => exact ⟨by simp [Cell.get, Cell.step], fun _ _ => hweak rfl rfl⟩
              all_goals exact ⟨by simp [Cell.get, Cell.step], by simp [Cell.step]⟩
            | some w =>
              have hh := hnext rfl (by simp) _ (by simp; rfl)
              rcases hh with hh | ⟨w', hh | hh⟩
              · cases hh
              · cases hh; exact ⟨by simp [Cell.get, Cell.step], by simp [Cell.step]⟩
              · cases hh; exact ⟨by simp [Cell.get, Cell.step], by simp [Cell.step]⟩
        · rw [if_neg hc] at he; cases he
      | _ => simp only [hp] at he; cases he

/-- which variables are known after the first loop -/
theorem immediate_known (n : Str) (its : List Item) (o : Option (Option Str)) :
    (its.foldl (stepItem n) o).isSome = true ↔
      (∃ op v, (events n its).getLast? = some (.assign op v)) ∨ (events n its = [] ∧ o.isSome = true) := by
  induction its generalizing o with
  | nil => simp [events]
  | cons x rest ih =>
    rw [List.foldl_cons, ih]
    have hst : ∀ e, eventOf n x = some e → ((stepItem n o x).isSome = true ↔ ∃ op v, e = .assign op v) := by
      intro e he
      unfold eventOf at he
      unfold stepItem
      cases hp : x.payload with
      | unset m flag =>
        simp only [hp] at he ⊢
        by_cases hc : m = n ∧ flag = []
        · rw [if_pos hc] at he ⊢; cases he; simp
        · rw [if_neg hc] at he; cases he
      | «variable» v =>
        simp only [hp] at he ⊢
        by_cases hc : ¬ Modifies v ∧ varNameCompleteNoModifiers x.delim v = n
        · rw [if_pos hc] at he ⊢; cases he; simp
        · rw [if_neg hc] at he; cases he
      | _ => simp only [hp] at he; cases he
    have hst0 : eventOf n x = none → stepItem n o x = o := by
      intro he
      unfold eventOf at he
      unfold stepItem
      cases hp : x.payload with
      | unset m flag =>
        simp only [hp] at he ⊢
        by_cases hc : m = n ∧ flag = []
        · rw [if_pos hc] at he; cases he
        · rw [if_neg hc]
      | «variable» v =>
        simp only [hp] at he ⊢
        by_cases hc : ¬ Modifies v ∧ varNameCompleteNoModifiers x.delim v = n
        · rw [if_pos hc] at he; cases he
        · rw [if_neg hc]
      | _ => rfl
    cases he : eventOf n x with
    | none =>
      have hev : events n (x :: rest) = events n rest := by unfold events; rw [List.filterMap_cons, he]
      rw [hev, hst0 he]
    | some e =>
      have hev : events n (x :: rest) = e :: events n rest := by unfold events; rw [List.filterMap_cons, he]
      rw [hev, hst e he]
      cases hr : events n rest with
      | nil => simp
      | cons a t => simp [List.getLast?_cons_cons]

/-! ## the second loop -/

/-- the second loop on one variable -/
def stepApp (o : Option (Option Str)) (v : VarData) : Option (Option Str) :=
  match o with
  | none => some (some (varValueStripped v))
  | some cur =>
    if c!"append" ∈ v.subItems then some (some (cur.getD [] ++ varValueStripped v))
    else if c!"prepend" ∈ v.subItems then some (some (varValueStripped v ++ cur.getD []))
    else some cur

theorem passAppend_dget (n : Str) (its : List Item) (d : ExpDict) :
    dget n (passAppend its d) = (mods n its).foldl stepApp (dget n d) := by
  induction its generalizing d with
  | nil => rfl
  | cons x rest ih =>
    unfold passAppend mods
    rw [List.filterMap_cons]
    cases hp : x.payload with
    | «variable» v =>
      simp only [modOf, hp]
      by_cases hm : Modifies v
      · have : ¬ isImmediateModify v = true := by rw [modifies_iff]; simpa using hm
        rw [if_neg this]
        generalize hk : varNameCompleteNoModifiers x.delim v = k
        by_cases hn : n = k
        · subst hn
          rw [if_pos ⟨hm, rfl⟩]
          simp only [List.foldl_cons]
          cases hd : dget n d with
          | none => rw [ih, dget_dset_same]; rfl
          | some cur =>
            simp only [stepApp, List.contains_iff_mem]
            by_cases ha : c!"append" ∈ v.subItems
            · rw [if_pos ha, if_pos ha, ih, dget_dset_same]; rfl
            · rw [if_neg ha, if_neg ha]
              by_cases hb : c!"prepend" ∈ v.subItems
              · rw [if_pos hb, if_pos hb, ih, dget_dset_same]; rfl
              · rw [if_neg hb, if_neg hb, ih, hd]; rfl
        · rw [if_neg (by intro h; exact hn h.2.symm)]
          simp only
          cases hd : dget k d with
          | none => simp only; rw [ih, dget_dset_ne _ _ hn]; rfl
          | some cur =>
            simp only
            split
            · rw [ih, dget_dset_ne _ _ hn]; rfl
            · split
              · rw [ih, dget_dset_ne _ _ hn]; rfl
              · rw [ih]; rfl
      · have : isImmediateModify v = true := by rw [modifies_iff]; exact hm
        rw [if_pos this, if_neg (by intro h; exact hm h.1), ih]; rfl
    | _ => simp only [modOf, hp]; rw [ih]; rfl

theorem stepApp_some (ms : List VarData) (cur : Option Str) :
    ∃ o, ms.foldl stepApp (some cur) = some o ∧ o.getD [] = extended (cur.getD []) ms := by
  induction ms generalizing cur with
  | nil => exact ⟨cur, rfl, by simp [extended, appends, prepends]⟩
  | cons v ms ih =>
    rw [List.foldl_cons]
    unfold stepApp
    by_cases ha : c!"append" ∈ v.subItems
    · simp only [if_pos ha]
      obtain ⟨o, h1, h2⟩ := ih (some (cur.getD [] ++ varValueStripped v))
      refine ⟨o, h1, ?_⟩
      rw [h2]
      simp [extended, appends, prepends, ha]
    · simp only [if_neg ha]
      by_cases hb : c!"prepend" ∈ v.subItems
      · simp only [if_pos hb]
        obtain ⟨o, h1, h2⟩ := ih (some (varValueStripped v ++ cur.getD []))
        refine ⟨o, h1, ?_⟩
        rw [h2]
        simp [extended, appends, prepends, ha, hb]
      · simp only [if_neg hb]
        obtain ⟨o, h1, h2⟩ := ih cur
        refine ⟨o, h1, ?_⟩
        rw [h2]
        simp [extended, appends, prepends, ha, hb]

/-- a variable that is not known yet -/
theorem stepApp_none {v : VarData} (ms : List VarData) (h : c!"append" ∈ v.subItems ∨ c!"prepend" ∈ v.subItems) :
    ∃ o, (v :: ms).foldl stepApp none = some o ∧ o.getD [] = extended [] (v :: ms) := by
  obtain ⟨o, h1, h2⟩ := stepApp_some ms (some (varValueStripped v))
  refine ⟨o, h1, ?_⟩
  rw [h2]
  by_cases ha : c!"append" ∈ v.subItems
  · simp [extended, appends, prepends, ha]
  · simp [extended, appends, prepends, ha, h.resolve_left ha]

theorem stepApp_isSome (ms : List VarData) (o : Option (Option Str)) :
    (ms.foldl stepApp o).isSome = true ↔ ms ≠ [] ∨ o.isSome = true := by
  cases ms with
  | nil => simp
  | cons v ms =>
    simp only [ne_eq, reduceCtorEq, not_false_eq_true, true_or, iff_true, List.foldl_cons]
    have : ∃ c, stepApp o v = some c := by
      unfold stepApp
      cases o with
      | none => exact ⟨_, rfl⟩
      | some c => simp only; split; exact ⟨_, rfl⟩; split <;> exact ⟨_, rfl⟩
    obtain ⟨c, hc⟩ := this
    rw [hc]
    obtain ⟨o, h1, -⟩ := stepApp_some ms c
    rw [h1]; rfl

/-! ## the third loop -/

/-- the third loop on one variable -/
def stepRem (o : Option (Option Str)) (v : VarData) : Option (Option Str) :=
  if c!"remove" ∈ v.subItems then some (some (replaceAll (varValueStripped v) [] ((o.getD none).getD [])))
  else some (o.getD none)

theorem passRemove_dget (n : Str) (its : List Item) (d : ExpDict) :
    dget n (passRemove its d) = (mods n its).foldl stepRem (dget n d) := by
  induction its generalizing d with
  | nil => rfl
  | cons x rest ih =>
    unfold passRemove
    cases hp : x.payload with
    | «variable» v =>
      simp only
      by_cases hm : Modifies v
      · have : ¬ isImmediateModify v = true := by rw [modifies_iff]; simpa using hm
        rw [if_neg this]
        have hmo : modOf n x = if varNameCompleteNoModifiers x.delim v = n then some v else none := by
          unfold modOf; rw [hp]; simp [hm]
        generalize varNameCompleteNoModifiers x.delim v = k at hmo
        have hd1 : ∀ j, dget j (if dhas k d then d else dset k none d) = if j = k then some ((dget k d).getD none) else dget j d := by
          intro j
          by_cases hd : dhas k d = true
          · rw [if_pos hd]
            split
            · subst j
              unfold dhas at hd
              obtain ⟨o, ho⟩ := Option.isSome_iff_exists.1 hd
              rw [ho]; rfl
            · rfl
          · rw [if_neg hd, dget_dset]
            have : dget k d = none := by unfold dhas at hd; simpa using hd
            rw [this]; rfl
        by_cases hn : n = k
        · subst hn
          rw [if_pos rfl] at hmo
          have hmods : mods n (x :: rest) = v :: mods n rest := by unfold mods; rw [List.filterMap_cons, hmo]
          rw [hmods, List.foldl_cons]
          have hst : stepRem (dget n d) v = if c!"remove" ∈ v.subItems then some (some (replaceAll (varValueStripped v) [] (((dget n d).getD none).getD [])))
            else some ((dget n d).getD none) := rfl
          rw [hst]
          simp only [List.contains_iff_mem]
          by_cases hr : c!"remove" ∈ v.subItems
          · rw [if_pos hr, if_pos hr, ih, dget_dset_same, hd1, if_pos rfl]; rfl
          · rw [if_neg hr, if_neg hr, ih, hd1, if_pos rfl]
        · rw [if_neg (Ne.symm hn)] at hmo
          have hmods : mods n (x :: rest) = mods n rest := by unfold mods; rw [List.filterMap_cons, hmo]
          rw [hmods]
          split
          · rw [ih, dget_dset_ne _ _ hn, hd1, if_neg hn]
          · rw [ih, hd1, if_neg hn]
      · have : isImmediateModify v = true := by rw [modifies_iff]; exact hm
        have hmo : modOf n x = none := by unfold modOf; rw [hp]; simp [hm]
        have hmods : mods n (x :: rest) = mods n rest := by unfold mods; rw [List.filterMap_cons, hmo]
        rw [if_pos this, ih, hmods]
    | _ =>
      have hmo : modOf n x = none := by unfold modOf; rw [hp]
      have hmods : mods n (x :: rest) = mods n rest := by unfold mods; rw [List.filterMap_cons, hmo]
      rw [hmods]; exact ih d

theorem stepRem_value (ms : List VarData) (o : Option (Option Str)) :
    ((ms.foldl stepRem o).getD none).getD [] =
      (removes ms).foldl (fun t w => replaceAll w [] t) ((o.getD none).getD []) ∧
    ((ms.foldl stepRem o).isSome = true ↔ ms ≠ [] ∨ o.isSome = true) := by
  induction ms generalizing o with
  | nil => simp [removes]
  | cons v ms ih =>
    rw [List.foldl_cons]
    obtain ⟨h1, h2⟩ := ih (stepRem o v)
    rw [h1]
    constructor
    · by_cases hr : c!"remove" ∈ v.subItems
      · simp [removes, stepRem, hr]
      · simp [removes, stepRem, hr]
    · rw [h2]
      unfold stepRem
      split <;> simp

/-! ## all three loops -/

/-- the dictionary before the last loop -/
def finalDict (its : List Item) (d : ExpDict) : ExpDict := passRemove its (passAppend its (passImmediate its d))

theorem finalDict_isSome (n : Str) (its : List Item) (d : ExpDict) :
    (dget n (finalDict its d)).isSome = true ↔ mods n its ≠ [] ∨
      (∃ op v, (events n its).getLast? = some (.assign op v)) ∨ (events n its = [] ∧ (dget n d).isSome = true) := by
  unfold finalDict
  rw [passRemove_dget, (stepRem_value _ _).2, passAppend_dget, stepApp_isSome, passImmediate_dget, immediate_known, ← or_assoc, or_self]

/-- the text of a variable: what is prepended and appended around the immediate value, then the removes -/
theorem finalDict_text (n : Str) (its : List Item) (d : ExpDict)
    (h : (dget n (passImmediate its d)).isSome = true ∨ ∀ v ∈ (mods n its).head?, c!"append" ∈ v.subItems ∨ c!"prepend" ∈ v.subItems) :
    ((dget n (finalDict its d)).getD none).getD [] =
      (removes (mods n its)).foldl (fun t w => replaceAll w [] t)
        (extended (((dget n (passImmediate its d)).getD none).getD []) (mods n its)) := by
  unfold finalDict
  rw [passRemove_dget, (stepRem_value _ _).1, passAppend_dget]
  congr 1
  cases ho : dget n (passImmediate its d) with
  | some cur =>
    obtain ⟨o, h1, h2⟩ := stepApp_some (mods n its) cur
    rw [h1]; exact h2
  | none =>
    rw [ho] at h
    cases hm : mods n its with
    | nil => simp [extended, appends, prepends]
    | cons v ms =>
      obtain ⟨o, h1, h2⟩ := stepApp_none ms (h.resolve_left (by simp) v (by rw [hm]; simp))
      rw [h1]; exact h2

/-! ## keys -/

theorem passImmediate_keys {its : List Item} {d : ExpDict} (hd : (d.map (·.1)).Nodup) :
    ((passImmediate its d).map (·.1)).Nodup := by
  induction its generalizing d with
  | nil => exact hd
  | cons x rest ih =>
    unfold passImmediate
    split
    · split
      · exact ih hd
      · split
        · apply ih
          unfold ddel
          exact (List.filter_sublist.map _).nodup hd
        · exact ih hd
    · split
      · exact ih hd
      · apply ih
        apply dset_nodup
        split
        · exact hd
        · exact dset_nodup hd
    · exact ih hd

theorem passAppend_keys {its : List Item} {d : ExpDict} (hd : (d.map (·.1)).Nodup) :
    ((passAppend its d).map (·.1)).Nodup := by
  induction its generalizing d with
  | nil => exact hd
  | cons x rest ih =>
    unfold passAppend
    split
    · split
      · exact ih hd
      · simp only
        split
        · exact ih (dset_nodup hd)
        · split
          · exact ih (dset_nodup hd)
          · split
            · exact ih (dset_nodup hd)
            · exact ih hd
    · exact ih hd

theorem passRemove_keys {its : List Item} {d : ExpDict} (hd : (d.map (·.1)).Nodup) :
    ((passRemove its d).map (·.1)).Nodup := by
  induction its generalizing d with
  | nil => exact hd
  | cons x rest ih =>
    unfold passRemove
    split
    · split
      · exact ih hd
      · have : ((if dhas (varNameCompleteNoModifiers x.delim ‹VarData›) d then d else dset (varNameCompleteNoModifiers x.delim ‹VarData›) none d).map (·.1)).Nodup := by
          split
          · exact hd
          · exact dset_nodup hd
        simp only
        split
        · exact ih (dset_nodup this)
        · exact ih this
    · exact ih hd

theorem finalDict_keys {its : List Item} {d : ExpDict} (hd : (d.map (·.1)).Nodup) :
    ((finalDict its d).map (·.1)).Nodup := passRemove_keys (passAppend_keys (passImmediate_keys hd))

/-! ## the last loop -/

/-- what one entry of the dictionary adds to the result for `key` -/
def contrib (W : World) (s : Stash) (file key : Str) (kv : Str × Option Str) : List Str :=
  match expandTerm W s file kv.1, expandTerm W s file (kv.2.getD []) with
  | .ok k, .ok t => if k = key then safeLinesplit t else []
  | _, _ => []

theorem explode_ok {W : World} {s : Stash} {file : Str} {d : ExpDict} {acc r : List (Str × List Str)}
    (h : explode W s file d acc = .ok r) :
    (∀ kv ∈ d, ∃ k t, expandTerm W s file kv.1 = .ok k ∧ expandTerm W s file (kv.2.getD []) = .ok t) ∧
    (∀ key, (dget key r).getD [] = (dget key acc).getD [] ++ (d.map (contrib W s file key)).flatten) ∧
    (∀ key, (dget key r).isSome = true ↔ (dget key acc).isSome = true ∨ ∃ kv ∈ d, expandTerm W s file kv.1 = .ok key) := by
  induction d generalizing acc with
  | nil =>
    unfold explode at h
    cases h
    simp
  | cons kv rest ih =>
    obtain ⟨k, v⟩ := kv
    unfold explode at h
    cases hk : expandTerm W s file k with
    | error e => rw [hk] at h; cases h
    | ok k' =>
      cases ht : expandTerm W s file (v.getD []) with
      | error e => rw [hk, ht] at h; cases h
      | ok t =>
        rw [hk, ht] at h
        obtain ⟨h1, h2, h3⟩ := ih h
        refine ⟨?_, ?_, ?_⟩
        · intro kv hkv
          rcases List.mem_cons.1 hkv with rfl | hkv
          · exact ⟨k', t, hk, ht⟩
          · exact h1 kv hkv
        · intro key
          rw [h2 key, dget_dset]
          simp only [List.map_cons, List.flatten_cons, contrib, hk, ht]
          by_cases he : key = k'
          · subst he; simp
          · rw [if_neg he, if_neg (Ne.symm he)]; simp
        · intro key
          rw [h3 key, dget_dset]
          by_cases he : key = k'
          · subst he; simp [hk]
          · rw [if_neg he]
            constructor
            · rintro (hh | ⟨kv, hh, hx⟩)
              · exact Or.inl hh
              · exact Or.inr ⟨kv, by simp [hh], hx⟩
            · rintro (hh | ⟨kv, hh, hx⟩)
              · exact Or.inl hh
              · rcases List.mem_cons.1 hh with rfl | hh
                · rw [hk] at hx; cases hx; exact absurd rfl he
                · exact Or.inr ⟨kv, hh, hx⟩

/-- if every key stands for itself, the result for a key is the items of its value -/
theorem explode_plain {W : World} {s : Stash} {file : Str} {d : ExpDict} {r : List (Str × List Str)}
    (h : explode W s file d [] = .ok r) (hn : (d.map (·.1)).Nodup) (hk : ∀ k ∈ d.map (·.1), expandTerm W s file k = .ok k) (n : Str) :
    ((dget n r).isSome = true ↔ (dget n d).isSome = true) ∧
    ∀ v, dget n d = some v → ∃ t, expandTerm W s file (v.getD []) = .ok t ∧ dget n r = some (safeLinesplit t) := by
  obtain ⟨h1, h2, h3⟩ := explode_ok h
  have hs : (dget n r).isSome = true ↔ (dget n d).isSome = true := by
    rw [h3, dget_isSome_iff (d := d)]
    simp only [dget, Option.isSome_none, Bool.false_eq_true, false_or, List.mem_map]
    constructor
    · rintro ⟨kv, hkv, he⟩
      rw [hk kv.1 (List.mem_map.2 ⟨kv, hkv, rfl⟩)] at he
      cases he
      exact ⟨kv, hkv, rfl⟩
    · rintro ⟨kv, hkv, rfl⟩
      exact ⟨kv, hkv, hk kv.1 (List.mem_map.2 ⟨kv, hkv, rfl⟩)⟩
  refine ⟨hs, fun v hv => ?_⟩
  have hm := dget_mem hv
  obtain ⟨k, t, hk1, ht⟩ := h1 _ hm
  refine ⟨t, ht, ?_⟩
  have h4 := h2 n
  simp only [dget, Option.getD_none, List.nil_append] at h4
  have h5 : (d.map (contrib W s file n)).flatten = safeLinesplit t := by
    clear h2 h3 h4 hs h h1
    induction d with
    | nil => simp at hm
    | cons kv d ih =>
      obtain ⟨k0, v0⟩ := kv
      simp only [List.map_cons, List.flatten_cons, List.nodup_cons] at hn ⊢
      have hk0 := hk k0 (by simp)
      unfold dget at hv
      by_cases he : k0 = n
      · subst he
        simp only [beq_self_eq_true, if_true, Option.some.injEq] at hv
        subst hv
        have hrest : (d.map (contrib W s file k0)).flatten = [] := by
          rw [List.flatten_eq_nil_iff]
          intro l hl
          obtain ⟨kv, hkv, rfl⟩ := List.mem_map.1 hl
          unfold contrib
          rw [hk kv.1 (by simp; exact Or.inr ⟨kv.2, hkv⟩)]
          split
          · rename_i hx hy
            cases hx
            rw [if_neg]
            intro hx
            exact hn.1 (by rw [← hx]; exact List.mem_map.2 ⟨kv, hkv, rfl⟩)
          · rfl
        rw [hrest]
        unfold contrib
        simp only [hk0, ht, if_true, List.append_nil]
      · have : ¬ (k0 == n) = true := by simpa using he
        rw [if_neg this] at hv
        have hc : contrib W s file n (k0, v0) = [] := by
          unfold contrib
          rw [hk0]
          split
          · rename_i hx hy; cases hx; rw [if_neg he]
          · rfl
        rw [hc, List.nil_append]
        exact ih hn.2 (fun k hk' => hk k (by simp at hk' ⊢; exact Or.inr hk')) hv (dget_mem hv)
  rw [h5] at h4
  obtain ⟨l, hl⟩ := Option.isSome_iff_exists.1 (hs.2 (by rw [hv]; rfl))
  rw [hl] at h4 ⊢
  simp only [Option.getD_some] at h4
  rw [h4]

/-! ## the start -/

theorem mergeBase_dget {l : List (Str × J)} {d d' : ExpDict} (h : mergeBase l d = .ok d') (hn : (l.map (·.1)).Nodup) (n : Str) :
    (∀ t, (n, J.str t) ∈ l → dget n d' = some (some t)) ∧ (n ∉ l.map (·.1) → dget n d' = dget n d) ∧
    (∀ j, (n, j) ∈ l → ∃ t, j = .str t) ∧ ((d.map (·.1)).Nodup → (d'.map (·.1)).Nodup) := by
  induction l generalizing d with
  | nil => unfold mergeBase at h; cases h; simp
  | cons kv l ih =>
    obtain ⟨k, j⟩ := kv
    cases j with
    | str v =>
      unfold mergeBase at h
      simp only [List.map_cons, List.nodup_cons] at hn
      obtain ⟨h1, h2, h3, h4⟩ := ih h hn.2
      refine ⟨?_, ?_, ?_, fun hd => h4 (dset_nodup hd)⟩
      · intro t ht
        rcases List.mem_cons.1 ht with he | ht
        · cases he
          rw [h2 hn.1, dget_dset_same]
        · exact h1 t ht
      · intro hni
        simp only [List.map_cons, List.mem_cons, not_or] at hni
        rw [h2 hni.2, dget_dset_ne _ _ hni.1]
      · intro j hj
        rcases List.mem_cons.1 hj with he | hj
        · cases he; exact ⟨v, rfl⟩
        · exact h3 j hj
    | dict _ => unfold mergeBase at h; cases h
    | list _ => unfold mergeBase at h; cases h

theorem kv_get_mem {b : KV} {n : Str} {j : J} (h : b.get n = some j) : (n, j) ∈ b.toList := by
  match b with
  | .nil => simp [KV.get] at h
  | .cons k v r =>
    unfold KV.get at h
    unfold KV.toList
    by_cases hk : k = n
    · subst hk; simp at h; simp [h]
    · simp [hk] at h; exact List.mem_cons_of_mem _ (kv_get_mem h)

theorem kv_keys_toList (b : KV) : b.toList.map (·.1) = b.keys := by
  match b with
  | .nil => rfl
  | .cons k v r => simp [KV.toList, KV.keys, kv_keys_toList r]

theorem kv_get_none_iff {b : KV} {n : Str} : b.get n = none ↔ n ∉ b.keys := by
  match b with
  | .nil => simp [KV.get, KV.keys]
  | .cons k v r =>
    unfold KV.get KV.keys
    by_cases hk : k = n
    · subst hk; simp
    · simp [hk, Ne.symm hk, kv_get_none_iff (b := r) (n := n)]

theorem expInit_base {s : Stash} {file : Str} {d : ExpDict} (h : expInit s file = .ok d) :
    ∃ b, setsBase s.consts = .ok (.dict b) ∧
      (b.keys.Nodup → (d.map (·.1)).Nodup ∧ (∀ n, ∃ o, Base s file n o ∧ dget n d = o.map some) ∧
        (∀ n, Base s file n none ↔ dget n d = none) ∧
        ∀ k ∈ d.map (·.1), k ∈ b.keys ∨ k ∈ [c!"PN", c!"PV", c!"BPN"]) := by
  unfold expInit at h
  simp only at h
  cases hb : setsBase s.consts with
  | error e => rw [hb] at h; cases h
  | ok j =>
    cases j with
    | list l => rw [hb] at h; cases h
    | str l => rw [hb] at h; cases h
    | dict b =>
      rw [hb] at h
      simp only at h
      refine ⟨b, rfl, fun hn => ?_⟩
      have hn' : (b.toList.map (·.1)).Nodup := by rw [kv_keys_toList]; exact hn
      have key : ∀ n, ∃ o, Base s file n o ∧ dget n d = o.map some := by
        intro n
        obtain ⟨h1, h2, h3, -⟩ := mergeBase_dget h hn' n
        cases hg : b.get n with
        | some j =>
          obtain ⟨t, rfl⟩ := h3 j (kv_get_mem hg)
          exact ⟨some t, Base.base hb hg, h1 t (kv_get_mem hg)⟩
        | none =>
          have h2' := h2 (by rw [kv_keys_toList]; exact kv_get_none_iff.1 hg)
          by_cases hm : n ∈ [c!"PN", c!"PV", c!"BPN"]
          · have hm' := hm
            simp only [List.mem_cons, List.not_mem_nil, or_false] at hm'
            rcases hm' with rfl | rfl | rfl
            · exact ⟨_, Base.name hb hg hm .pn, by rw [h2']; rfl⟩
            · cases hv : guessRecipeVersion file with
              | none => exact ⟨_, Base.name hb hg hm (.pvDefault (Or.inl hv)), by rw [h2', hv]; rfl⟩
              | some v =>
                by_cases hve : v = []
                · subst hve
                  exact ⟨_, Base.name hb hg hm (.pvDefault (Or.inr hv)), by rw [h2', hv]; rfl⟩
                · refine ⟨_, Base.name hb hg hm (.pv hv hve), ?_⟩
                  rw [h2', hv]
                  simp [dget, hve]
            · exact ⟨_, Base.name hb hg hm .bpn, by rw [h2']; rfl⟩
          · refine ⟨none, Base.none hb hg hm, ?_⟩
            rw [h2', dget_eq_none_iff.2]
            · rfl
            · simpa using hm
      have hmem : ∀ k ∈ d.map (·.1), k ∈ b.keys ∨ k ∈ [c!"PN", c!"PV", c!"BPN"] := by
        intro k hk
        by_cases hkb : k ∈ b.keys
        · exact Or.inl hkb
        · obtain ⟨-, h2, -, -⟩ := mergeBase_dget h hn' k
          have h2' := h2 (by rw [kv_keys_toList]; exact hkb)
          refine Or.inr ?_
          have := dget_isSome_iff.2 hk
          rw [h2', dget_isSome_iff] at this
          simpa using this
      refine ⟨(mergeBase_dget h hn' []).2.2.2 (by simp), key, ?_, hmem⟩
      intro n
      constructor
      · intro hbn
        cases hbn with
        | none hb' hg hnn =>
          rw [hb] at hb'
          cases hb'
          obtain ⟨-, h2, -, -⟩ := mergeBase_dget h hn' n
          rw [h2 (by rw [kv_keys_toList]; exact kv_get_none_iff.1 hg), dget_eq_none_iff]
          simpa using hnn
      · intro hd
        obtain ⟨o, ho, ho'⟩ := key n
        rw [hd] at ho'
        cases o with
        | none => exact ho
        | some t => cases ho'

theorem base_unique {s : Stash} {file n : Str} {o o' : Option Str} (h : Base s file n o) (h' : Base s file n o') : o = o' := by
  have hff : ∀ {t t'}, n ∈ [c!"PN", c!"PV", c!"BPN"] → FromFileName file n t → FromFileName file n t' → t = t' := by
    intro t t' hm h1 h2
    cases h1 <;> cases h2 <;> first | rfl | (simp_all; done)
  cases h with
  | base hb hg =>
    cases h' with
    | base hb' hg' => rw [hb] at hb'; cases hb'; rw [hg] at hg'; cases hg'; rfl
    | name hb' hg' _ _ => rw [hb] at hb'; cases hb'; rw [hg] at hg'; cases hg'
    | none hb' hg' _ => rw [hb] at hb'; cases hb'; rw [hg] at hg'; cases hg'
  | name hb hg hm hf =>
    cases h' with
    | base hb' hg' => rw [hb] at hb'; cases hb'; rw [hg] at hg'; cases hg'
    | name hb' hg' _ hf' => rw [hff hm hf hf']
    | none hb' hg' hm' => exact absurd hm hm'
  | none hb hg hm =>
    cases h' with
    | base hb' hg' => rw [hb] at hb'; cases hb'; rw [hg] at hg'; cases hg'
    | name hb' hg' hm' _ => exact absurd hm' hm
    | none _ _ _ => rfl

/-! ## the whole function -/

theorem expandTerm_plain {W : World} {s : Stash} {file k : Str} {b : J} (hb : setsBase s.consts = .ok b) (h1 : '$' ∉ k) (h2 : '(' ∉ k) :
    expandTerm W s file k = .ok k := by
  unfold expandTerm
  refine expandTermS_keep W s hb file [] k ?_ ?_ ?_
  · rintro n ⟨h, -⟩
    exact absurd (h.subset (by simp [refText])) h1
  · rintro n ⟨q, q', args, -, h, -⟩
    exact absurd (h.subset (by simp)) h2
  · intro h
    exact absurd (List.IsInfix.subset h (show '(' ∈ c!"oe.utils.read_file(" by decide)) h2

theorem expandVar_ok {W : World} {s : Stash} {file : Str} {att val : Arg} {nolink : Bool} {r : List (Str × List Str)}
    (h : expandVar W s (some file) att val nolink = .ok r) :
    ∃ its d, InOrder s file att val nolink its ∧ expInit s file = .ok d ∧ explode W s file (finalDict its d) [] = .ok r := by
  unfold expandVar at h
  simp only at h
  cases hd : expInit s file with
  | error e => rw [hd] at h; cases h
  | ok d =>
    rw [hd] at h
    refine ⟨_, d, ⟨?_, ?_, ?_⟩, rfl, h⟩
    · intro x
      rw [mem_sortBy]
      unfold expandVarItems
      rw [List.mem_append, mem_getItemsFor, mem_getItemsFor]
      tauto
    · exact (sortBy_sorted (le := lineLe) (fun a b => by unfold lineLe; simp; omega)
        (fun a b c h1 h2 => by unfold lineLe at *; simp at *; omega) _).imp (fun h => by simpa [lineLe] using h)
    · refine (sortBy_perm _ _).nodup_iff.2 ?_
      unfold expandVarItems
      rw [List.nodup_append]
      refine ⟨reduceL_nodup _ _ _ _, reduceL_nodup _ _ _ _, ?_⟩
      rintro x hx y hy rfl
      have h1 := ((mem_getItemsFor _ _ _ _).1 hx).2.classifier (by simp [given])
      have h2 := ((mem_getItemsFor _ _ _ _).1 hy).2.classifier (by simp [given])
      simp [given] at h1 h2
      rw [h1] at h2
      exact absurd h2 (by decide)

theorem eventOf_assign {n : Str} {x : Item} {op v : Str} (h : eventOf n x = some (.assign op v)) :
    ∃ vd, x.payload = .variable vd ∧ varNameCompleteNoModifiers x.delim vd = n := by
  unfold eventOf at h
  cases hp : x.payload with
  | unset m flag =>
    simp only [hp] at h
    split at h <;> cases h
  | «variable» vd =>
    simp only [hp] at h
    by_cases hc : ¬ Modifies vd ∧ varNameCompleteNoModifiers x.delim vd = n
    · exact ⟨vd, rfl, hc.2⟩
    · rw [if_neg hc] at h; cases h
  | _ => simp only [hp] at h; cases h

theorem finalDict_names {s : Stash} {its : List Item} {d : ExpDict} {b : KV} (hb : setsBase s.consts = .ok (.dict b))
    (hd : ∀ k ∈ d.map (·.1), k ∈ b.keys ∨ k ∈ [c!"PN", c!"PV", c!"BPN"]) : ∀ k ∈ (finalDict its d).map (·.1), ResultName s its k := by
  intro k hk
  rw [← dget_isSome_iff, finalDict_isSome] at hk
  rcases hk with hk | ⟨op, v, hk⟩ | ⟨-, hk⟩
  · obtain ⟨v, t, hm⟩ := List.exists_cons_of_ne_nil hk
    have : v ∈ mods k its := by rw [hm]; simp
    obtain ⟨x, hx, hmo⟩ := List.mem_filterMap.1 this
    unfold modOf at hmo
    cases hp : x.payload with
    | «variable» vd =>
      simp only [hp] at hmo
      by_cases hc : Modifies vd ∧ varNameCompleteNoModifiers x.delim vd = k
      · exact Or.inl ⟨x, hx, vd, hp, hc.2⟩
      · rw [if_neg hc] at hmo; cases hmo
    | _ => simp only [hp] at hmo; cases hmo
  · have : Event.assign op v ∈ events k its := List.mem_of_getLast? hk
    obtain ⟨x, hx, he⟩ := List.mem_filterMap.1 this
    obtain ⟨vd, h1, h2⟩ := eventOf_assign he
    exact Or.inl ⟨x, hx, vd, h1, h2⟩
  · rw [dget_isSome_iff] at hk
    rcases hd k hk with h | h
    · exact Or.inr (Or.inl ⟨b, hb, h⟩)
    · exact Or.inr (Or.inr h)

/-- the result for a name is the items of the expansion of its text -/
theorem expandVar_value {W : World} {s : Stash} {file : Str} {its : List Item} {d : ExpDict} {r : List (Str × List Str)} {b : KV}
    (hb : setsBase s.consts = .ok (.dict b)) (hbn : b.keys.Nodup) (hd : expInit s file = .ok d)
    (h : explode W s file (finalDict its d) [] = .ok r) (hp : PlainNames s its) (n : Str) {base : Option Str} (hbase : Base s file n base) :
    dget n d = base.map some ∧
    ((dget n r).isSome = true ↔ Present base (events n its) (mods n its)) ∧
    (Present base (events n its) (mods n its) →
      ∃ t, expandTerm W s file (((dget n (finalDict its d)).getD none).getD []) = .ok t ∧ dget n r = some (safeLinesplit t)) := by
  obtain ⟨b', hb', hall⟩ := expInit_base hd
  rw [hb] at hb'
  cases hb'
  obtain ⟨h1, h2, h3, h4⟩ := hall hbn
  obtain ⟨o, ho, ho'⟩ := h2 n
  have := base_unique hbase ho
  subst this
  have hkeys : ∀ k ∈ (finalDict its d).map (·.1), expandTerm W s file k = .ok k := by
    intro k hk
    obtain ⟨h5, h6⟩ := hp k (finalDict_names hb h4 k hk)
    exact expandTerm_plain hb h5 h6
  obtain ⟨h5, h6⟩ := explode_plain h (finalDict_keys h1) hkeys n
  have hpres : (dget n (finalDict its d)).isSome = true ↔ Present base (events n its) (mods n its) := by
    rw [finalDict_isSome, ho']
    unfold Present
    cases base <;> simp
  refine ⟨ho', by rw [h5, hpres], fun hpr => ?_⟩
  obtain ⟨v, hv⟩ := Option.isSome_iff_exists.1 (hpres.2 hpr)
  obtain ⟨t, ht, hr⟩ := h6 v hv
  exact ⟨t, by rw [hv]; exact ht, hr⟩

theorem immediateOp_other (x : Item) (v : VarData) (cur : Option Str) (h1 : ∀ op ∈ operators, v.varOp ≠ c!" " ++ op ++ c!" ")
    (h2 : ¬ inlinePlaceholder <:+: varValueStripped v) : immediateOp x v cur = cur := by
  have hni : hasSub inlineBlock (varValueStripped v) = false := by rw [← Bool.not_eq_true, hasSub_iff]; exact h2
  have hne : ∀ op ∈ operators, (v.varOp == c!" " ++ op ++ c!" ") = false := fun op ho => by simpa using h1 op ho
  have e1 := hne c!"=" (by decide)
  have e2 := hne c!":=" (by decide)
  have e3 := hne c!"?=" (by decide)
  have e4 := hne c!"??=" (by decide)
  have e5 := hne c!"+=" (by decide)
  have e6 := hne c!"=+" (by decide)
  have e7 := hne c!".=" (by decide)
  have e8 := hne c!"=." (by decide)
  simp only [List.cons_append, List.nil_append] at e1 e2 e3 e4 e5 e6 e7 e8
  unfold immediateOp
  simp only [hni, e1, e2, e3, e4, e5, e6, e7, e8, Bool.false_eq_true, if_false, Bool.or_self, Bool.false_and]

end Oelint

import Verif.Lemmas.ExpandVar
import Verif.Lemmas.Words
import Verif.Lemmas.Sample
/-! The values of variables: C52, C53, C54, C55. -/
set_option linter.unusedSectionVars false
namespace Oelint
section
variable [Uni]
open Spec

/-! ## C53

Full statement: `append`, `prepend` and `remove` act after all immediate operators, `remove` last, and `remove` deletes whole items. The
order is right (`C53_modifiers_partial`), but `remove` deletes the text wherever it occurs (`C53_substring_counterexample`), and a
`remove` that comes first for a variable without value sets the value (`C53_remove_first_counterexample`). -/

/-- C53, partial: the value is what is prepended (the last first), the immediate value as bitbake defines it, and what is appended,
from which the removed texts are deleted. Missing: see above; operators are written with one blank on each side (C55), `??=` does
not come before other operators (C52), no value contains inline python (C52). -/
theorem C53_modifiers_partial (W : World) (s : Stash) (file : Str) (att val : Arg) (nolink : Bool) (r : List (Str × List Str)) (b : KV)
    (h : expandVar W s (some file) att val nolink = .ok r) (hb : setsBase s.consts = .ok (.dict b)) (hbn : b.keys.Nodup) :
    ∃ its, InOrder s file att val nolink its ∧ (PlainNames s its → ∀ n base, Base s file n base → OneBlank n its → NoInline n its →
      WeakLast ⟨base, none⟩ (events n its) →
      ((dget n r).isSome = true ↔ Present base (events n its) (mods n its)) ∧
      (Present base (events n its) (mods n its) → KnownFirst base (events n its) (mods n its) →
        Gives W s file r n (without (extended ((Cell.run ⟨base, none⟩ (events n its)).get.getD []) (mods n its)) (removes (mods n its))))) := by
  obtain ⟨its, d, h1, h2, h3⟩ := expandVar_ok h
  refine ⟨its, h1, fun hp n base hbase ho hi hw => ?_⟩
  obtain ⟨h4, h5, h6⟩ := expandVar_value hb hbn h2 h3 hp n hbase
  refine ⟨h5, fun hpr hk => ?_⟩
  obtain ⟨t, ht, hr⟩ := h6 hpr
  have himm : (dget n (passImmediate its d)).getD none = (Cell.run ⟨base, none⟩ (events n its)).get := by
    rw [passImmediate_dget]
    refine immediate_fits ho hi hw ⟨?_, fun _ hh => absurd rfl hh⟩
    rw [h4]
    cases base <;> rfl
  have htext := finalDict_text n its d (by
    rcases hk with hk | hk
    · left
      rw [passImmediate_dget, immediate_known, h4]
      rcases hk with hk | hk | hk
      · exact absurd rfl hk
      · exact Or.inl hk
      · refine Or.inr ⟨hk.1, ?_⟩
        cases base with
        | none => exact absurd rfl hk.2
        | some _ => rfl
    · exact Or.inr hk)
  rw [himm] at htext
  rw [htext] at ht
  exact ⟨t, ht, hr⟩

/-- C53, partial: `remove` deletes whole items if every removed text is one item that occurs in no other item of the value, and the
value has neither references nor continuation marks. -/
theorem C53_whole_items_partial (W : World) (s : Stash) (file : Str) (att val : Arg) (nolink : Bool) (r : List (Str × List Str)) (b : KV)
    (h : expandVar W s (some file) att val nolink = .ok r) (hb : setsBase s.consts = .ok (.dict b)) (hbn : b.keys.Nodup) :
    ∃ its, InOrder s file att val nolink its ∧ (PlainNames s its → ∀ n base, Base s file n base → OneBlank n its → NoInline n its →
      WeakLast ⟨base, none⟩ (events n its) → Present base (events n its) (mods n its) → KnownFirst base (events n its) (mods n its) →
      ∀ t ws, t = extended ((Cell.run ⟨base, none⟩ (events n its)).get.getD []) (mods n its) → Words (fun c => reSpace c = true) t ws →
        '$' ∉ t ∧ '(' ∉ t ∧ contMark ∉ t →
        (∀ w ∈ removes (mods n its), w ≠ [] ∧ (∀ c ∈ w, reSpace c = false) ∧ ∀ u ∈ ws, u ≠ w → ¬ w <:+: u) →
        dget n r = some (ws.filter (fun u => u ∉ removes (mods n its)))) := by
  obtain ⟨its, h1, h2⟩ := C53_modifiers_partial W s file att val nolink r b h hb hbn
  refine ⟨its, h1, fun hp n base hbase ho hi hw hpr hk t ws ht hws hpl hrm => ?_⟩
  obtain ⟨t', h3, h4⟩ := (h2 hp n base hbase ho hi hw).2 hpr hk
  rw [← ht] at h3
  have hwords : Words (fun c => reSpace c = true) (without t (removes (mods n its))) (ws.filter (fun u => u ∉ removes (mods n its))) :=
    words_remove_all hws (fun w hm => ⟨(hrm w hm).1, fun c hc => by simp [(hrm w hm).2.1 c hc], (hrm w hm).2.2⟩)
  have hmem : ∀ c ∈ without t (removes (mods n its)), c ∈ t := fun c hc => removes_mem hc
  rw [expandTerm_plain hb (fun hc => hpl.1 (hmem _ hc)) (fun hc => hpl.2.1 (hmem _ hc))] at h3
  cases h3
  rw [h4, safeLinesplit_of_tokens (tokens_of_words hwords (fun hc => hpl.2.2 (hmem _ hc)))]

/-! ## C52

Full statement: the operators act in the order of `Line` as bitbake defines them. False for `??=`, which acts like `?=`
(`C52_weak_counterexample`), and for values with inline python, which replace the value whatever the operator is
(`C52_inline_counterexample`). -/

/-- C52, partial: the operators act in the order of `Line` as bitbake defines them. Missing: `??=` followed by other
operators than `=` and `:=`; values with inline python; operators not written with one blank on each side (C55). -/
theorem C52_operators_partial (W : World) (s : Stash) (file : Str) (att val : Arg) (nolink : Bool) (r : List (Str × List Str)) (b : KV)
    (h : expandVar W s (some file) att val nolink = .ok r) (hb : setsBase s.consts = .ok (.dict b)) (hbn : b.keys.Nodup) :
    ∃ its, InOrder s file att val nolink its ∧ (PlainNames s its → ∀ n base, Base s file n base → OneBlank n its → NoInline n its →
      WeakLast ⟨base, none⟩ (events n its) → mods n its = [] →
      (Present base (events n its) [] → Gives W s file r n ((Cell.run ⟨base, none⟩ (events n its)).get.getD [])) ∧
      (¬ Present base (events n its) [] → dget n r = none)) := by
  obtain ⟨its, h1, h2⟩ := C53_modifiers_partial W s file att val nolink r b h hb hbn
  refine ⟨its, h1, fun hp n base hbase ho hi hw hm => ?_⟩
  obtain ⟨h3, h4⟩ := h2 hp n base hbase ho hi hw
  rw [hm] at h3 h4
  refine ⟨fun hpr => ?_, fun hpr => ?_⟩
  · have := h4 hpr (Or.inl hpr)
    simpa [without, removes, extended, appends, prepends] using this
  · rw [← h3] at hpr
    simpa using hpr

/-! ## C54

Full statement: an `unset` without flag discards everything assigned before it; an `unset` of a flag changes nothing. What is appended,
prepended or removed before the `unset` stays (`C54_counterexample`), and the parser gives the `Unset` only the first character of the
name (C13, `C54_name_counterexample`). -/

/-- C54, partial: of the immediate assignments only those behind the last `unset` count, and not the value the variable starts with. Missing:
`append`, `prepend` and `remove` before the `unset` are not discarded. -/
theorem C54_unset_partial (W : World) (s : Stash) (file : Str) (att val : Arg) (nolink : Bool) (r : List (Str × List Str)) (b : KV)
    (h : expandVar W s (some file) att val nolink = .ok r) (hb : setsBase s.consts = .ok (.dict b)) (hbn : b.keys.Nodup) :
    ∃ its, InOrder s file att val nolink its ∧ (PlainNames s its → ∀ n base pre post, Base s file n base → OneBlank n its → NoInline n its →
      WeakLast ⟨base, none⟩ (events n its) → mods n its = [] → events n its = pre ++ .unset :: post →
      (post = [] → dget n r = none) ∧
      ((∃ op v, post.getLast? = some (.assign op v)) → Gives W s file r n ((Cell.run ⟨none, none⟩ post).get.getD []))) := by
  obtain ⟨its, h1, h2⟩ := C52_operators_partial W s file att val nolink r b h hb hbn
  refine ⟨its, h1, fun hp n base pre post hbase ho hi hw hm he => ?_⟩
  obtain ⟨h3, h4⟩ := h2 hp n base hbase ho hi hw hm
  constructor
  · rintro rfl
    apply h4
    rintro (hx | ⟨op, v, hx⟩ | ⟨hx, -⟩)
    · exact hx rfl
    · rw [he] at hx; simp at hx
    · rw [he] at hx; simp at hx
  · rintro ⟨op, v, hx⟩
    have := h3 (Or.inr (Or.inl ⟨op, v, by
      rw [he]
      cases post with
      | nil => simp at hx
      | cons a t => rw [List.getLast?_append, List.getLast?_cons_cons, hx]; rfl⟩))
    rw [he] at this
    have hrun : Cell.run ⟨base, none⟩ (pre ++ .unset :: post) = Cell.run ⟨none, none⟩ post := by
      unfold Cell.run
      rw [List.foldl_append, List.foldl_cons]
      rfl
    rwa [hrun] at this

/-- C54, partial: an `unset` of a flag is no event for any variable: all results are those without it (`C52_operators_partial` and
`C53_modifiers_partial` give the result from the events and modifiers). -/
theorem C54_flag_partial (n m flag : Str) (pre post : List Item) (x : Item) (hx : x.payload = .unset m flag) (hf : flag ≠ []) :
    events n (pre ++ x :: post) = events n (pre ++ post) ∧ mods n (pre ++ x :: post) = mods n (pre ++ post) ∧
    ∀ d, dget n (finalDict (pre ++ x :: post) d) = dget n (finalDict (pre ++ post) d) := by
  have h1 : eventOf n x = none := by unfold eventOf; rw [hx]; simp [hf]
  have h2 : modOf n x = none := by unfold modOf; rw [hx]
  have h3 : ∀ o, stepItem n o x = o := by intro o; unfold stepItem; rw [hx]; simp [hf]
  have h4 : mods n (pre ++ x :: post) = mods n (pre ++ post) := by
    unfold mods; rw [List.filterMap_append, List.filterMap_cons, h2, List.filterMap_append]
  refine ⟨by unfold events; rw [List.filterMap_append, List.filterMap_cons, h1, List.filterMap_append], h4, ?_⟩
  intro d
  unfold finalDict
  rw [passRemove_dget, passRemove_dget, passAppend_dget, passAppend_dget, passImmediate_dget, passImmediate_dget, h4,
    List.foldl_append, List.foldl_cons, h3, ← List.foldl_append]

/-! ## C55

Full statement: the blanks around an operator do not matter. False: with other blanks than one on each side the assignment is not
seen (`C55_counterexample`). -/

/-- C55, what happens with other spellings: a variable whose assignments are all written otherwise keeps the value it starts with
(nothing, for almost all variables), as if there were no assignment. (With one blank on each side: C52.) -/
theorem C55_other_spelling_partial (W : World) (s : Stash) (file : Str) (att val : Arg) (nolink : Bool) (r : List (Str × List Str)) (b : KV)
    (h : expandVar W s (some file) att val nolink = .ok r) (hb : setsBase s.consts = .ok (.dict b)) (hbn : b.keys.Nodup) :
    ∃ its, InOrder s file att val nolink its ∧ (PlainNames s its → ∀ n base, Base s file n base → NoInline n its → mods n its = [] →
      Event.unset ∉ events n its → events n its ≠ [] →
      (∀ x ∈ its, ∀ v, x.payload = .variable v → varNameCompleteNoModifiers x.delim v = n → ∀ op ∈ operators, v.varOp ≠ c!" " ++ op ++ c!" ") →
      Gives W s file r n (base.getD [])) := by
  obtain ⟨its, d, h1, h2, h3⟩ := expandVar_ok h
  refine ⟨its, h1, fun hp n base hbase hi hm hu hne hsp => ?_⟩
  obtain ⟨h4, h5, h6⟩ := expandVar_value hb hbn h2 h3 hp n hbase
  have hpr : Present base (events n its) (mods n its) := by
    refine Or.inr (Or.inl ?_)
    obtain ⟨e, he⟩ := List.getLast?_isSome.2 hne |> Option.isSome_iff_exists.1
    cases e with
    | assign op v => exact ⟨op, v, he⟩
    | unset => exact absurd (List.mem_of_getLast? he) hu
  obtain ⟨t, ht, hr⟩ := h6 hpr
  have hfold : ∀ (l : List Item) (o : Option (Option Str)), (∀ x ∈ l, x ∈ its) →
      (l.foldl (stepItem n) o).getD none = o.getD none := by
    intro l
    induction l with
    | nil => intro o _; rfl
    | cons x l ih =>
      intro o hl
      rw [List.foldl_cons, ih _ (fun y hy => hl y (by simp [hy]))]
      have hx := hl x (by simp)
      unfold stepItem
      cases hpx : x.payload with
      | unset m flag =>
        simp only
        by_cases hc : m = n ∧ flag = []
        · exact absurd (List.mem_filterMap.2 ⟨x, hx, by unfold eventOf; simp only [hpx, if_pos hc]⟩) hu
        · rw [if_neg hc]
      | «variable» v =>
        simp only
        by_cases hc : ¬ Modifies v ∧ varNameCompleteNoModifiers x.delim v = n
        · rw [if_pos hc, immediateOp_other x v _ (hsp x hx v hpx hc.2) (hi _ (List.mem_filterMap.2 ⟨x, hx, by
            unfold eventOf; simp only [hpx, if_pos hc]; rfl⟩) _ _ rfl)]
          rfl
        · rw [if_neg hc]
      | _ => rfl
  have htext := finalDict_text n its d (Or.inr (by rw [hm]; simp))
  rw [passImmediate_dget, hfold its _ (fun _ h => h), hm, h4] at htext
  have h0 : ((dget n (finalDict its d)).getD none).getD [] = base.getD [] := by
    rw [htext]
    cases base <;> simp [removes, extended, appends, prepends]
  rw [h0] at ht
  exact ⟨t, ht, hr⟩

end

/-! ## counterexamples -/

attribute [local instance] Sample.asciiUni

/-- a recipe with this text is added, then `ExpandVar` is asked for the variable `A` -/
def expandSample (text : Str) : Option (List Str) :=
  let W := Sample.world [(c!"/w/a_1.bb", text)]
  match addFile W 3 c!"/w/a_1.bb" 0 none Sample.stash with
  | (.ok _, s) =>
    match expandVar W s (some c!"/w/a_1.bb") .none .none false with
    | .ok r => dget c!"A" r
    | .error _ => none
  | _ => none

/-- C52: a `??=` wins over a later `?=` (bitbake: `2`) -/
theorem C52_weak_counterexample : expandSample c!"A ??= \"1\"\nA ?= \"2\"\n" = some [c!"1"] ∧
    (Spec.Cell.run ⟨none, none⟩ [.assign c!"??=" c!"1", .assign c!"?=" c!"2"]).get = some c!"2" := by
  constructor
  · decide +kernel
  · decide

/-- C52: inline python replaces the value even if it is to be added -/
theorem C52_inline_counterexample : expandSample c!"A = \"1\"\nA += \"${@foo()}\"\n" = some [c!"${@foo()}"] := by
  decide +kernel

/-- C53: `remove` deletes a part of an item -/
theorem C53_substring_counterexample : expandSample c!"A = \"foobar\"\nA:remove = \"foo\"\n" = some [c!"bar"] := by
  decide +kernel

/-- C53: a `remove` that comes first sets the value, and can leave a part of it behind (bitbake: `ab`) -/
theorem C53_remove_first_counterexample : expandSample c!"A:remove = \"aba\"\nA:prepend = \"ab\"\n" = some [c!"ba"] := by
  decide +kernel

/-- C54: what is appended before the `unset` is not discarded -/
theorem C54_counterexample : expandSample c!"A = \"1\"\nA:append = \" 2\"\nunset A\n" = some [c!"2"] := by decide +kernel

/-- C54: a variable with a longer name is not unset at all, because of C13 -/
theorem C54_name_counterexample : expandSample c!"BC = \"1\"\nA = \"3\"\nunset BC\nunset A[x]\n" = some [c!"3"] ∧
    (let W := Sample.world [(c!"/w/a_1.bb", c!"BC = \"1\"\nunset BC\n")]
     match addFile W 3 c!"/w/a_1.bb" 0 none Sample.stash with
     | (.ok _, s) =>
       match expandVar W s (some c!"/w/a_1.bb") .none .none false with
       | .ok r => dget c!"BC" r
       | .error _ => none
     | _ => none) = some [c!"1"] := by
  constructor <;> decide +kernel

/-- C55: without blanks, with two blanks, with a tab the assignment is not seen -/
theorem C55_counterexample : expandSample c!"A=\"1\"\n" = some [] ∧ expandSample c!"A  = \"1\"\n" = some [] ∧
    expandSample c!"A\t= \"1\"\n" = some [] ∧ expandSample c!"A = \"1\"\n" = some [c!"1"] := by
  refine ⟨?_, ?_, ?_, ?_⟩ <;> decide +kernel

/-! ## the hypotheses can be met -/

/-- the operators, the modifiers in any order, and removing -/
example : expandSample c!"A:append = \" z rm\"\nA ?= \"1\"\nA += \"2\"\nA =+ \"0\"\nA .= \"x\"\nA =. \"y\"\nA:remove = \"rm\"\nA:prepend = \"p \"\nA ??= \"no\"\n"
    = some [c!"p", c!"y0", c!"1", c!"2x", c!"z"] := by decide +kernel

/-- an assignment in a recipe -/
def Sample.assignOp (line : Int) (name op value : Str) : Item :=
  mkVariable line.toNat ⟨line, [], line, true, c!"/w/a_1.bb", name ++ op ++ c!"\"" ++ value ++ c!"\"", []⟩ name
    (c!"\"" ++ value ++ c!"\"") op

/-- `A ??= "no"`, `A = "1 2"`, `A:append = " 3"`, `A:remove = "2"`, `A += "4"` -/
def Sample.five : List Item :=
  [Sample.assignOp 1 c!"A" c!" ??= " c!"no", Sample.assignOp 2 c!"A" c!" = " c!"1 2", Sample.assignOp 3 c!"A:append" c!" = " c!" 3",
   Sample.assignOp 4 c!"A:remove" c!" = " c!"2", Sample.assignOp 5 c!"A" c!" += " c!"4"]

example : Spec.events c!"A" Sample.five = [.assign c!"??=" c!"no", .assign c!"=" c!"1 2", .assign c!"+=" c!"4"] := by decide +kernel
example : Spec.OneBlank c!"A" Sample.five := by
  intro x hx v hp _ _
  simp only [Sample.five, List.mem_cons, List.not_mem_nil, or_false] at hx
  rcases hx with rfl | rfl | rfl | rfl | rfl <;> cases hp <;> decide
example : Spec.NoInline c!"A" Sample.five := by
  have : Spec.events c!"A" Sample.five = [.assign c!"??=" c!"no", .assign c!"=" c!"1 2", .assign c!"+=" c!"4"] := by decide +kernel
  intro e he op t ht
  rw [this] at he
  simp only [List.mem_cons, List.not_mem_nil, or_false] at he
  rcases he with rfl | rfl | rfl <;> cases ht <;> decide +kernel
example : Spec.WeakLast ⟨none, none⟩ (Spec.events c!"A" Sample.five) := by
  have : Spec.events c!"A" Sample.five = [.assign c!"??=" c!"no", .assign c!"=" c!"1 2", .assign c!"+=" c!"4"] := by decide +kernel
  rw [this]
  intro pre v post hh _ e he
  rcases pre with _ | ⟨p0, pre⟩
  · cases hh; cases he; exact Or.inr ⟨_, Or.inl rfl⟩
  · rcases pre with _ | ⟨p1, pre⟩
    · cases hh
    · rcases pre with _ | ⟨p2, pre⟩
      · cases hh
      · cases pre <;> cases hh
example : Spec.PlainNames Sample.stash Sample.five := by
  rintro k (⟨x, hx, v, hp, rfl⟩ | ⟨b, hb, hk⟩ | hk)
  · simp only [Sample.five, List.mem_cons, List.not_mem_nil, or_false] at hx
    rcases hx with rfl | rfl | rfl | rfl | rfl <;> cases hp <;> decide
  · have : setsBase Sample.stash.consts = .ok J.empty := rfl
    rw [this] at hb; cases hb; cases hk
  · simp only [List.mem_cons, List.not_mem_nil, or_false] at hk
    rcases hk with rfl | rfl | rfl <;> decide
example : Spec.Base Sample.stash c!"/w/a_1.bb" c!"A" none := .none (b := .nil) rfl rfl (by decide)
example : Spec.KnownFirst none (Spec.events c!"A" Sample.five) (Spec.mods c!"A" Sample.five) ∧
    Spec.extended ((Spec.Cell.run ⟨none, none⟩ (Spec.events c!"A" Sample.five)).get.getD []) (Spec.mods c!"A" Sample.five) = c!"1 2 4 3" ∧
    Spec.removes (Spec.mods c!"A" Sample.five) = [c!"2"] := by
  refine ⟨Or.inl (Or.inr (Or.inl ⟨c!"+=", c!"4", by decide +kernel⟩)), by decide +kernel, by decide +kernel⟩
example : (match expandVar (Sample.world []) { Sample.stash with items := Sample.five } (some c!"/w/a_1.bb") .none .none false with
    | .ok r => dget c!"A" r
    | .error _ => none) = some [c!"1", c!"4", c!"3"] := by decide +kernel

end Oelint

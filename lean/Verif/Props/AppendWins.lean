import Verif.Props.Agree
import Verif.Props.Links
/-! C115: what a `.bbappend` says about a variable comes after what the recipe says. -/
set_option linter.unusedSectionVars false
namespace Oelint
section
variable [Uni]
open Spec

/-- the item with the largest line is the last of a rising list -/
theorem rising_last {l : List Item} (h : l.Pairwise (fun a b => a.line < b.line)) {i : Item} (hi : i ∈ l) (hm : ∀ x ∈ l, x = i ∨ x.line < i.line) :
    ∃ l0, l = l0 ++ [i] := by
  obtain ⟨a, b, rfl⟩ := List.append_of_mem hi
  cases b with
  | nil => exact ⟨a, rfl⟩
  | cons y b =>
    exfalso
    rw [List.pairwise_append] at h
    have h1 : i.line < y.line := (List.pairwise_cons.1 h.2.1).1 y (by simp)
    rcases hm y (by simp) with rfl | h2 <;> omega

section
variable {W : World} {ns neg : Bool} {consts : J} {uid : Nat} {s : Stash}

/-- the last statement of a `.bbappend` about a variable is the last of all, if only the recipe and the `.bbappend` have any -/
theorem append_last (h : History W Call.forward (Stash.init ns neg consts uid) s) {i j : Item} (hi : i ∈ s.items) (hj : j ∈ s.items)
    {stem n : Str} (ha : IsFile i.origin stem c!".bbappend") (hs : PlainAppend stem) (hx : IsFile j.origin n c!".bb")
    (hn : PlainRecipe n) (hg : Glob stem n) {key : Str} {v : VarData} (hv : i.payload = .variable v) (hk : varNameCompleteNoModifiers i.delim v = key)
    {l : List Item} (hl : StatementsAbout s j.origin .none .none false key l)
    (ho : ∀ x ∈ l, x.origin = j.origin ∨ x.origin = i.origin ∧ (x = i ∨ x.line < i.line)) : ∃ l0, l = l0 ++ [i] := by
  refine rising_last hl.rising ((hl.all i).2 ⟨hi, ?_, .inl ?_⟩) fun x hx' => ?_
  · unfold Concerns; rw [hv]; exact hk
  · have := C41_matching_linked_partial W ns neg consts uid s h i j hi hj stem n ha hs hx hn hg
    constructor
    · intro fn hfn hne
      cases hfn
      refine .inr ⟨rfl, ?_⟩
      unfold links at this
      cases hd : dget j.origin s.map with
      | none => rw [hd] at this; cases this
      | some fs => rw [hd] at this; exact ⟨fs, rfl, this⟩
    all_goals simp [given, hv, Payload.classifier]
  · rcases ho x hx' with e | ⟨-, e | e⟩
    · exact .inr (C42_append_after_recipe W ns neg consts uid s h i x hi ((hl.all x).1 hx').1 stem n ha hs (e ▸ hx) hn hg)
    · exact .inl e
    · exact .inr e

/-- what an immediate operator makes of the text before it and its value -/
inductive Spec.Combined (t val : Str) : Str → Str → Prop
  | set : Combined t val c!" = " val
  | now : Combined t val c!" := " val
  | add : Combined t val c!" += " (t ++ c!" " ++ val)
  | addFront : Combined t val c!" =+ " (val ++ c!" " ++ t)
  | join : Combined t val c!" .= " (t ++ val)
  | joinFront : Combined t val c!" =. " (val ++ t)

theorem text_last_op {s : Stash} {f key t u : Str} {l0 : List Item} {i : Item} {v : VarData} (h0 : TextOf s f key l0 t) (hm0 : mods key l0 = [])
    (hv : i.payload = .variable v) (hk : varNameCompleteNoModifiers i.delim v = key) (hm : ¬ Modifies v) (hb : hasSub inlineBlock (varValueStripped v) = false)
    (hc : Combined t (varValueStripped v) v.varOp u) : TextOf s f key (l0 ++ [i]) u := by
  obtain ⟨base, o, h1, h2, h3⟩ := h0
  have e : mods key (l0 ++ [i]) = [] := by
    unfold mods at hm0 ⊢
    rw [List.filterMap_append, hm0]
    unfold modOf
    simp [hv, hm]
  rw [hm0] at h3
  have h3 : t = (o.getD none).getD [] := by
    rw [h3]
    cases o <;> simp [startText, extended, prepends, appends, removes, without]
  have ho := immediate_unique h2 (immediate_fold key l0 _)
  refine ⟨base, _, h1, immediate_fold key _ _, ?_⟩
  rw [e, List.foldl_append, ← ho, List.foldl_cons, List.foldl_nil]
  unfold stepItem
  simp only [hv]
  rw [if_pos ⟨hm, hk⟩]
  simp only [startText, extended, prepends, appends, removes, without, List.filter_nil, List.map_nil, List.reverse_nil, List.flatten_nil, List.nil_append,
    List.append_nil, List.foldl_nil]
  unfold immediateOp
  simp only [hb, Bool.false_eq_true, if_false]
  generalize hop : v.varOp = op at hc
  cases hc <;> simp [h3]

theorem text_last_mod {s : Stash} {f key t : Str} {l0 : List Item} {i : Item} {v : VarData} (h0 : TextOf s f key l0 t) (hr : removes (mods key l0) = [])
    (hv : i.payload = .variable v) (hk : varNameCompleteNoModifiers i.delim v = key) (hnr : c!"remove" ∉ v.subItems) :
    (c!"append" ∈ v.subItems → TextOf s f key (l0 ++ [i]) (t ++ varValueStripped v)) ∧
    (c!"append" ∉ v.subItems → c!"prepend" ∈ v.subItems → TextOf s f key (l0 ++ [i]) (varValueStripped v ++ t)) := by
  obtain ⟨base, o, h1, h2, h3⟩ := h0
  have ho := immediate_unique h2 (immediate_fold key l0 _)
  have main : (c!"append" ∈ v.subItems ∨ c!"prepend" ∈ v.subItems) → mods key (l0 ++ [i]) = mods key l0 ++ [v] ∧
      (l0 ++ [i]).foldl (stepItem key) (base.map some) = o ∧ startText o (mods key l0 ++ [v]) = startText o (mods key l0) ∧ removes (mods key l0 ++ [v]) = [] := by
    intro hap
    have hm : Modifies v := by unfold Modifies; tauto
    refine ⟨?_, ?_, ?_, ?_⟩
    · unfold mods
      rw [List.filterMap_append]
      congr 1
      unfold modOf
      simp [hv, hm, hk]
    · rw [List.foldl_append, ← ho, List.foldl_cons, List.foldl_nil]
      unfold stepItem
      simp only [hv]
      rw [if_neg (fun hh => hh.1 hm)]
    · cases o with
      | some _ => rfl
      | none => cases mods key l0 <;> simp [startText, hap]
    · unfold removes at hr ⊢
      rw [List.filter_append, List.map_append, hr]
      simp [hnr]
  rw [hr] at h3
  constructor
  · intro ha
    obtain ⟨m1, m2, m3, m4⟩ := main (.inl ha)
    refine ⟨base, _, h1, immediate_fold key _ _, ?_⟩
    rw [m1, m2, m3, m4, h3]
    simp [extended, prepends, appends, without, List.filter_append, ha]
  · intro ha hpp
    obtain ⟨m1, m2, m3, m4⟩ := main (.inr hpp)
    refine ⟨base, _, h1, immediate_fold key _ _, ?_⟩
    rw [m1, m2, m3, m4, h3]
    simp [extended, prepends, appends, without, List.filter_append, ha, hpp]

/-- **C115** After any calls of `AddFile` and `Finalize`, failing ones included, in any order: the stash holds items of a recipe and of a `.bbappend` whose name fits. The statements about
`key` that `ExpandVar` looks at for the recipe are those of the two files. `i` is the last one of the `.bbappend`. Then all others come before it. If they give the text `t` and have no
modifiers, and `i` has none, `ExpandVar` gives the items of what the operator of `i` makes of `t`: with `=` what the `.bbappend` assigns, whatever the recipe says. -/
theorem C115_operators (W D : World) (ns neg : Bool) (consts : J) (uid : Nat) (s : Stash) (h : History W Call.forward (Stash.init ns neg consts uid) s)
    (i j : Item) (hi : i ∈ s.items) (hj : j ∈ s.items) (stem n : Str) (ha : IsFile i.origin stem c!".bbappend") (hs : PlainAppend stem)
    (hx : IsFile j.origin n c!".bb") (hn : PlainRecipe n) (hg : Glob stem n) (key : Str) (v : VarData) (hv : i.payload = .variable v)
    (hk : varNameCompleteNoModifiers i.delim v = key) (l : List Item) (hl : StatementsAbout s j.origin .none .none false key l)
    (ho : ∀ x ∈ l, x.origin = j.origin ∨ x.origin = i.origin ∧ (x = i ∨ x.line < i.line))
    (r : List (Str × List Str)) (b : KV) (hr : expandVar D s (some j.origin) .none .none false = .ok r) (hb : setsBase s.consts = .ok (.dict b))
    (hbn : b.keys.Nodup) (hp : PlainNames s s.items) :
    ∃ l0, l = l0 ++ [i] ∧ ∀ t u, TextOf s j.origin key l0 t → mods key l = [] → hasSub inlineBlock (varValueStripped v) = false →
      Combined t (varValueStripped v) v.varOp u → ∃ o, expandTerm D s j.origin u = .ok o ∧ dget key r = some (safeLinesplit o) := by
  obtain ⟨l0, rfl⟩ := append_last h hi hj ha hs hx hn hg hv hk hl ho
  refine ⟨l0, rfl, fun t u ht hm hin hc => ?_⟩
  have hm' : mods key l0 = [] ∧ ¬ Modifies v := by
    unfold mods at hm ⊢
    rw [List.filterMap_append, List.append_eq_nil_iff] at hm
    refine ⟨hm.1, fun hmod => ?_⟩
    have := hm.2
    unfold modOf at this
    simp [hv, hmod, hk] at this
  have htext := text_last_op ht hm'.1 hv hk hm'.2 hin hc
  obtain ⟨⟨base, -, hpres⟩, hitems⟩ := expandVar_text hr hb hbn hp hl
  have hev : (events key (l0 ++ [i])).getLast? = some (.assign (stripP pySpace v.varOp) (varValueStripped v)) := by
    unfold events
    rw [List.filterMap_append]
    have : List.filterMap (eventOf key) [i] = [.assign (stripP pySpace v.varOp) (varValueStripped v)] := by
      unfold eventOf
      rw [List.filterMap_cons]
      simp [hv, hm'.2, hk]
    rw [this]
    simp
  obtain ⟨items, hit⟩ := Option.isSome_iff_exists.1 (hpres.2 (.inr (.inl ⟨_, _, hev⟩)))
  obtain ⟨u', o, k1, k2, k3⟩ := hitems items hit
  have := textOf_unique htext k1
  subst this
  exact ⟨o, k2, by rw [hit, k3]⟩

/-- **C115** (modifiers). The same if `i` appends or prepends: no statement removes anything, the others give the text `t`, and `ExpandVar` gives the items of `t` with the value of `i`
at the end, or at the beginning. -/
theorem C115_modifiers (W D : World) (ns neg : Bool) (consts : J) (uid : Nat) (s : Stash) (h : History W Call.forward (Stash.init ns neg consts uid) s)
    (i j : Item) (hi : i ∈ s.items) (hj : j ∈ s.items) (stem n : Str) (ha : IsFile i.origin stem c!".bbappend") (hs : PlainAppend stem)
    (hx : IsFile j.origin n c!".bb") (hn : PlainRecipe n) (hg : Glob stem n) (key : Str) (v : VarData) (hv : i.payload = .variable v)
    (hk : varNameCompleteNoModifiers i.delim v = key) (l : List Item) (hl : StatementsAbout s j.origin .none .none false key l)
    (ho : ∀ x ∈ l, x.origin = j.origin ∨ x.origin = i.origin ∧ (x = i ∨ x.line < i.line))
    (r : List (Str × List Str)) (b : KV) (hr : expandVar D s (some j.origin) .none .none false = .ok r) (hb : setsBase s.consts = .ok (.dict b))
    (hbn : b.keys.Nodup) (hp : PlainNames s s.items) (hrm : removes (mods key l) = []) :
    ∃ l0, l = l0 ++ [i] ∧ ∀ t, TextOf s j.origin key l0 t →
      (c!"append" ∈ v.subItems → ∃ o, expandTerm D s j.origin (t ++ varValueStripped v) = .ok o ∧ dget key r = some (safeLinesplit o)) ∧
      (c!"append" ∉ v.subItems → c!"prepend" ∈ v.subItems → ∃ o, expandTerm D s j.origin (varValueStripped v ++ t) = .ok o ∧ dget key r = some (safeLinesplit o)) := by
  obtain ⟨l0, rfl⟩ := append_last h hi hj ha hs hx hn hg hv hk hl ho
  refine ⟨l0, rfl, fun t ht => ?_⟩
  have hmods : Modifies v → mods key (l0 ++ [i]) = mods key l0 ++ [v] := by
    intro hm
    unfold mods
    rw [List.filterMap_append]
    congr 1
    unfold modOf
    simp [hv, hm, hk]
  have split : Modifies v → removes (mods key l0) = [] ∧ c!"remove" ∉ v.subItems := by
    intro hm
    rw [hmods hm] at hrm
    unfold removes at hrm ⊢
    rw [List.filter_append, List.map_append, List.append_eq_nil_iff] at hrm
    exact ⟨hrm.1, fun hh => by simp [hh] at hrm⟩
  obtain ⟨⟨base, -, hpres⟩, hitems⟩ := expandVar_text hr hb hbn hp hl
  have fin : ∀ u, Modifies v → TextOf s j.origin key (l0 ++ [i]) u → ∃ o, expandTerm D s j.origin u = .ok o ∧ dget key r = some (safeLinesplit o) := by
    intro u hm hu
    obtain ⟨items, hit⟩ := Option.isSome_iff_exists.1 (hpres.2 (.inl (by rw [hmods hm]; simp)))
    obtain ⟨u', o, k1, k2, k3⟩ := hitems items hit
    have := textOf_unique hu k1
    subst this
    exact ⟨o, k2, by rw [hit, k3]⟩
  refine ⟨fun hap => ?_, fun hnap hpre => ?_⟩
  · have hm : Modifies v := .inl hap
    exact fin _ hm ((text_last_mod ht (split hm).1 hv hk (split hm).2).1 hap)
  · have hm : Modifies v := .inr (.inl hpre)
    exact fin _ hm ((text_last_mod ht (split hm).1 hv hk (split hm).2).2 hnap hpre)
end

end

/-! ## examples -/
section
attribute [local instance] Sample.asciiUni
open Spec

/-- a recipe and a `.bbappend` for it -/
def Sample.appended : World := Sample.world
  [ (c!"/w/a_1.0.bb", c!"A = \"1\"\nB = \"x\"\nA = \"3\"\n"), (c!"/w/a_%.bbappend", c!"A = \"2\"\nB:append = \"y\"\n") ]

/-- the order of the calls does not matter, while a reference stands for what the recipe assigns first (C114) -/
example : ∀ ps ∈ [[c!"/w/a_1.0.bb", c!"/w/a_%.bbappend"], [c!"/w/a_%.bbappend", c!"/w/a_1.0.bb"]], Sample.check Sample.appended ps (fun s =>
    (match expandVar Sample.appended s (some c!"/w/a_1.0.bb") .none .none false with
      | .ok r => decide (dget c!"A" r = some [c!"2"] ∧ dget c!"B" r = some [c!"xy"]) | _ => false) &&
    (match expandTerm Sample.appended s c!"/w/a_1.0.bb" c!"${A}" with | .ok t => decide (t = c!"1") | _ => false)) = true := by
  decide +kernel

theorem added_forward {W : World} {s s' : Stash} {ps : List Str} (h : Added W s ps s') : History W Call.forward s s' := by
  induction h with
  | nil => exact .nil
  | @snoc s1 s2 ps p depth res h hp ih =>
    have := History.snoc (P := Call.forward) ih depth (.addFile p 0 none) (by exact Int.le_refl 0)
    have e : (Call.addFile p 0 none).after W depth s1 = s2 := by
      show (addFile W depth p 0 none s1).2 = s2
      rw [hp]
    rwa [e] at this

/-- the statements about a variable, those of the file first -/
theorem Sample.statementsFirst {s : Stash} (file : Str) (n : Str) {l : List Item}
    (hl : l = (s.items.filter (fun x => decide (x.origin = file))).filter (fun x => decide (Concerns n x) && (keeps s { filename := some file, classifier := .one c!"Variable" } x ||
        keeps s { filename := some file, classifier := .one c!"Unset" } x)) ++
      (s.items.filter (fun x => !decide (x.origin = file))).filter (fun x => decide (Concerns n x) && (keeps s { filename := some file, classifier := .one c!"Variable" } x ||
        keeps s { filename := some file, classifier := .one c!"Unset" } x)))
    (h : l.Pairwise (fun a b => a.line < b.line)) : StatementsAbout s file .none .none false n l := by
  refine ⟨h, fun x => ?_⟩
  rw [hl, List.mem_append, List.mem_filter, List.mem_filter, List.mem_filter, List.mem_filter]
  simp only [Bool.and_eq_true, Bool.or_eq_true, decide_eq_true_iff, keeps_iff, Bool.not_eq_true', decide_eq_false_iff_not]
  tauto

/-- C115: the hypotheses are met, whichever file is added first -/
example (ps : List Str) (hps : ps ∈ [[c!"/w/a_1.0.bb", c!"/w/a_%.bbappend"], [c!"/w/a_%.bbappend", c!"/w/a_1.0.bb"]]) (s : Stash)
    (hs : Sample.addAll Sample.appended ps Sample.stash = some s) (r : List (Str × List Str))
    (hr : expandVar Sample.appended s (some c!"/w/a_1.0.bb") .none .none false = .ok r) :
    ∃ o, expandTerm Sample.appended s c!"/w/a_1.0.bb" c!"2" = .ok o ∧ dget c!"A" r = some (safeLinesplit o) := by
  have added : Added Sample.appended Sample.stash ps s := by simpa using Sample.addAll_added ps [] .nil hs
  have facts : (Sample.addAll Sample.appended ps Sample.stash).map (fun s =>
      (match setsBase s.consts with | .ok (.dict .nil) => true | _ => false) &&
      ((s.items.all fun x => match x.payload with
        | .variable v => decide ('$' ∉ varNameCompleteNoModifiers x.delim v ∧ '(' ∉ varNameCompleteNoModifiers x.delim v)
        | _ => true) &&
      (decide ((s.items.filter (fun x => decide (x.origin = c!"/w/a_1.0.bb")) ++ s.items.filter (fun x => !decide (x.origin = c!"/w/a_1.0.bb"))).Pairwise
        (fun a b => a.line < b.line)) &&
      (s.items.any (fun j => decide (j.origin = c!"/w/a_1.0.bb")) &&
      (decide (mods c!"A" s.items = []) &&
      s.items.any (fun i => decide (i.origin = c!"/w/a_%.bbappend") && (decide (i.payload = .variable ⟨c!"A", [], [], c!"\"2\"", c!" = ", c!"A"⟩) &&
        s.items.all (fun x => !decide (Concerns c!"A" x) || (decide (x.origin = c!"/w/a_1.0.bb") || decide (x.origin = c!"/w/a_%.bbappend" ∧ x = i)))))))))) = some true := by
    simp only [List.mem_cons, List.not_mem_nil, or_false] at hps
    rcases hps with rfl | rfl <;> decide +kernel
  rw [hs] at facts
  have facts := Option.some.inj facts
  simp only [Bool.and_eq_true] at facts
  obtain ⟨f1, f2, f3, f4, f5, f6⟩ := facts
  have hb := Sample.emptyBase f1
  obtain ⟨j, hj, hj'⟩ := List.any_eq_true.1 f4
  obtain ⟨i, hi, hi'⟩ := List.any_eq_true.1 f6
  simp only [Bool.and_eq_true, decide_eq_true_iff, List.all_eq_true] at hj' hi' f3 f5
  obtain ⟨i1, i2, i3⟩ := hi'
  have hk : varNameCompleteNoModifiers i.delim ⟨c!"A", [], [], c!"\"2\"", c!" = ", c!"A"⟩ = c!"A" := by simp [varNameCompleteNoModifiers, joinS]
  have hl := Sample.statementsFirst (s := s) c!"/w/a_1.0.bb" c!"A" rfl (by rw [← List.filter_append]; exact f3.filter _)
  generalize hL : (_ ++ _ : List Item) = l at hl
  rw [← hj'] at hr hl ⊢
  obtain ⟨l0, h0, hall⟩ := C115_operators Sample.appended Sample.appended _ _ _ _ s (added_forward added) i j hi hj c!"a_%" c!"a_1.0"
    ⟨c!"/w", i1, by decide⟩ ⟨by decide, by decide⟩ ⟨c!"/w", hj', by decide⟩ (by unfold PlainRecipe; decide)
    (.char (by decide) (by decide) (.char (by decide) (by decide) (.percent (a := c!"1.0") (by decide) .nil))) c!"A" _ i2 hk l hl
    (fun x hx => by
      obtain ⟨hx1, hx2, -⟩ := (hl.all x).1 hx
      have := i3 x hx1
      simp only [Bool.or_eq_true, Bool.not_eq_true', decide_eq_false_iff_not, decide_eq_true_iff] at this
      rw [hj', i1]
      tauto) r .nil hr hb (by decide) (Sample.plainNames f2 hb)
  refine hall _ c!"2" ⟨none, _, .none hb rfl (by decide), immediate_fold _ _ _, rfl⟩ ?_ (by decide +kernel) ?_
  · refine List.eq_nil_iff_forall_not_mem.2 fun m hm => ?_
    obtain ⟨x, hx, hx'⟩ := List.mem_filterMap.1 hm
    have : m ∈ mods c!"A" s.items := List.mem_filterMap.2 ⟨x, ((hl.all x).1 hx).1, hx'⟩
    rw [f5] at this
    cases this
  · exact .set

/-- C115: the hypotheses are met with a modifier -/
example (ps : List Str) (hps : ps ∈ [[c!"/w/a_1.0.bb", c!"/w/a_%.bbappend"], [c!"/w/a_%.bbappend", c!"/w/a_1.0.bb"]]) (s : Stash)
    (hs : Sample.addAll Sample.appended ps Sample.stash = some s) (r : List (Str × List Str))
    (hr : expandVar Sample.appended s (some c!"/w/a_1.0.bb") .none .none false = .ok r) :
    ∃ l0 t o, TextOf s c!"/w/a_1.0.bb" c!"B" l0 t ∧ expandTerm Sample.appended s c!"/w/a_1.0.bb" (t ++ c!"y") = .ok o ∧ dget c!"B" r = some (safeLinesplit o) := by
  have added : Added Sample.appended Sample.stash ps s := by simpa using Sample.addAll_added ps [] .nil hs
  have facts : (Sample.addAll Sample.appended ps Sample.stash).map (fun s =>
      (match setsBase s.consts with | .ok (.dict .nil) => true | _ => false) &&
      ((s.items.all fun x => match x.payload with
        | .variable v => decide ('$' ∉ varNameCompleteNoModifiers x.delim v ∧ '(' ∉ varNameCompleteNoModifiers x.delim v)
        | _ => true) &&
      (decide ((s.items.filter (fun x => decide (x.origin = c!"/w/a_1.0.bb")) ++ s.items.filter (fun x => !decide (x.origin = c!"/w/a_1.0.bb"))).Pairwise
        (fun a b => a.line < b.line)) &&
      (s.items.any (fun j => decide (j.origin = c!"/w/a_1.0.bb")) &&
      (decide (removes (mods c!"B" s.items) = []) &&
      s.items.any (fun i => decide (i.origin = c!"/w/a_%.bbappend") && (decide (i.payload = .variable ⟨c!"B", c!"append", [c!"append"], c!"\"y\"", c!" = ", c!"B"⟩ ∧ i.delim = ':') &&
        s.items.all (fun x => !decide (Concerns c!"B" x) || (decide (x.origin = c!"/w/a_1.0.bb") || decide (x.origin = c!"/w/a_%.bbappend" ∧ x = i)))))))))) = some true := by
    simp only [List.mem_cons, List.not_mem_nil, or_false] at hps
    rcases hps with rfl | rfl <;> decide +kernel
  rw [hs] at facts
  have facts := Option.some.inj facts
  simp only [Bool.and_eq_true] at facts
  obtain ⟨f1, f2, f3, f4, f5, f6⟩ := facts
  have hb := Sample.emptyBase f1
  obtain ⟨j, hj, hj'⟩ := List.any_eq_true.1 f4
  obtain ⟨i, hi, hi'⟩ := List.any_eq_true.1 f6
  simp only [Bool.and_eq_true, decide_eq_true_iff, List.all_eq_true] at hj' hi' f3 f5
  obtain ⟨i1, ⟨i2, i4⟩, i3⟩ := hi'
  have hk : varNameCompleteNoModifiers i.delim ⟨c!"B", c!"append", [c!"append"], c!"\"y\"", c!" = ", c!"B"⟩ = c!"B" := by rw [i4]; decide +kernel
  have hl := Sample.statementsFirst (s := s) c!"/w/a_1.0.bb" c!"B" rfl (by rw [← List.filter_append]; exact f3.filter _)
  generalize hL : (_ ++ _ : List Item) = l at hl
  rw [← hj'] at hr hl ⊢
  obtain ⟨l0, h0, hall⟩ := C115_modifiers Sample.appended Sample.appended _ _ _ _ s (added_forward added) i j hi hj c!"a_%" c!"a_1.0"
    ⟨c!"/w", i1, by decide⟩ ⟨by decide, by decide⟩ ⟨c!"/w", hj', by decide⟩ (by unfold PlainRecipe; decide)
    (.char (by decide) (by decide) (.char (by decide) (by decide) (.percent (a := c!"1.0") (by decide) .nil))) c!"B" _ i2 hk l hl
    (fun x hx => by
      obtain ⟨hx1, hx2, -⟩ := (hl.all x).1 hx
      have := i3 x hx1
      simp only [Bool.or_eq_true, Bool.not_eq_true', decide_eq_false_iff_not, decide_eq_true_iff] at this
      rw [hj', i1]
      tauto) r .nil hr hb (by decide) (Sample.plainNames f2 hb) (by
      refine List.eq_nil_iff_forall_not_mem.2 fun m hm => ?_
      unfold removes mods at hm
      have : m ∈ removes (mods c!"B" s.items) := by
        unfold removes mods
        simp only [List.mem_map, List.mem_filter, List.mem_filterMap] at hm ⊢
        obtain ⟨v, ⟨⟨x, hx, hx'⟩, h2⟩, h3⟩ := hm
        exact ⟨v, ⟨⟨x, ((hl.all x).1 hx).1, hx'⟩, h2⟩, h3⟩
      rw [f5] at this
      cases this)
  have ht : TextOf s j.origin c!"B" l0 _ := ⟨none, _, .none hb rfl (by decide), immediate_fold _ _ _, rfl⟩
  obtain ⟨o, h1, h2⟩ := (hall _ ht).1 (by decide)
  exact ⟨l0, _, o, ht, h1, h2⟩
end
end Oelint

import Verif.Lemmas.Settled
import Verif.Props.Expand
/-! # Properties of `ExpandTerm`: C106 -/
set_option linter.unusedSectionVars false
namespace Oelint
open Spec
section
variable [Uni]

/-- **C106** (what is left). If every definition is written so that each `${` starts a reference and each `$` is followed by
something that is not a `$`, the result of `ExpandTerm` refers only to names that are unknown or spared; also when
definitions are cyclic. -/
theorem C106_nothing_left_partial (W : World) (s : Stash) (file : Str) (spare : List Str) (value : Str) (ns : List Str) (d : KV)
    (hb : setsBase s.consts = .ok (.dict d)) (hd : ∀ k j, d.get k = some j → ∃ t, j = .str t)
    (hdef : ∀ n t, Defined W s file n t → NoCalls t ∧ ∃ ns, Written t ns) (hf : ∀ n t, FromFileName file n t → '$' ∉ t)
    (hw : Written value ns) (hc : NoCalls value) :
    ∃ o, expandTermS W s file spare value = .ok o ∧ ∀ n, Refers o n → n ∈ spare ∨ Unknown s file n := by
  obtain ⟨o, h1, l, h2, h3, h4⟩ := expandTermS_clean (W := W) ⟨⟨d, hb, hd⟩, hdef, hf⟩ spare value ⟨ns, hw⟩ hc
  subst h3
  exact ⟨_, h1, fun n hn => h4 n (refers_render h2 hn)⟩

/-- **C106** (expanding twice). Under the same conditions, expanding the result again gives the result, if putting the
texts together has not made up a call of `getVar` or `read_file`.
What is missing: definitions with a stray `$` at the end or before another `$`, see `C106_stray_dollar_counterexample`. -/
theorem C106_settled_partial (W : World) (s : Stash) (file : Str) (spare : List Str) (value o : Str) (ns : List Str) (d : KV)
    (hb : setsBase s.consts = .ok (.dict d)) (hd : ∀ k j, d.get k = some j → ∃ t, j = .str t)
    (hdef : ∀ n t, Defined W s file n t → NoCalls t ∧ ∃ ns, Written t ns) (hf : ∀ n t, FromFileName file n t → '$' ∉ t)
    (hw : Written value ns) (hc : NoCalls value) (h : expandTermS W s file spare value = .ok o) (ho : NoCalls o) :
    expandTermS W s file spare o = .ok o := by
  obtain ⟨o', h1, h2⟩ := expandTermS_clean (W := W) ⟨⟨d, hb, hd⟩, hdef, hf⟩ spare value ⟨ns, hw⟩ hc
  rw [h] at h1
  cases h1
  exact expandTermS_settled hb spare o h2 ho

end

/-! ## examples -/
section
attribute [local instance] Sample.asciiUni

/-- `A = "$"`, `B = "1"` -/
def Sample.stray : Stash :=
  { Sample.stash with items := [Sample.assign 1 c!"A" c!"$", Sample.assign 2 c!"B" c!"1"] }

/-- **C106** (in general it is false). With `A = "$"` and `B = "1"` the text `${A}{B}` expands to `${B}`, and that to `1`. -/
theorem C106_stray_dollar_counterexample :
    expandTermS (Sample.world []) Sample.stray c!"/a/b_1.bb" [] c!"${A}{B}" = .ok c!"${B}" ∧
    expandTermS (Sample.world []) Sample.stray c!"/a/b_1.bb" [] c!"${B}" = .ok c!"1" := by
  decide +kernel

/-- **C106** (an unfinished expansion). The reference that is left refers to a defined name. -/
theorem C106_left_counterexample :
    ∃ o, expandTermS (Sample.world []) Sample.stray c!"/a/b_1.bb" [] c!"${A}{B}" = .ok o ∧ Refers o c!"B" ∧
      Defined (Sample.world []) Sample.stray c!"/a/b_1.bb" c!"B" c!"1" := by
  refine ⟨c!"${B}", C106_stray_dollar_counterexample.1, ⟨⟨[], [], rfl⟩, by simp, by simp, by simp⟩, ?_⟩
  have h := Defined.assigned (W := Sample.world []) (s := Sample.stray) (file := c!"/a/b_1.bb") (n := c!"B")
    (x := Sample.assign 2 c!"B" c!"1") (v := ⟨c!"B", [], [], c!"\"1\"", c!" = ", c!"B"⟩)
    ⟨[], [], by decide +kernel, ?_, by simp⟩ (by decide +kernel)
  · have ht : assignmentText (Sample.assign 2 c!"B" c!"1") ⟨c!"B", [], [], c!"\"1\"", c!" = ", c!"B"⟩ = c!"1" := by
      decide +kernel
    rwa [ht] at h
  · exact ⟨by decide +kernel, fun _ => Or.inl (by decide +kernel), ⟨c!"B", [], [], c!"\"1\"", c!" = ", c!"B"⟩,
      by decide +kernel, rfl, by decide +kernel⟩

/-- the items of `Sample.defs` with their texts -/
theorem Sample.defs_texts (n t : Str) (h : Defined (Sample.world []) Sample.defs c!"/a/b_1.bb" n t) :
    t ∈ [c!"x${B}y", c!"1${U}", c!"2", c!"${D}", c!"-${C}"] := by
  have key : ∀ x ∈ Sample.defs.items, ∀ v, x.payload = .variable v →
      assignmentText x v ∈ [c!"x${B}y", c!"1${U}", c!"2", c!"${D}", c!"-${C}"] := by
    have h : ∀ x ∈ Sample.defs.items, (match x.payload with
      | .variable v => decide (assignmentText x v ∈ [c!"x${B}y", c!"1${U}", c!"2", c!"${D}", c!"-${C}"])
      | _ => true) = true := by decide +kernel
    intro x hx v hv
    have := h x hx
    rw [hv] at this
    exact of_decide_eq_true this
  cases h with
  | @assigned x v hf hp =>
    obtain ⟨_, _, _, ha, _⟩ := hf
    exact key x ha.1 v hp
  | base _ h2 h3 =>
    rw [Sample.defs_base] at h2
    cases h2
    cases h3

/-- the definitions of `Sample.defs`, which are cyclic, meet the hypotheses -/
theorem Sample.defs_tidy (n t : Str) (h : Defined (Sample.world []) Sample.defs c!"/a/b_1.bb" n t) :
    NoCalls t ∧ ∃ ns, Written t ns := by
  have h := Sample.defs_texts n t h
  simp only [List.mem_cons, List.not_mem_nil, or_false] at h
  rcases h with rfl | rfl | rfl | rfl | rfl
  · exact ⟨⟨by decide +kernel, by unfold ReadsFile; decide +kernel⟩, _,
      .char (by decide) (.ref (n := c!"B") (r := c!"y") (Sample.name _ (by decide)) (.char (by decide) .nil))⟩
  · exact ⟨⟨by decide +kernel, by unfold ReadsFile; decide +kernel⟩, _,
      .char (by decide) (.ref (n := c!"U") (r := []) (Sample.name _ (by decide)) .nil)⟩
  · exact ⟨⟨by decide +kernel, by unfold ReadsFile; decide +kernel⟩, _, .char (by decide) .nil⟩
  · exact ⟨⟨by decide +kernel, by unfold ReadsFile; decide +kernel⟩, _, .ref (n := c!"D") (r := []) (Sample.name _ (by decide)) .nil⟩
  · exact ⟨⟨by decide +kernel, by unfold ReadsFile; decide +kernel⟩, _,
      .char (by decide) (.ref (n := c!"C") (r := []) (Sample.name _ (by decide)) .nil)⟩

/-- C106: the hypotheses are met, with cyclic definitions, a spared and an unknown name -/
example : ∃ o, expandTermS (Sample.world []) Sample.defs c!"/a/b_1.bb" [c!"B"] c!"${C}${A}${B}" = .ok o ∧ o = c!"-x1${U}y${B}" ∧
    expandTermS (Sample.world []) Sample.defs c!"/a/b_1.bb" [c!"B"] o = .ok o := by
  refine ⟨c!"-x1${U}y${B}", by decide +kernel, rfl, ?_⟩
  refine C106_settled_partial _ _ _ _ c!"${C}${A}${B}" _ [c!"C", c!"A", c!"B"] _ Sample.defs_base (by rintro k j ⟨⟩) Sample.defs_tidy ?_
    (.ref (n := c!"C") (r := c!"${A}${B}") (Sample.name _ (by decide)) (.ref (n := c!"A") (r := c!"${B}") (Sample.name _ (by decide))
      (.ref (n := c!"B") (r := []) (Sample.name _ (by decide)) .nil)))
    ⟨by decide +kernel, by unfold ReadsFile; decide +kernel⟩ (by decide +kernel) ⟨by decide +kernel, by unfold ReadsFile; decide +kernel⟩
  intro n t h
  cases h with
  | pn => decide +kernel
  | bpn => decide +kernel
  | pv h _ =>
    have h' : guessRecipeVersion c!"/a/b_1.bb" = some c!"1" := by decide +kernel
    rw [h'] at h; cases h; decide
  | pvDefault _ => decide
  | file => decide
  | thisdir => decide +kernel

end
end Oelint

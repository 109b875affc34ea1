import Verif.Lemmas.InlineHelpers
/-! What inline blocks with calls of the known helper functions become. -/
set_option linter.unusedSectionVars false
set_option linter.unusedSimpArgs false
namespace Oelint
variable [Uni]
open Spec

/-! ## the helpers that are not called -/

section none
variable {lead nm rest : Str} {neg : Bool}

theorem bbUtilsContains_none (h1 : ∀ c ∈ lead, c = ' ') (h2 : '(' ∉ nm) (h3 : '(' ∉ rest) (hs : ¬ c!"bb.utils.contains" <:+ nm) :
    bbUtilsContains (lead ++ ((nm ++ ['(']) ++ rest)) neg = none :=
  twoBranch_none (p := reBbUtilsContains) (reMatch_name_none (not_called (m := c!"bb.utils.contains") h1 h2 h3 (by decide) (by decide) hs))

theorem bbUtilsContainsAny_none (h1 : ∀ c ∈ lead, c = ' ') (h2 : '(' ∉ nm) (h3 : '(' ∉ rest) (hs : ¬ c!"bb.utils.contains_any" <:+ nm) :
    bbUtilsContainsAny (lead ++ ((nm ++ ['(']) ++ rest)) neg = none :=
  twoBranch_none (p := reBbUtilsContainsAny) (reMatch_name_none (not_called (m := c!"bb.utils.contains_any") h1 h2 h3 (by decide) (by decide) hs))

theorem bbUtilsFilter_none (h1 : ∀ c ∈ lead, c = ' ') (h2 : '(' ∉ nm) (h3 : '(' ∉ rest) (hs : ¬ c!"bb.utils.filter" <:+ nm) :
    bbUtilsFilter (lead ++ ((nm ++ ['(']) ++ rest)) neg = none :=
  oneBranch_none (p := reBbUtilsFilter) (reMatch_name_none (not_called (m := c!"bb.utils.filter") h1 h2 h3 (by decide) (by decide) hs))

theorem oeUtilsAllDistroFeatures_none (h1 : ∀ c ∈ lead, c = ' ') (h2 : '(' ∉ nm) (h3 : '(' ∉ rest) (hs : ¬ c!"oe.utils.all_distro_features" <:+ nm) :
    oeUtilsAllDistroFeatures (lead ++ ((nm ++ ['(']) ++ rest)) neg = none :=
  featBranch_none (p := reOeUtilsAllDistroFeatures) (reMatch_name_none (not_called (m := c!"oe.utils.all_distro_features") h1 h2 h3 (by decide) (by decide) hs))

theorem oeUtilsAnyDistroFeatures_none (h1 : ∀ c ∈ lead, c = ' ') (h2 : '(' ∉ nm) (h3 : '(' ∉ rest) (hs : ¬ c!"oe.utils.any_distro_features" <:+ nm) :
    oeUtilsAnyDistroFeatures (lead ++ ((nm ++ ['(']) ++ rest)) neg = none :=
  featBranch_none (p := reOeUtilsAnyDistroFeatures) (reMatch_name_none (not_called (m := c!"oe.utils.any_distro_features") h1 h2 h3 (by decide) (by decide) hs))

theorem oeUtilsBothContain_none (h1 : ∀ c ∈ lead, c = ' ') (h2 : '(' ∉ nm) (h3 : '(' ∉ rest) (hs : ¬ c!"oe.utils.both_contain" <:+ nm) :
    oeUtilsBothContain (lead ++ ((nm ++ ['(']) ++ rest)) neg = none :=
  oneBranch_none (p := reOeUtilsBothContain) (reMatch_name_none (not_called (m := c!"oe.utils.both_contain") h1 h2 h3 (by decide) (by decide) hs))

theorem oeUtilsConditional_none (h1 : ∀ c ∈ lead, c = ' ') (h2 : '(' ∉ nm) (h3 : '(' ∉ rest) (hs : ¬ c!"oe.utils.conditional" <:+ nm) :
    oeUtilsConditional (lead ++ ((nm ++ ['(']) ++ rest)) neg = none :=
  twoBranch_none (p := reOeUtilsConditional) (reMatch_name_none (not_called (m := c!"oe.utils.conditional") h1 h2 h3 (by decide) (by decide) hs))

theorem oeUtilsIfelse_none (h1 : ∀ c ∈ lead, c = ' ') (h2 : '(' ∉ nm) (h3 : '(' ∉ rest) (hs : ¬ c!"oe.utils.ifelse" <:+ nm) :
    oeUtilsIfelse (lead ++ ((nm ++ ['(']) ++ rest)) neg = none :=
  twoBranch_none (p := reOeUtilsIfelse) (reMatch_name_none (not_called (m := c!"oe.utils.ifelse") h1 h2 h3 (by decide) (by decide) hs))

theorem oeUtilsLessOrEqual_none (h1 : ∀ c ∈ lead, c = ' ') (h2 : '(' ∉ nm) (h3 : '(' ∉ rest) (hs : ¬ c!"oe.utils.less_or_equal" <:+ nm) :
    oeUtilsLessOrEqual (lead ++ ((nm ++ ['(']) ++ rest)) neg = none :=
  twoBranch_none (p := reOeUtilsLessOrEqual) (reMatch_name_none (not_called (m := c!"oe.utils.less_or_equal") h1 h2 h3 (by decide) (by decide) hs))

theorem oeUtilsVartrue_none (h1 : ∀ c ∈ lead, c = ' ') (h2 : '(' ∉ nm) (h3 : '(' ∉ rest) (hs : ¬ c!"oe.utils.vartrue" <:+ nm) :
    oeUtilsVartrue (lead ++ ((nm ++ ['(']) ++ rest)) neg = none :=
  twoBranch_none (p := reOeUtilsVartrue) (reMatch_name_none (not_called (m := c!"oe.utils.vartrue") h1 h2 h3 (by decide) (by decide) hs))

theorem oeUtilsVersionLessOrEqual_none (h1 : ∀ c ∈ lead, c = ' ') (h2 : '(' ∉ nm) (h3 : '(' ∉ rest) (hs : ¬ c!"oe.utils.version_less_or_equal" <:+ nm) :
    oeUtilsVersionLessOrEqual (lead ++ ((nm ++ ['(']) ++ rest)) neg = none :=
  twoBranch_none (p := reOeUtilsVersionLessOrEqual) (reMatch_name_none (not_called (m := c!"oe.utils.version_less_or_equal") h1 h2 h3 (by decide) (by decide) hs))

end none

/-! ## the text of a block -/

theorem cleanInline_call {ws code ws' : Str} (h1 : ∀ c ∈ ws, c = ' ') (h2 : ∀ c ∈ ws', c = ' ')
    (hh : ∀ c ∈ code.head?, oneOf c!"${@" c = false) (hl : ∃ b, code = b ++ [')']) :
    cleanInline (inlineText ws code ws') = ws ++ code ++ ws' := by
  obtain ⟨b, rfl⟩ := hl
  have hlead : lstripP (oneOf c!"${@") (inlineText ws (b ++ [')']) ws') = ws ++ (b ++ [')']) ++ ws' ++ c!"}" := by
    unfold inlineText
    rw [List.append_assoc, List.append_assoc, List.append_assoc, lstripP_append_all _ _ (by decide)]
    unfold lstripP
    cases ws with
    | nil =>
      cases b with
      | nil => simp [List.dropWhile_cons, oneOf]
      | cons x b => simp only [List.nil_append, List.cons_append, List.dropWhile_cons, hh x rfl]; simp
    | cons x ws =>
      have := h1 x (by simp)
      subst this
      simp only [List.cons_append, List.dropWhile_cons, show oneOf c!"${@" ' ' = false from rfl]
      simp
  unfold cleanInline
  rw [hlead, rstripP_append_all _ _ (by decide)]
  rcases List.eq_nil_or_concat ws' with rfl | ⟨w, x, rfl⟩
  · rw [List.append_nil, ← List.append_assoc, rstripP_concat_not _ _ rfl]
  · have hx := h2 x (by simp)
    subst hx
    rw [List.concat_eq_append, ← List.append_assoc, rstripP_concat_not _ _ rfl]

/-- the loop of `inlinerep` on the cleaned text -/
def inlinerepClean (c : Str) (neg : Bool) : Option Str :=
  [ bbUtilsContains c neg, bbUtilsContainsAny c neg, bbUtilsFilter c neg, oeUtilsAllDistroFeatures c neg, oeUtilsAnyDistroFeatures c neg,
    oeUtilsBothContain c neg, oeUtilsConditional c neg, oeUtilsIfelse c neg, oeUtilsLessOrEqual c neg, oeUtilsVartrue c neg,
    oeUtilsVersionLessOrEqual c neg, dGetvar c ].findSome? id

theorem inlinerep_clean (inp : Str) (neg : Bool) : inlinerep inp neg = inlinerepClean (cleanInline inp) neg := rfl

theorem Spec.Quoted.free {a t : Str} (h : Quoted a t) : Free a := by
  obtain ⟨ws, q, rfl, h1, h2, h3, -, -⟩ := h
  intro c hc
  rcases List.mem_append.1 hc with hc | hc
  · exact free_blank h1 c hc
  · exact free_quoted h2 h3 c hc

theorem Spec.OneChar.free {a : Str} (h : OneChar a) : Free a := by
  obtain ⟨ws, x, rfl, h1, -, h2⟩ := h
  intro c hc
  rcases List.mem_append.1 hc with hc | hc
  · exact free_blank h1 c hc
  · exact h2 c hc

/-! ## the values -/

theorem one_char_end {d trail : Str} {p : Nat} {cs : List (Nat × Str)} (hd : OneChar d) :
    run (.seq (.star true (.cls false [.space])) (.seq .any (.lit c!")"))) (fun t => some t.caps) ⟨p, d ++ ')' :: trail, cs⟩ = some cs := by
  obtain ⟨ws, x, rfl, h1, h2, h3⟩ := hd
  have hx := h3 x (by simp)
  rw [List.append_assoc]
  refine step_blanks (blank_space h1) (fun c hc => by cases hc; exact h2) (fun p' _ => ?_)
  rw [run_seq]
  refine (run_any_cons _ _ _ _ _).trans ?_
  rw [if_neg hx.2.1]
  exact run_lit_append c!")" _ _ trail _

theorem stripQuotes_nil : stripQuotes [] = [] := rfl

section values
variable {lead trail : Str} {neg : Bool}

theorem value_contains {v w t f d T F : Str} (hv : Free v) (hw : Free w) (ht : Quoted t T) (hf : Quoted f F) (hd : OneChar d) (h1 : ∀ c ∈ lead, c = ' ') (h2 : ∀ c ∈ trail, c = ' ') :
    inlinerepClean (lead ++ callText c!"bb.utils.contains" [v, w, t, f, d] ++ trail) neg = some (if neg then F else T) := by
  have e : lead ++ callText c!"bb.utils.contains" [v, w, t, f, d] ++ trail = lead ++ ((c!"bb.utils.contains" ++ ['(']) ++ (v ++ ',' :: (w ++ ',' :: (t ++ ',' :: (f ++ ',' :: (d ++ ')' :: trail)))))) := by simp [callText, joinS]
  have hr : '(' ∉ v ++ ',' :: (w ++ ',' :: (t ++ ',' :: (f ++ ',' :: (d ++ ')' :: trail)))) := by
    have := (free_blank h2).open
    have := hv.open
    have := hw.open
    have := ht.free.open
    have := hf.free.open
    have := hd.free.open
    simp_all
  have hn : c!"bb.utils.contains" <:+: lead ++ ((c!"bb.utils.contains" ++ ['(']) ++ (v ++ ',' :: (w ++ ',' :: (t ++ ',' :: (f ++ ',' :: (d ++ ')' :: trail)))))) := ⟨lead, '(' :: (v ++ ',' :: (w ++ ',' :: (t ++ ',' :: (f ++ ',' :: (d ++ ')' :: trail))))), by simp⟩
  have hr5 : '(' ∉ d ++ ')' :: trail := by simp_all
  obtain ⟨ws, q, rfl, w1, w2, w3, w4, w5⟩ := ht
  obtain ⟨ws', q', rfl, w1', w2', w3', w4', w5'⟩ := hf
  have hs : bbUtilsContains (lead ++ ((c!"bb.utils.contains" ++ ['(']) ++ (v ++ ',' :: (w ++ ',' :: ((ws ++ q :: (T ++ [q])) ++ ',' :: ((ws' ++ q' :: (F ++ [q'])) ++ ',' :: (d ++ ')' :: trail))))))) neg = some (if neg then F else T) := by
    refine (twoBranch_some (needle := c!"bb.utils.contains") (p := reBbUtilsContains) neg hn (shape_five (nm := c!"bb.utils.contains") h1 (by decide) hv hw w1 w1' w2 w2' w3 w3' hr5 (fun p => one_char_end hd)) rfl rfl).trans ?_
    simp only [stripQuotes_quoted w2 w4 w5, stripQuotes_quoted w2' w4' w5']
  unfold inlinerepClean
  rw [e]
  simp only [List.findSome?_cons, id,
    hs]

theorem value_containsAny {v w t f d T F : Str} (hv : Free v) (hw : Free w) (ht : Quoted t T) (hf : Quoted f F) (hd : OneChar d) (h1 : ∀ c ∈ lead, c = ' ') (h2 : ∀ c ∈ trail, c = ' ') :
    inlinerepClean (lead ++ callText c!"bb.utils.contains_any" [v, w, t, f, d] ++ trail) neg = some (if neg then F else T) := by
  have e : lead ++ callText c!"bb.utils.contains_any" [v, w, t, f, d] ++ trail = lead ++ ((c!"bb.utils.contains_any" ++ ['(']) ++ (v ++ ',' :: (w ++ ',' :: (t ++ ',' :: (f ++ ',' :: (d ++ ')' :: trail)))))) := by simp [callText, joinS]
  have hr : '(' ∉ v ++ ',' :: (w ++ ',' :: (t ++ ',' :: (f ++ ',' :: (d ++ ')' :: trail)))) := by
    have := (free_blank h2).open
    have := hv.open
    have := hw.open
    have := ht.free.open
    have := hf.free.open
    have := hd.free.open
    simp_all
  have hn : c!"bb.utils.contains_any" <:+: lead ++ ((c!"bb.utils.contains_any" ++ ['(']) ++ (v ++ ',' :: (w ++ ',' :: (t ++ ',' :: (f ++ ',' :: (d ++ ')' :: trail)))))) := ⟨lead, '(' :: (v ++ ',' :: (w ++ ',' :: (t ++ ',' :: (f ++ ',' :: (d ++ ')' :: trail))))), by simp⟩
  have hr5 : '(' ∉ d ++ ')' :: trail := by simp_all
  obtain ⟨ws, q, rfl, w1, w2, w3, w4, w5⟩ := ht
  obtain ⟨ws', q', rfl, w1', w2', w3', w4', w5'⟩ := hf
  have hs : bbUtilsContainsAny (lead ++ ((c!"bb.utils.contains_any" ++ ['(']) ++ (v ++ ',' :: (w ++ ',' :: ((ws ++ q :: (T ++ [q])) ++ ',' :: ((ws' ++ q' :: (F ++ [q'])) ++ ',' :: (d ++ ')' :: trail))))))) neg = some (if neg then F else T) := by
    refine (twoBranch_some (needle := c!"bb.utils.contains_any") (p := reBbUtilsContainsAny) neg hn (shape_five (nm := c!"bb.utils.contains_any") h1 (by decide) hv hw w1 w1' w2 w2' w3 w3' hr5 (fun p => one_char_end hd)) rfl rfl).trans ?_
    simp only [stripQuotes_quoted w2 w4 w5, stripQuotes_quoted w2' w4' w5']
  unfold inlinerepClean
  rw [e]
  simp only [List.findSome?_cons, id,
    bbUtilsContains_none (neg := neg) (nm := c!"bb.utils.contains_any") h1 (by decide) hr (by decide),
    hs]

theorem value_conditional {v w t f d T F : Str} (hv : Free v) (hw : Free w) (ht : Quoted t T) (hf : Quoted f F) (hd : Free d) (h1 : ∀ c ∈ lead, c = ' ') (h2 : ∀ c ∈ trail, c = ' ') :
    inlinerepClean (lead ++ callText c!"oe.utils.conditional" [v, w, t, f, d] ++ trail) neg = some (if neg then F else T) := by
  have e : lead ++ callText c!"oe.utils.conditional" [v, w, t, f, d] ++ trail = lead ++ ((c!"oe.utils.conditional" ++ ['(']) ++ (v ++ ',' :: (w ++ ',' :: (t ++ ',' :: (f ++ ',' :: (d ++ ')' :: trail)))))) := by simp [callText, joinS]
  have hr : '(' ∉ v ++ ',' :: (w ++ ',' :: (t ++ ',' :: (f ++ ',' :: (d ++ ')' :: trail)))) := by
    have := (free_blank h2).open
    have := hv.open
    have := hw.open
    have := ht.free.open
    have := hf.free.open
    have := hd.open
    simp_all
  have hn : c!"oe.utils.conditional" <:+: lead ++ ((c!"oe.utils.conditional" ++ ['(']) ++ (v ++ ',' :: (w ++ ',' :: (t ++ ',' :: (f ++ ',' :: (d ++ ')' :: trail)))))) := ⟨lead, '(' :: (v ++ ',' :: (w ++ ',' :: (t ++ ',' :: (f ++ ',' :: (d ++ ')' :: trail))))), by simp⟩
  have hr5 : '(' ∉ d ++ ')' :: trail := by simp_all
  obtain ⟨ws, q, rfl, w1, w2, w3, w4, w5⟩ := ht
  obtain ⟨ws', q', rfl, w1', w2', w3', w4', w5'⟩ := hf
  have hs : oeUtilsConditional (lead ++ ((c!"oe.utils.conditional" ++ ['(']) ++ (v ++ ',' :: (w ++ ',' :: ((ws ++ q :: (T ++ [q])) ++ ',' :: ((ws' ++ q' :: (F ++ [q'])) ++ ',' :: (d ++ ')' :: trail))))))) neg = some (if neg then F else T) := by
    refine (twoBranch_some (needle := c!"oe.utils.conditional") (p := reOeUtilsConditional) neg hn (shape_five (nm := c!"oe.utils.conditional") h1 (by decide) hv hw w1 w1' w2 w2' w3 w3' hr5 (fun p => step_blanks_until_last hd.newline hd.close (by decide) (fun _ _ => rfl))) rfl rfl).trans ?_
    simp only [stripQuotes_quoted w2 w4 w5, stripQuotes_quoted w2' w4' w5']
  unfold inlinerepClean
  rw [e]
  simp only [List.findSome?_cons, id,
    bbUtilsContains_none (neg := neg) (nm := c!"oe.utils.conditional") h1 (by decide) hr (by decide),
    bbUtilsContainsAny_none (neg := neg) (nm := c!"oe.utils.conditional") h1 (by decide) hr (by decide),
    bbUtilsFilter_none (neg := neg) (nm := c!"oe.utils.conditional") h1 (by decide) hr (by decide),
    oeUtilsAllDistroFeatures_none (neg := neg) (nm := c!"oe.utils.conditional") h1 (by decide) hr (by decide),
    oeUtilsAnyDistroFeatures_none (neg := neg) (nm := c!"oe.utils.conditional") h1 (by decide) hr (by decide),
    oeUtilsBothContain_none (neg := neg) (nm := c!"oe.utils.conditional") h1 (by decide) hr (by decide),
    hs]

theorem value_lessOrEqual {v w t f d T F : Str} (hv : Free v) (hw : Free w) (ht : Quoted t T) (hf : Quoted f F) (hd : Free d) (h1 : ∀ c ∈ lead, c = ' ') (h2 : ∀ c ∈ trail, c = ' ') :
    inlinerepClean (lead ++ callText c!"oe.utils.less_or_equal" [v, w, t, f, d] ++ trail) neg = some (if neg then F else T) := by
  have e : lead ++ callText c!"oe.utils.less_or_equal" [v, w, t, f, d] ++ trail = lead ++ ((c!"oe.utils.less_or_equal" ++ ['(']) ++ (v ++ ',' :: (w ++ ',' :: (t ++ ',' :: (f ++ ',' :: (d ++ ')' :: trail)))))) := by simp [callText, joinS]
  have hr : '(' ∉ v ++ ',' :: (w ++ ',' :: (t ++ ',' :: (f ++ ',' :: (d ++ ')' :: trail)))) := by
    have := (free_blank h2).open
    have := hv.open
    have := hw.open
    have := ht.free.open
    have := hf.free.open
    have := hd.open
    simp_all
  have hn : c!"oe.utils.less_or_equal" <:+: lead ++ ((c!"oe.utils.less_or_equal" ++ ['(']) ++ (v ++ ',' :: (w ++ ',' :: (t ++ ',' :: (f ++ ',' :: (d ++ ')' :: trail)))))) := ⟨lead, '(' :: (v ++ ',' :: (w ++ ',' :: (t ++ ',' :: (f ++ ',' :: (d ++ ')' :: trail))))), by simp⟩
  have hr5 : '(' ∉ d ++ ')' :: trail := by simp_all
  obtain ⟨ws, q, rfl, w1, w2, w3, w4, w5⟩ := ht
  obtain ⟨ws', q', rfl, w1', w2', w3', w4', w5'⟩ := hf
  have hs : oeUtilsLessOrEqual (lead ++ ((c!"oe.utils.less_or_equal" ++ ['(']) ++ (v ++ ',' :: (w ++ ',' :: ((ws ++ q :: (T ++ [q])) ++ ',' :: ((ws' ++ q' :: (F ++ [q'])) ++ ',' :: (d ++ ')' :: trail))))))) neg = some (if neg then F else T) := by
    refine (twoBranch_some (needle := c!"oe.utils.less_or_equal") (p := reOeUtilsLessOrEqual) neg hn (shape_five (nm := c!"oe.utils.less_or_equal") h1 (by decide) hv hw w1 w1' w2 w2' w3 w3' hr5 (fun p => step_until_last hd.newline hd.close (fun _ _ => rfl))) rfl rfl).trans ?_
    simp only [stripQuotes_quoted w2 w4 w5, stripQuotes_quoted w2' w4' w5']
  unfold inlinerepClean
  rw [e]
  simp only [List.findSome?_cons, id,
    bbUtilsContains_none (neg := neg) (nm := c!"oe.utils.less_or_equal") h1 (by decide) hr (by decide),
    bbUtilsContainsAny_none (neg := neg) (nm := c!"oe.utils.less_or_equal") h1 (by decide) hr (by decide),
    bbUtilsFilter_none (neg := neg) (nm := c!"oe.utils.less_or_equal") h1 (by decide) hr (by decide),
    oeUtilsAllDistroFeatures_none (neg := neg) (nm := c!"oe.utils.less_or_equal") h1 (by decide) hr (by decide),
    oeUtilsAnyDistroFeatures_none (neg := neg) (nm := c!"oe.utils.less_or_equal") h1 (by decide) hr (by decide),
    oeUtilsBothContain_none (neg := neg) (nm := c!"oe.utils.less_or_equal") h1 (by decide) hr (by decide),
    oeUtilsConditional_none (neg := neg) (nm := c!"oe.utils.less_or_equal") h1 (by decide) hr (by decide),
    oeUtilsIfelse_none (neg := neg) (nm := c!"oe.utils.less_or_equal") h1 (by decide) hr (by decide),
    hs]

theorem value_versionLessOrEqual {v w t f d T F : Str} (hv : Free v) (hw : Free w) (ht : Quoted t T) (hf : Quoted f F) (hd : Free d) (h1 : ∀ c ∈ lead, c = ' ') (h2 : ∀ c ∈ trail, c = ' ') :
    inlinerepClean (lead ++ callText c!"oe.utils.version_less_or_equal" [v, w, t, f, d] ++ trail) neg = some (if neg then F else T) := by
  have e : lead ++ callText c!"oe.utils.version_less_or_equal" [v, w, t, f, d] ++ trail = lead ++ ((c!"oe.utils.version_less_or_equal" ++ ['(']) ++ (v ++ ',' :: (w ++ ',' :: (t ++ ',' :: (f ++ ',' :: (d ++ ')' :: trail)))))) := by simp [callText, joinS]
  have hr : '(' ∉ v ++ ',' :: (w ++ ',' :: (t ++ ',' :: (f ++ ',' :: (d ++ ')' :: trail)))) := by
    have := (free_blank h2).open
    have := hv.open
    have := hw.open
    have := ht.free.open
    have := hf.free.open
    have := hd.open
    simp_all
  have hn : c!"oe.utils.version_less_or_equal" <:+: lead ++ ((c!"oe.utils.version_less_or_equal" ++ ['(']) ++ (v ++ ',' :: (w ++ ',' :: (t ++ ',' :: (f ++ ',' :: (d ++ ')' :: trail)))))) := ⟨lead, '(' :: (v ++ ',' :: (w ++ ',' :: (t ++ ',' :: (f ++ ',' :: (d ++ ')' :: trail))))), by simp⟩
  have hr5 : '(' ∉ d ++ ')' :: trail := by simp_all
  obtain ⟨ws, q, rfl, w1, w2, w3, w4, w5⟩ := ht
  obtain ⟨ws', q', rfl, w1', w2', w3', w4', w5'⟩ := hf
  have hs : oeUtilsVersionLessOrEqual (lead ++ ((c!"oe.utils.version_less_or_equal" ++ ['(']) ++ (v ++ ',' :: (w ++ ',' :: ((ws ++ q :: (T ++ [q])) ++ ',' :: ((ws' ++ q' :: (F ++ [q'])) ++ ',' :: (d ++ ')' :: trail))))))) neg = some (if neg then F else T) := by
    refine (twoBranch_some (needle := c!"oe.utils.version_less_or_equal") (p := reOeUtilsVersionLessOrEqual) neg hn (shape_five (nm := c!"oe.utils.version_less_or_equal") h1 (by decide) hv hw w1 w1' w2 w2' w3 w3' hr5 (fun p => step_until_last hd.newline hd.close (fun _ _ => rfl))) rfl rfl).trans ?_
    simp only [stripQuotes_quoted w2 w4 w5, stripQuotes_quoted w2' w4' w5']
  unfold inlinerepClean
  rw [e]
  simp only [List.findSome?_cons, id,
    bbUtilsContains_none (neg := neg) (nm := c!"oe.utils.version_less_or_equal") h1 (by decide) hr (by decide),
    bbUtilsContainsAny_none (neg := neg) (nm := c!"oe.utils.version_less_or_equal") h1 (by decide) hr (by decide),
    bbUtilsFilter_none (neg := neg) (nm := c!"oe.utils.version_less_or_equal") h1 (by decide) hr (by decide),
    oeUtilsAllDistroFeatures_none (neg := neg) (nm := c!"oe.utils.version_less_or_equal") h1 (by decide) hr (by decide),
    oeUtilsAnyDistroFeatures_none (neg := neg) (nm := c!"oe.utils.version_less_or_equal") h1 (by decide) hr (by decide),
    oeUtilsBothContain_none (neg := neg) (nm := c!"oe.utils.version_less_or_equal") h1 (by decide) hr (by decide),
    oeUtilsConditional_none (neg := neg) (nm := c!"oe.utils.version_less_or_equal") h1 (by decide) hr (by decide),
    oeUtilsIfelse_none (neg := neg) (nm := c!"oe.utils.version_less_or_equal") h1 (by decide) hr (by decide),
    oeUtilsLessOrEqual_none (neg := neg) (nm := c!"oe.utils.version_less_or_equal") h1 (by decide) hr (by decide),
    oeUtilsVartrue_none (neg := neg) (nm := c!"oe.utils.version_less_or_equal") h1 (by decide) hr (by decide),
    hs]

theorem value_vartrue {v t f d T F : Str} (hv : Free v) (ht : Quoted t T) (hf : Quoted f F) (hd : Free d) (h1 : ∀ c ∈ lead, c = ' ') (h2 : ∀ c ∈ trail, c = ' ') :
    inlinerepClean (lead ++ callText c!"oe.utils.vartrue" [v, t, f, d] ++ trail) neg = some (if neg then F else T) := by
  have e : lead ++ callText c!"oe.utils.vartrue" [v, t, f, d] ++ trail = lead ++ ((c!"oe.utils.vartrue" ++ ['(']) ++ (v ++ ',' :: (t ++ ',' :: (f ++ ',' :: (d ++ ')' :: trail))))) := by simp [callText, joinS]
  have hr : '(' ∉ v ++ ',' :: (t ++ ',' :: (f ++ ',' :: (d ++ ')' :: trail))) := by
    have := (free_blank h2).open
    have := hv.open
    have := ht.free.open
    have := hf.free.open
    have := hd.open
    simp_all
  have hn : c!"oe.utils.vartrue" <:+: lead ++ ((c!"oe.utils.vartrue" ++ ['(']) ++ (v ++ ',' :: (t ++ ',' :: (f ++ ',' :: (d ++ ')' :: trail))))) := ⟨lead, '(' :: (v ++ ',' :: (t ++ ',' :: (f ++ ',' :: (d ++ ')' :: trail)))), by simp⟩
  have hr5 : '(' ∉ d ++ ')' :: trail := by simp_all
  obtain ⟨ws, q, rfl, w1, w2, w3, w4, w5⟩ := ht
  obtain ⟨ws', q', rfl, w1', w2', w3', w4', w5'⟩ := hf
  have hs : oeUtilsVartrue (lead ++ ((c!"oe.utils.vartrue" ++ ['(']) ++ (v ++ ',' :: ((ws ++ q :: (T ++ [q])) ++ ',' :: ((ws' ++ q' :: (F ++ [q'])) ++ ',' :: (d ++ ')' :: trail)))))) neg = some (if neg then F else T) := by
    refine (twoBranch_some (needle := c!"oe.utils.vartrue") (p := reOeUtilsVartrue) neg hn (shape_vartrue (nm := c!"oe.utils.vartrue") h1 (by decide) hv w1 w1' w2 w2' w3 w3' (Or.inl rfl) hr5 (fun p => step_until_last hd.newline hd.close (fun _ _ => rfl))) rfl rfl).trans ?_
    simp only [stripQuotes_quoted w2 w4 w5, stripQuotes_quoted w2' w4' w5']
  unfold inlinerepClean
  rw [e]
  simp only [List.findSome?_cons, id,
    bbUtilsContains_none (neg := neg) (nm := c!"oe.utils.vartrue") h1 (by decide) hr (by decide),
    bbUtilsContainsAny_none (neg := neg) (nm := c!"oe.utils.vartrue") h1 (by decide) hr (by decide),
    bbUtilsFilter_none (neg := neg) (nm := c!"oe.utils.vartrue") h1 (by decide) hr (by decide),
    oeUtilsAllDistroFeatures_none (neg := neg) (nm := c!"oe.utils.vartrue") h1 (by decide) hr (by decide),
    oeUtilsAnyDistroFeatures_none (neg := neg) (nm := c!"oe.utils.vartrue") h1 (by decide) hr (by decide),
    oeUtilsBothContain_none (neg := neg) (nm := c!"oe.utils.vartrue") h1 (by decide) hr (by decide),
    oeUtilsConditional_none (neg := neg) (nm := c!"oe.utils.vartrue") h1 (by decide) hr (by decide),
    oeUtilsIfelse_none (neg := neg) (nm := c!"oe.utils.vartrue") h1 (by decide) hr (by decide),
    oeUtilsLessOrEqual_none (neg := neg) (nm := c!"oe.utils.vartrue") h1 (by decide) hr (by decide),
    hs]

theorem value_ifelse {v t f T F : Str} (hv : Free v) (ht : Quoted t T) (hf : Quoted f F) (h1 : ∀ c ∈ lead, c = ' ') (h2 : ∀ c ∈ trail, c = ' ') :
    inlinerepClean (lead ++ callText c!"oe.utils.ifelse" [v, t, f] ++ trail) neg = some (if neg then F else T) := by
  have e : lead ++ callText c!"oe.utils.ifelse" [v, t, f] ++ trail = lead ++ ((c!"oe.utils.ifelse" ++ ['(']) ++ (v ++ ',' :: (t ++ ',' :: (f ++ ')' :: trail)))) := by simp [callText, joinS]
  have hr : '(' ∉ v ++ ',' :: (t ++ ',' :: (f ++ ')' :: trail)) := by
    have := (free_blank h2).open
    have := hv.open
    have := ht.free.open
    have := hf.free.open
    simp_all
  have hn : c!"oe.utils.ifelse" <:+: lead ++ ((c!"oe.utils.ifelse" ++ ['(']) ++ (v ++ ',' :: (t ++ ',' :: (f ++ ')' :: trail)))) := ⟨lead, '(' :: (v ++ ',' :: (t ++ ',' :: (f ++ ')' :: trail))), by simp⟩
  obtain ⟨ws, q, rfl, w1, w2, w3, w4, w5⟩ := ht
  obtain ⟨ws', q', rfl, w1', w2', w3', w4', w5'⟩ := hf
  have hs : oeUtilsIfelse (lead ++ ((c!"oe.utils.ifelse" ++ ['(']) ++ (v ++ ',' :: ((ws ++ q :: (T ++ [q])) ++ ',' :: ((ws' ++ q' :: (F ++ [q'])) ++ ')' :: trail))))) neg = some (if neg then F else T) := by
    refine (twoBranch_some (needle := c!"oe.utils.ifelse") (p := reOeUtilsIfelse) neg hn (shape_ifelse (nm := c!"oe.utils.ifelse") h1 (by decide) hv w1 w1' w2 w2' w3 w3' (free_blank h2).open rfl) rfl rfl).trans ?_
    simp only [stripQuotes_quoted w2 w4 w5, stripQuotes_quoted w2' w4' w5']
  unfold inlinerepClean
  rw [e]
  simp only [List.findSome?_cons, id,
    bbUtilsContains_none (neg := neg) (nm := c!"oe.utils.ifelse") h1 (by decide) hr (by decide),
    bbUtilsContainsAny_none (neg := neg) (nm := c!"oe.utils.ifelse") h1 (by decide) hr (by decide),
    bbUtilsFilter_none (neg := neg) (nm := c!"oe.utils.ifelse") h1 (by decide) hr (by decide),
    oeUtilsAllDistroFeatures_none (neg := neg) (nm := c!"oe.utils.ifelse") h1 (by decide) hr (by decide),
    oeUtilsAnyDistroFeatures_none (neg := neg) (nm := c!"oe.utils.ifelse") h1 (by decide) hr (by decide),
    oeUtilsBothContain_none (neg := neg) (nm := c!"oe.utils.ifelse") h1 (by decide) hr (by decide),
    oeUtilsConditional_none (neg := neg) (nm := c!"oe.utils.ifelse") h1 (by decide) hr (by decide),
    hs]

theorem value_bothContain {v w t d T : Str} (hv : Free v) (hw : Free w) (ht : Quoted t T) (hd : Free d) (h1 : ∀ c ∈ lead, c = ' ') (h2 : ∀ c ∈ trail, c = ' ') :
    inlinerepClean (lead ++ callText c!"oe.utils.both_contain" [v, w, t, d] ++ trail) neg = some (if neg then [] else T) := by
  have e : lead ++ callText c!"oe.utils.both_contain" [v, w, t, d] ++ trail = lead ++ ((c!"oe.utils.both_contain" ++ ['(']) ++ (v ++ ',' :: (w ++ ',' :: (t ++ ',' :: (d ++ ')' :: trail))))) := by simp [callText, joinS]
  have hr : '(' ∉ v ++ ',' :: (w ++ ',' :: (t ++ ',' :: (d ++ ')' :: trail))) := by
    have := (free_blank h2).open
    have := hv.open
    have := hw.open
    have := ht.free.open
    have := hd.open
    simp_all
  have hn : c!"oe.utils.both_contain" <:+: lead ++ ((c!"oe.utils.both_contain" ++ ['(']) ++ (v ++ ',' :: (w ++ ',' :: (t ++ ',' :: (d ++ ')' :: trail))))) := ⟨lead, '(' :: (v ++ ',' :: (w ++ ',' :: (t ++ ',' :: (d ++ ')' :: trail)))), by simp⟩
  obtain ⟨ws, q, rfl, w1, w2, w3, w4, w5⟩ := ht
  have hs : oeUtilsBothContain (lead ++ ((c!"oe.utils.both_contain" ++ ['(']) ++ (v ++ ',' :: (w ++ ',' :: ((ws ++ q :: (T ++ [q])) ++ ',' :: (d ++ ')' :: trail)))))) neg = some (if neg then [] else T) := by
    refine (oneBranch_some (needle := c!"oe.utils.both_contain") (p := reOeUtilsBothContain) neg hn (shape_both (nm := c!"oe.utils.both_contain") h1 (by decide) hv hw hd w1 w2 w3 (free_blank h2).open rfl) rfl).trans ?_
    simp only [stripQuotes_quoted w2 w4 w5]
  unfold inlinerepClean
  rw [e]
  simp only [List.findSome?_cons, id,
    bbUtilsContains_none (neg := neg) (nm := c!"oe.utils.both_contain") h1 (by decide) hr (by decide),
    bbUtilsContainsAny_none (neg := neg) (nm := c!"oe.utils.both_contain") h1 (by decide) hr (by decide),
    bbUtilsFilter_none (neg := neg) (nm := c!"oe.utils.both_contain") h1 (by decide) hr (by decide),
    oeUtilsAllDistroFeatures_none (neg := neg) (nm := c!"oe.utils.both_contain") h1 (by decide) hr (by decide),
    oeUtilsAnyDistroFeatures_none (neg := neg) (nm := c!"oe.utils.both_contain") h1 (by decide) hr (by decide),
    hs]

theorem value_filter {t w d T : Str} (ht : Quoted t T) (hw : Free w) (hd : Free d) (h1 : ∀ c ∈ lead, c = ' ') (h2 : ∀ c ∈ trail, c = ' ') :
    inlinerepClean (lead ++ callText c!"bb.utils.filter" [t, w, d] ++ trail) neg = some (if neg then [] else T) := by
  have e : lead ++ callText c!"bb.utils.filter" [t, w, d] ++ trail = lead ++ ((c!"bb.utils.filter" ++ ['(']) ++ (t ++ ',' :: (w ++ ',' :: (d ++ ')' :: trail)))) := by simp [callText, joinS]
  have hr : '(' ∉ t ++ ',' :: (w ++ ',' :: (d ++ ')' :: trail)) := by
    have := (free_blank h2).open
    have := ht.free.open
    have := hw.open
    have := hd.open
    simp_all
  have hn : c!"bb.utils.filter" <:+: lead ++ ((c!"bb.utils.filter" ++ ['(']) ++ (t ++ ',' :: (w ++ ',' :: (d ++ ')' :: trail)))) := ⟨lead, '(' :: (t ++ ',' :: (w ++ ',' :: (d ++ ')' :: trail))), by simp⟩
  obtain ⟨ws, q, rfl, w1, w2, w3, w4, w5⟩ := ht
  have hs : bbUtilsFilter (lead ++ ((c!"bb.utils.filter" ++ ['(']) ++ ((ws ++ q :: (T ++ [q])) ++ ',' :: (w ++ ',' :: (d ++ ')' :: trail))))) neg = some (if neg then [] else T) := by
    refine (oneBranch_some (needle := c!"bb.utils.filter") (p := reBbUtilsFilter) neg hn (shape_filter (nm := c!"bb.utils.filter") h1 (by decide) hw hd w1 w2 w3 (free_blank h2).open rfl) rfl).trans ?_
    simp only [stripQuotes_quoted w2 w4 w5]
  unfold inlinerepClean
  rw [e]
  simp only [List.findSome?_cons, id,
    bbUtilsContains_none (neg := neg) (nm := c!"bb.utils.filter") h1 (by decide) hr (by decide),
    bbUtilsContainsAny_none (neg := neg) (nm := c!"bb.utils.filter") h1 (by decide) hr (by decide),
    hs]

theorem value_anyFeatures {d w : Str} (hd : Free d) (hw : Free w) (h1 : ∀ c ∈ lead, c = ' ') (h2 : ∀ c ∈ trail, c = ' ') :
    inlinerepClean (lead ++ callText c!"oe.utils.any_distro_features" [d, w] ++ trail) neg = some (if neg then [] else c!"1") := by
  have e : lead ++ callText c!"oe.utils.any_distro_features" [d, w] ++ trail = lead ++ ((c!"oe.utils.any_distro_features" ++ ['(']) ++ (d ++ ',' :: (w ++ ')' :: trail))) := by simp [callText, joinS]
  have hr : '(' ∉ d ++ ',' :: (w ++ ')' :: trail) := by
    have := (free_blank h2).open
    have := hd.open
    have := hw.open
    simp_all
  have hn : c!"oe.utils.any_distro_features" <:+: lead ++ ((c!"oe.utils.any_distro_features" ++ ['(']) ++ (d ++ ',' :: (w ++ ')' :: trail))) := ⟨lead, '(' :: (d ++ ',' :: (w ++ ')' :: trail)), by simp⟩
  have hr5 : '(' ∉ ')' :: trail := by simp_all
  have hs : oeUtilsAnyDistroFeatures (lead ++ ((c!"oe.utils.any_distro_features" ++ ['(']) ++ (d ++ ',' :: (w ++ ')' :: trail)))) neg = some (if neg then [] else c!"1") := by
    refine (featBranch_some (needle := c!"oe.utils.any_distro_features") (p := reOeUtilsAnyDistroFeatures) neg hn (shape_feat (nm := c!"oe.utils.any_distro_features") h1 (by decide) hd hw hr5 ⟨_, rfl, by decide⟩ (fun p g => featTail_end))).trans ?_
    cases neg <;> rfl
  unfold inlinerepClean
  rw [e]
  simp only [List.findSome?_cons, id,
    bbUtilsContains_none (neg := neg) (nm := c!"oe.utils.any_distro_features") h1 (by decide) hr (by decide),
    bbUtilsContainsAny_none (neg := neg) (nm := c!"oe.utils.any_distro_features") h1 (by decide) hr (by decide),
    bbUtilsFilter_none (neg := neg) (nm := c!"oe.utils.any_distro_features") h1 (by decide) hr (by decide),
    oeUtilsAllDistroFeatures_none (neg := neg) (nm := c!"oe.utils.any_distro_features") h1 (by decide) hr (by decide),
    hs]

theorem value_anyFeaturesTrue {d w t T : Str} (hd : Free d) (hw : Free w) (ht : Quoted t T) (h1 : ∀ c ∈ lead, c = ' ') (h2 : ∀ c ∈ trail, c = ' ') :
    inlinerepClean (lead ++ callText c!"oe.utils.any_distro_features" [d, w, t] ++ trail) neg = some (if neg then [] else T) := by
  have e : lead ++ callText c!"oe.utils.any_distro_features" [d, w, t] ++ trail = lead ++ ((c!"oe.utils.any_distro_features" ++ ['(']) ++ (d ++ ',' :: (w ++ ',' :: (t ++ ')' :: trail)))) := by simp [callText, joinS]
  have hr : '(' ∉ d ++ ',' :: (w ++ ',' :: (t ++ ')' :: trail)) := by
    have := (free_blank h2).open
    have := hd.open
    have := hw.open
    have := ht.free.open
    simp_all
  have hn : c!"oe.utils.any_distro_features" <:+: lead ++ ((c!"oe.utils.any_distro_features" ++ ['(']) ++ (d ++ ',' :: (w ++ ',' :: (t ++ ')' :: trail)))) := ⟨lead, '(' :: (d ++ ',' :: (w ++ ',' :: (t ++ ')' :: trail))), by simp⟩
  have hr5 : '(' ∉ ',' :: (t ++ ')' :: trail) := by simp_all
  obtain ⟨ws, q, rfl, w1, w2, w3, w4, w5⟩ := ht
  have hs : oeUtilsAnyDistroFeatures (lead ++ ((c!"oe.utils.any_distro_features" ++ ['(']) ++ (d ++ ',' :: (w ++ ',' :: ((ws ++ q :: (T ++ [q])) ++ ')' :: trail))))) neg = some (if neg then [] else T) := by
    refine (featBranch_some (needle := c!"oe.utils.any_distro_features") (p := reOeUtilsAnyDistroFeatures) neg hn (shape_feat (nm := c!"oe.utils.any_distro_features") h1 (by decide) hd hw hr5 ⟨_, rfl, by decide⟩ (fun p g => featTail_true (k := featVals reOeUtilsAnyDistroFeatures) (fun _ _ => rfl) w1 w2 w3))).trans ?_
    simp only [orDefault, stripQuotes_nil, stripQuotes_quoted w2 w4 w5]
  unfold inlinerepClean
  rw [e]
  simp only [List.findSome?_cons, id,
    bbUtilsContains_none (neg := neg) (nm := c!"oe.utils.any_distro_features") h1 (by decide) hr (by decide),
    bbUtilsContainsAny_none (neg := neg) (nm := c!"oe.utils.any_distro_features") h1 (by decide) hr (by decide),
    bbUtilsFilter_none (neg := neg) (nm := c!"oe.utils.any_distro_features") h1 (by decide) hr (by decide),
    oeUtilsAllDistroFeatures_none (neg := neg) (nm := c!"oe.utils.any_distro_features") h1 (by decide) hr (by decide),
    hs]

theorem value_anyFeaturesComma {d w t : Str} (hd : Free d) (hw : Free w) (ht : ∀ c ∈ t, c = ' ') (h1 : ∀ c ∈ lead, c = ' ') (h2 : ∀ c ∈ trail, c = ' ') :
    inlinerepClean (lead ++ callText c!"oe.utils.any_distro_features" [d, w, t] ++ trail) neg = some (if neg then [] else c!"1") := by
  have e : lead ++ callText c!"oe.utils.any_distro_features" [d, w, t] ++ trail = lead ++ ((c!"oe.utils.any_distro_features" ++ ['(']) ++ (d ++ ',' :: (w ++ ',' :: (t ++ ')' :: trail)))) := by simp [callText, joinS]
  have hr : '(' ∉ d ++ ',' :: (w ++ ',' :: (t ++ ')' :: trail)) := by
    have := (free_blank h2).open
    have := hd.open
    have := hw.open
    have := (free_blank ht).open
    simp_all
  have hn : c!"oe.utils.any_distro_features" <:+: lead ++ ((c!"oe.utils.any_distro_features" ++ ['(']) ++ (d ++ ',' :: (w ++ ',' :: (t ++ ')' :: trail)))) := ⟨lead, '(' :: (d ++ ',' :: (w ++ ',' :: (t ++ ')' :: trail))), by simp⟩
  have hr5 : '(' ∉ ',' :: (t ++ ')' :: trail) := by simp_all
  have hs : oeUtilsAnyDistroFeatures (lead ++ ((c!"oe.utils.any_distro_features" ++ ['(']) ++ (d ++ ',' :: (w ++ ',' :: (t ++ ')' :: trail))))) neg = some (if neg then [] else c!"1") := by
    refine (featBranch_some (needle := c!"oe.utils.any_distro_features") (p := reOeUtilsAnyDistroFeatures) neg hn (shape_feat (nm := c!"oe.utils.any_distro_features") h1 (by decide) hd hw hr5 ⟨_, rfl, by decide⟩ (fun p g => featTail_comma (k := featVals reOeUtilsAnyDistroFeatures) (fun _ _ => rfl) ht))).trans ?_
    cases neg <;> rfl
  unfold inlinerepClean
  rw [e]
  simp only [List.findSome?_cons, id,
    bbUtilsContains_none (neg := neg) (nm := c!"oe.utils.any_distro_features") h1 (by decide) hr (by decide),
    bbUtilsContainsAny_none (neg := neg) (nm := c!"oe.utils.any_distro_features") h1 (by decide) hr (by decide),
    bbUtilsFilter_none (neg := neg) (nm := c!"oe.utils.any_distro_features") h1 (by decide) hr (by decide),
    oeUtilsAllDistroFeatures_none (neg := neg) (nm := c!"oe.utils.any_distro_features") h1 (by decide) hr (by decide),
    hs]

theorem value_anyFeaturesBoth {d w t f T F : Str} (hd : Free d) (hw : Free w) (ht : Quoted t T) (hf : Quoted f F) (h1 : ∀ c ∈ lead, c = ' ') (h2 : ∀ c ∈ trail, c = ' ') :
    inlinerepClean (lead ++ callText c!"oe.utils.any_distro_features" [d, w, t, f] ++ trail) neg = some (if neg then F else T) := by
  have e : lead ++ callText c!"oe.utils.any_distro_features" [d, w, t, f] ++ trail = lead ++ ((c!"oe.utils.any_distro_features" ++ ['(']) ++ (d ++ ',' :: (w ++ ',' :: (t ++ ',' :: (f ++ ')' :: trail))))) := by simp [callText, joinS]
  have hr : '(' ∉ d ++ ',' :: (w ++ ',' :: (t ++ ',' :: (f ++ ')' :: trail))) := by
    have := (free_blank h2).open
    have := hd.open
    have := hw.open
    have := ht.free.open
    have := hf.free.open
    simp_all
  have hn : c!"oe.utils.any_distro_features" <:+: lead ++ ((c!"oe.utils.any_distro_features" ++ ['(']) ++ (d ++ ',' :: (w ++ ',' :: (t ++ ',' :: (f ++ ')' :: trail))))) := ⟨lead, '(' :: (d ++ ',' :: (w ++ ',' :: (t ++ ',' :: (f ++ ')' :: trail)))), by simp⟩
  have hr5 : '(' ∉ ',' :: (t ++ ',' :: (f ++ ')' :: trail)) := by simp_all
  obtain ⟨ws, q, rfl, w1, w2, w3, w4, w5⟩ := ht
  obtain ⟨ws', q', rfl, w1', w2', w3', w4', w5'⟩ := hf
  have hs : oeUtilsAnyDistroFeatures (lead ++ ((c!"oe.utils.any_distro_features" ++ ['(']) ++ (d ++ ',' :: (w ++ ',' :: ((ws ++ q :: (T ++ [q])) ++ ',' :: ((ws' ++ q' :: (F ++ [q'])) ++ ')' :: trail)))))) neg = some (if neg then F else T) := by
    refine (featBranch_some (needle := c!"oe.utils.any_distro_features") (p := reOeUtilsAnyDistroFeatures) neg hn (shape_feat (nm := c!"oe.utils.any_distro_features") h1 (by decide) hd hw hr5 ⟨_, rfl, by decide⟩ (fun p g => featTail_both (k := featVals reOeUtilsAnyDistroFeatures) (fun _ _ => rfl) (fun _ _ => rfl) w1 w2 w3 w1' w2' w3'))).trans ?_
    simp only [orDefault, stripQuotes_quoted w2 w4 w5, stripQuotes_quoted w2' w4' w5']
  unfold inlinerepClean
  rw [e]
  simp only [List.findSome?_cons, id,
    bbUtilsContains_none (neg := neg) (nm := c!"oe.utils.any_distro_features") h1 (by decide) hr (by decide),
    bbUtilsContainsAny_none (neg := neg) (nm := c!"oe.utils.any_distro_features") h1 (by decide) hr (by decide),
    bbUtilsFilter_none (neg := neg) (nm := c!"oe.utils.any_distro_features") h1 (by decide) hr (by decide),
    oeUtilsAllDistroFeatures_none (neg := neg) (nm := c!"oe.utils.any_distro_features") h1 (by decide) hr (by decide),
    hs]

theorem value_allFeatures {d w : Str} (hd : Free d) (hw : Free w) (h1 : ∀ c ∈ lead, c = ' ') (h2 : ∀ c ∈ trail, c = ' ') :
    inlinerepClean (lead ++ callText c!"oe.utils.all_distro_features" [d, w] ++ trail) neg = some (if neg then [] else c!"1") := by
  have e : lead ++ callText c!"oe.utils.all_distro_features" [d, w] ++ trail = lead ++ ((c!"oe.utils.all_distro_features" ++ ['(']) ++ (d ++ ',' :: (w ++ ')' :: trail))) := by simp [callText, joinS]
  have hr : '(' ∉ d ++ ',' :: (w ++ ')' :: trail) := by
    have := (free_blank h2).open
    have := hd.open
    have := hw.open
    simp_all
  have hn : c!"oe.utils.all_distro_features" <:+: lead ++ ((c!"oe.utils.all_distro_features" ++ ['(']) ++ (d ++ ',' :: (w ++ ')' :: trail))) := ⟨lead, '(' :: (d ++ ',' :: (w ++ ')' :: trail)), by simp⟩
  have hr5 : '(' ∉ ')' :: trail := by simp_all
  have hs : oeUtilsAllDistroFeatures (lead ++ ((c!"oe.utils.all_distro_features" ++ ['(']) ++ (d ++ ',' :: (w ++ ')' :: trail)))) neg = some (if neg then [] else c!"1") := by
    refine (featBranch_some (needle := c!"oe.utils.all_distro_features") (p := reOeUtilsAllDistroFeatures) neg hn (shape_feat (nm := c!"oe.utils.all_distro_features") h1 (by decide) hd hw hr5 ⟨_, rfl, by decide⟩ (fun p g => featTail_end))).trans ?_
    cases neg <;> rfl
  unfold inlinerepClean
  rw [e]
  simp only [List.findSome?_cons, id,
    bbUtilsContains_none (neg := neg) (nm := c!"oe.utils.all_distro_features") h1 (by decide) hr (by decide),
    bbUtilsContainsAny_none (neg := neg) (nm := c!"oe.utils.all_distro_features") h1 (by decide) hr (by decide),
    bbUtilsFilter_none (neg := neg) (nm := c!"oe.utils.all_distro_features") h1 (by decide) hr (by decide),
    hs]

theorem value_allFeaturesTrue {d w t T : Str} (hd : Free d) (hw : Free w) (ht : Quoted t T) (h1 : ∀ c ∈ lead, c = ' ') (h2 : ∀ c ∈ trail, c = ' ') :
    inlinerepClean (lead ++ callText c!"oe.utils.all_distro_features" [d, w, t] ++ trail) neg = some (if neg then [] else T) := by
  have e : lead ++ callText c!"oe.utils.all_distro_features" [d, w, t] ++ trail = lead ++ ((c!"oe.utils.all_distro_features" ++ ['(']) ++ (d ++ ',' :: (w ++ ',' :: (t ++ ')' :: trail)))) := by simp [callText, joinS]
  have hr : '(' ∉ d ++ ',' :: (w ++ ',' :: (t ++ ')' :: trail)) := by
    have := (free_blank h2).open
    have := hd.open
    have := hw.open
    have := ht.free.open
    simp_all
  have hn : c!"oe.utils.all_distro_features" <:+: lead ++ ((c!"oe.utils.all_distro_features" ++ ['(']) ++ (d ++ ',' :: (w ++ ',' :: (t ++ ')' :: trail)))) := ⟨lead, '(' :: (d ++ ',' :: (w ++ ',' :: (t ++ ')' :: trail))), by simp⟩
  have hr5 : '(' ∉ ',' :: (t ++ ')' :: trail) := by simp_all
  obtain ⟨ws, q, rfl, w1, w2, w3, w4, w5⟩ := ht
  have hs : oeUtilsAllDistroFeatures (lead ++ ((c!"oe.utils.all_distro_features" ++ ['(']) ++ (d ++ ',' :: (w ++ ',' :: ((ws ++ q :: (T ++ [q])) ++ ')' :: trail))))) neg = some (if neg then [] else T) := by
    refine (featBranch_some (needle := c!"oe.utils.all_distro_features") (p := reOeUtilsAllDistroFeatures) neg hn (shape_feat (nm := c!"oe.utils.all_distro_features") h1 (by decide) hd hw hr5 ⟨_, rfl, by decide⟩ (fun p g => featTail_true (k := featVals reOeUtilsAllDistroFeatures) (fun _ _ => rfl) w1 w2 w3))).trans ?_
    simp only [orDefault, stripQuotes_nil, stripQuotes_quoted w2 w4 w5]
  unfold inlinerepClean
  rw [e]
  simp only [List.findSome?_cons, id,
    bbUtilsContains_none (neg := neg) (nm := c!"oe.utils.all_distro_features") h1 (by decide) hr (by decide),
    bbUtilsContainsAny_none (neg := neg) (nm := c!"oe.utils.all_distro_features") h1 (by decide) hr (by decide),
    bbUtilsFilter_none (neg := neg) (nm := c!"oe.utils.all_distro_features") h1 (by decide) hr (by decide),
    hs]

theorem value_allFeaturesComma {d w t : Str} (hd : Free d) (hw : Free w) (ht : ∀ c ∈ t, c = ' ') (h1 : ∀ c ∈ lead, c = ' ') (h2 : ∀ c ∈ trail, c = ' ') :
    inlinerepClean (lead ++ callText c!"oe.utils.all_distro_features" [d, w, t] ++ trail) neg = some (if neg then [] else c!"1") := by
  have e : lead ++ callText c!"oe.utils.all_distro_features" [d, w, t] ++ trail = lead ++ ((c!"oe.utils.all_distro_features" ++ ['(']) ++ (d ++ ',' :: (w ++ ',' :: (t ++ ')' :: trail)))) := by simp [callText, joinS]
  have hr : '(' ∉ d ++ ',' :: (w ++ ',' :: (t ++ ')' :: trail)) := by
    have := (free_blank h2).open
    have := hd.open
    have := hw.open
    have := (free_blank ht).open
    simp_all
  have hn : c!"oe.utils.all_distro_features" <:+: lead ++ ((c!"oe.utils.all_distro_features" ++ ['(']) ++ (d ++ ',' :: (w ++ ',' :: (t ++ ')' :: trail)))) := ⟨lead, '(' :: (d ++ ',' :: (w ++ ',' :: (t ++ ')' :: trail))), by simp⟩
  have hr5 : '(' ∉ ',' :: (t ++ ')' :: trail) := by simp_all
  have hs : oeUtilsAllDistroFeatures (lead ++ ((c!"oe.utils.all_distro_features" ++ ['(']) ++ (d ++ ',' :: (w ++ ',' :: (t ++ ')' :: trail))))) neg = some (if neg then [] else c!"1") := by
    refine (featBranch_some (needle := c!"oe.utils.all_distro_features") (p := reOeUtilsAllDistroFeatures) neg hn (shape_feat (nm := c!"oe.utils.all_distro_features") h1 (by decide) hd hw hr5 ⟨_, rfl, by decide⟩ (fun p g => featTail_comma (k := featVals reOeUtilsAllDistroFeatures) (fun _ _ => rfl) ht))).trans ?_
    cases neg <;> rfl
  unfold inlinerepClean
  rw [e]
  simp only [List.findSome?_cons, id,
    bbUtilsContains_none (neg := neg) (nm := c!"oe.utils.all_distro_features") h1 (by decide) hr (by decide),
    bbUtilsContainsAny_none (neg := neg) (nm := c!"oe.utils.all_distro_features") h1 (by decide) hr (by decide),
    bbUtilsFilter_none (neg := neg) (nm := c!"oe.utils.all_distro_features") h1 (by decide) hr (by decide),
    hs]

theorem value_allFeaturesBoth {d w t f T F : Str} (hd : Free d) (hw : Free w) (ht : Quoted t T) (hf : Quoted f F) (h1 : ∀ c ∈ lead, c = ' ') (h2 : ∀ c ∈ trail, c = ' ') :
    inlinerepClean (lead ++ callText c!"oe.utils.all_distro_features" [d, w, t, f] ++ trail) neg = some (if neg then F else T) := by
  have e : lead ++ callText c!"oe.utils.all_distro_features" [d, w, t, f] ++ trail = lead ++ ((c!"oe.utils.all_distro_features" ++ ['(']) ++ (d ++ ',' :: (w ++ ',' :: (t ++ ',' :: (f ++ ')' :: trail))))) := by simp [callText, joinS]
  have hr : '(' ∉ d ++ ',' :: (w ++ ',' :: (t ++ ',' :: (f ++ ')' :: trail))) := by
    have := (free_blank h2).open
    have := hd.open
    have := hw.open
    have := ht.free.open
    have := hf.free.open
    simp_all
  have hn : c!"oe.utils.all_distro_features" <:+: lead ++ ((c!"oe.utils.all_distro_features" ++ ['(']) ++ (d ++ ',' :: (w ++ ',' :: (t ++ ',' :: (f ++ ')' :: trail))))) := ⟨lead, '(' :: (d ++ ',' :: (w ++ ',' :: (t ++ ',' :: (f ++ ')' :: trail)))), by simp⟩
  have hr5 : '(' ∉ ',' :: (t ++ ',' :: (f ++ ')' :: trail)) := by simp_all
  obtain ⟨ws, q, rfl, w1, w2, w3, w4, w5⟩ := ht
  obtain ⟨ws', q', rfl, w1', w2', w3', w4', w5'⟩ := hf
  have hs : oeUtilsAllDistroFeatures (lead ++ ((c!"oe.utils.all_distro_features" ++ ['(']) ++ (d ++ ',' :: (w ++ ',' :: ((ws ++ q :: (T ++ [q])) ++ ',' :: ((ws' ++ q' :: (F ++ [q'])) ++ ')' :: trail)))))) neg = some (if neg then F else T) := by
    refine (featBranch_some (needle := c!"oe.utils.all_distro_features") (p := reOeUtilsAllDistroFeatures) neg hn (shape_feat (nm := c!"oe.utils.all_distro_features") h1 (by decide) hd hw hr5 ⟨_, rfl, by decide⟩ (fun p g => featTail_both (k := featVals reOeUtilsAllDistroFeatures) (fun _ _ => rfl) (fun _ _ => rfl) w1 w2 w3 w1' w2' w3'))).trans ?_
    simp only [orDefault, stripQuotes_quoted w2 w4 w5, stripQuotes_quoted w2' w4' w5']
  unfold inlinerepClean
  rw [e]
  simp only [List.findSome?_cons, id,
    bbUtilsContains_none (neg := neg) (nm := c!"oe.utils.all_distro_features") h1 (by decide) hr (by decide),
    bbUtilsContainsAny_none (neg := neg) (nm := c!"oe.utils.all_distro_features") h1 (by decide) hr (by decide),
    bbUtilsFilter_none (neg := neg) (nm := c!"oe.utils.all_distro_features") h1 (by decide) hr (by decide),
    hs]


theorem shape_getVar {lead ws T ws' trail : Str} {q : Char} (h1 : ∀ c ∈ lead, c = ' ') (w1 : ∀ c ∈ ws, c = ' ') (w2 : q = '"' ∨ q = '\'')
    (w3 : Free T) (w6 : ∀ c ∈ T, reSpace c = false) (h3 : ∀ c ∈ ws', c = ' ') :
    run reDGetvar.re (fun t => some t.caps) ⟨0, lead ++ (c!"d.getVar(" ++ (ws ++ (q :: (T ++ [q]) ++ (ws' ++ ')' :: trail)))), []⟩
      = some [(1, q :: (T ++ [q]))] := by
  have hq : reSpace q = false := quote_not_space w2
  have hf := free_quoted w2 w3
  refine step_blanks (blank_space h1) (fun c hc => by cases hc; decide) (fun p _ => ?_)
  rw [run_seq]
  refine (run_lit_append c!"d.getVar(" _ _ _ _).trans ?_
  refine step_blanks (blank_space w1) (fun c hc => by cases hc; exact hq) (fun p _ => ?_)
  rw [run_seq]
  refine run_grp_lazy_some hf.newline (fun x hx p t cs => ?_) ?_
  · have hxs : reSpace x = false := by
      rcases List.mem_cons.1 hx with rfl | hx
      · exact hq
      · rcases List.mem_append.1 hx with hx | hx
        · exact w6 x hx
        · rcases List.mem_singleton.1 hx with rfl; exact hq
    have hxc : x ≠ ')' := fun h => hf.close (h ▸ hx)
    rw [run_seq, run_star_char_cons (charRe_cls false [.space])]
    simp only [CItem.test, List.any_cons, List.any_nil, Bool.or_false, hxs]
    exact run_lit_last_ne hxc
  · exact step_blanks (blank_space h3) (fun c hc => by cases hc; decide) (fun p _ => run_lit_append c!")" _ _ trail _)

theorem value_getVar {ws T ws' : Str} {q : Char} (h1 : ∀ c ∈ lead, c = ' ') (w1 : ∀ c ∈ ws, c = ' ') (w2 : q = '"' ∨ q = '\'')
    (w3 : Free T) (w4 : '"' ∉ T) (w5 : '\'' ∉ T) (w6 : ∀ c ∈ T, reSpace c = false) (h3 : ∀ c ∈ ws', c = ' ') (h2 : ∀ c ∈ trail, c = ' ') :
    inlinerepClean (lead ++ callText c!"d.getVar" [ws ++ q :: (T ++ [q]) ++ ws'] ++ trail) neg = some (c!"${" ++ T ++ c!"}") := by
  have e : lead ++ callText c!"d.getVar" [ws ++ q :: (T ++ [q]) ++ ws'] ++ trail
      = lead ++ ((c!"d.getVar" ++ ['(']) ++ (ws ++ (q :: (T ++ [q]) ++ (ws' ++ ')' :: trail)))) := by simp [callText, joinS]
  have hr : '(' ∉ ws ++ (q :: (T ++ [q]) ++ (ws' ++ ')' :: trail)) := by
    have := (free_blank h2).open
    have := (free_blank h3).«open»
    have := (free_blank w1).«open»
    have := (free_quoted w2 w3).open
    simp_all
  have hn : c!"d.getVar" <:+: lead ++ ((c!"d.getVar" ++ ['(']) ++ (ws ++ (q :: (T ++ [q]) ++ (ws' ++ ')' :: trail)))) := ⟨lead, '(' :: (ws ++ q :: (T ++ q :: (ws' ++ ')' :: trail))), by simp⟩
  have hs : dGetvar (lead ++ ((c!"d.getVar" ++ ['(']) ++ (ws ++ (q :: (T ++ [q]) ++ (ws' ++ ')' :: trail))))) = some (c!"${" ++ T ++ c!"}") := by
    obtain ⟨m, hm, hc⟩ := reMatch_of_run (shape_getVar (trail := trail) h1 w1 w2 w3 w6 h3)
    unfold dGetvar
    rw [if_pos (hasSub_iff.2 hn)]
    have hm' : reMatch reDGetvar.re (lead ++ ((c!"d.getVar" ++ ['(']) ++ (ws ++ (q :: (T ++ [q]) ++ (ws' ++ ')' :: trail))))) = some m := hm
    have hg : reDGetvar.group m c!"val" = some (q :: (T ++ [q])) := by
      show m.group 1 = _
      unfold Mt.group
      rw [hc]
      rfl
    simp only [hm', hg, Option.getD_some, stripQuotes_quoted w2 w4 w5]
  unfold inlinerepClean
  rw [e]
  simp only [List.findSome?_cons, id,
    bbUtilsContains_none (neg := neg) (nm := c!"d.getVar") h1 (by decide) hr (by decide),
    bbUtilsContainsAny_none (neg := neg) (nm := c!"d.getVar") h1 (by decide) hr (by decide),
    bbUtilsFilter_none (neg := neg) (nm := c!"d.getVar") h1 (by decide) hr (by decide),
    oeUtilsAllDistroFeatures_none (neg := neg) (nm := c!"d.getVar") h1 (by decide) hr (by decide),
    oeUtilsAnyDistroFeatures_none (neg := neg) (nm := c!"d.getVar") h1 (by decide) hr (by decide),
    oeUtilsBothContain_none (neg := neg) (nm := c!"d.getVar") h1 (by decide) hr (by decide),
    oeUtilsConditional_none (neg := neg) (nm := c!"d.getVar") h1 (by decide) hr (by decide),
    oeUtilsIfelse_none (neg := neg) (nm := c!"d.getVar") h1 (by decide) hr (by decide),
    oeUtilsLessOrEqual_none (neg := neg) (nm := c!"d.getVar") h1 (by decide) hr (by decide),
    oeUtilsVartrue_none (neg := neg) (nm := c!"d.getVar") h1 (by decide) hr (by decide),
    oeUtilsVersionLessOrEqual_none (neg := neg) (nm := c!"d.getVar") h1 (by decide) hr (by decide),
    hs]


theorem call_value {name : Str} {args : List Str} {T F : Str} (hc : HelperCall name args T F) (h1 : ∀ c ∈ lead, c = ' ')
    (h2 : ∀ c ∈ trail, c = ' ') : inlinerepClean (lead ++ callText name args ++ trail) neg = some (if neg then F else T) := by
  cases hc with
  | contains hv hw ht hf hd => exact value_contains hv hw ht hf hd h1 h2
  | containsAny hv hw ht hf hd => exact value_containsAny hv hw ht hf hd h1 h2
  | filter ht hw hd => exact value_filter ht hw hd h1 h2
  | conditional hv hw ht hf hd => exact value_conditional hv hw ht hf hd h1 h2
  | ifelse hv ht hf => exact value_ifelse hv ht hf h1 h2
  | anyFeatures hd hw => exact value_anyFeatures hd hw h1 h2
  | anyFeaturesTrue hd hw ht => exact value_anyFeaturesTrue hd hw ht h1 h2
  | anyFeaturesComma hd hw ht => exact value_anyFeaturesComma hd hw ht h1 h2
  | anyFeaturesBoth hd hw ht hf => exact value_anyFeaturesBoth hd hw ht hf h1 h2
  | allFeatures hd hw => exact value_allFeatures hd hw h1 h2
  | allFeaturesTrue hd hw ht => exact value_allFeaturesTrue hd hw ht h1 h2
  | allFeaturesComma hd hw ht => exact value_allFeaturesComma hd hw ht h1 h2
  | allFeaturesBoth hd hw ht hf => exact value_allFeaturesBoth hd hw ht hf h1 h2
  | vartrue hv ht hf hd => exact value_vartrue hv ht hf hd h1 h2
  | lessOrEqual hv hw ht hf hd => exact value_lessOrEqual hv hw ht hf hd h1 h2
  | versionLessOrEqual hv hw ht hf hd => exact value_versionLessOrEqual hv hw ht hf hd h1 h2
  | bothContain hv hw ht hd => exact value_bothContain hv hw ht hd h1 h2

theorem Spec.HelperCall.head {name : Str} {args : List Str} {T F : Str} (hc : HelperCall name args T F) :
    ∀ c ∈ (callText name args).head?, oneOf c!"${@" c = false := by
  cases hc <;> intro c h <;> cases h <;> decide

theorem inlinerep_call {name : Str} {args : List Str} {T F : Str} (hc : HelperCall name args T F) (h1 : ∀ c ∈ lead, c = ' ')
    (h2 : ∀ c ∈ trail, c = ' ') : inlinerep (inlineText lead (callText name args) trail) neg = some (if neg then F else T) := by
  rw [inlinerep_clean, cleanInline_call h1 h2 hc.head ⟨name ++ c!"(" ++ joinS c!"," args, by simp [callText]⟩]
  exact call_value hc h1 h2

theorem inlinerep_getVar {a T ws' : Str} (ha : Quoted a T) (w6 : ∀ c ∈ T, reSpace c = false) (h1 : ∀ c ∈ lead, c = ' ')
    (h3 : ∀ c ∈ ws', c = ' ') (h2 : ∀ c ∈ trail, c = ' ') :
    inlinerep (inlineText lead (callText c!"d.getVar" [a ++ ws']) trail) neg = some (c!"${" ++ T ++ c!"}") := by
  obtain ⟨ws, q, rfl, w1, w2, w3, w4, w5⟩ := ha
  rw [inlinerep_clean, cleanInline_call h1 h2 (fun c h => by cases h; decide)
    ⟨c!"d.getVar" ++ c!"(" ++ joinS c!"," [ws ++ q :: (T ++ [q]) ++ ws'], by simp [callText]⟩]
  exact value_getVar h1 w1 w2 w3 w4 w5 w6 h3 h2

end values
end Oelint

import Verif.Props.Settled
/-! # Properties of `ExpandTerm`: C109 -/
set_option linter.unusedSectionVars false
namespace Oelint
open Spec
section
variable [Uni]

theorem expands_append {W : World} {s : Stash} {file : Str} {sp : List Str} {a o : Str} (h : Expands W s file sp a o) :
    ∀ {r' o'}, Expands W s file sp r' o' → Expands W s file sp (a ++ r') (o ++ o') := by
  induction h with
  | nil => exact fun h => h
  | char hc _ ih => exact fun h => .char hc (ih h)
  | dollar hc hb _ ih => exact fun h => .dollar hc hb (ih h)
  | spared hn hs _ ih => intro _ _ h; rw [List.append_assoc, List.append_assoc]; exact .spared hn hs (ih h)
  | unknown hn hs hu _ ih => intro _ _ h; rw [List.append_assoc, List.append_assoc]; exact .unknown hn hs hu (ih h)
  | name hn hs hu hf hd _ ih => intro _ _ h; rw [List.append_assoc, List.append_assoc]; exact .name hn hs hu hf hd (ih h)
  | defined hn hs hd hc hv _ _ ih => intro _ _ h; rw [List.append_assoc, List.append_assoc]; exact .defined hn hs hd hc hv (ih h)

theorem noCalls_infix {a b : Str} (h : NoCalls b) (hi : a <:+: b) : NoCalls a :=
  ⟨fun hg => h.noGetVar (hg.trans hi), fun hr => h.noReadFile (hr.trans hi)⟩

/-- **C109** (partial) Text is expanded piece by piece: if no definition depends on itself, and every `${` of the two pieces starts a reference,
then expanding the whole gives the expansion of the first piece followed by that of the second.
What is missing: cyclic definitions, see `C109_negation`, and calls of `getVar` and `read_file` in the text. -/
theorem C109_piecewise_partial (W : World) (s : Stash) (file : Str) (spare : List Str) (a b : Str) (ns ns' : List Str) (d : KV)
    (hb : setsBase s.consts = .ok (.dict d)) (hd : ∀ k j, d.get k = some j → ∃ t, j = .str t) (rank : Str → Nat)
    (hr : Acyclic W s file rank) (hf : ∀ n t, FromFileName file n t → '$' ∉ t) (ha : Written a ns) (hb' : Written b ns')
    (hc : NoCalls (a ++ b)) :
    ∃ o o', expandTermS W s file spare a = .ok o ∧ expandTermS W s file spare b = .ok o' ∧
      expandTermS W s file spare (a ++ b) = .ok (o ++ o') := by
  obtain ⟨o, h1, h2, -⟩ := C51_acyclic_definitions W s file spare a ns d hb hd rank hr hf ha (noCalls_infix hc ⟨[], b, by simp⟩)
  obtain ⟨o', h1', h2', -⟩ := C51_acyclic_definitions W s file spare b ns' d hb hd rank hr hf hb' (noCalls_infix hc ⟨a, [], by simp⟩)
  exact ⟨o, o', h2, h2', expandTermS_expands hb hc (expands_append h1 h1')⟩

end

/-! ## examples -/
section
attribute [local instance] Sample.asciiUni

/-- `A = "${B}x"`, `B = "${A}y"` -/
def Sample.loop : Stash :=
  { Sample.stash with items := [Sample.assign 1 c!"A" c!"${B}x", Sample.assign 2 c!"B" c!"${A}y"] }

/-- **C109** (in general it is false). With `A = "${B}x"` and `B = "${A}y"` the text `${A}` expands to `yx` and `${B}` to `xy`, but `${A}${B}`
to `yxy`: what a name stands for is kept as it was found in the middle of the cycle. -/
theorem C109_negation :
    expandTermS (Sample.world []) Sample.loop c!"/a/b_1.bb" [] c!"${A}" = .ok c!"yx" ∧
    expandTermS (Sample.world []) Sample.loop c!"/a/b_1.bb" [] c!"${B}" = .ok c!"xy" ∧
    expandTermS (Sample.world []) Sample.loop c!"/a/b_1.bb" [] c!"${A}${B}" = .ok c!"yxy" := by
  decide +kernel

/-- C109: the hypotheses are met -/
example : ∃ o o', expandTermS (Sample.world []) { Sample.stash with items := [Sample.assign 2 c!"B" c!"1${U}"] } c!"/a/b_1.bb" [] c!"<${B}" = .ok o ∧
    expandTermS (Sample.world []) { Sample.stash with items := [Sample.assign 2 c!"B" c!"1${U}"] } c!"/a/b_1.bb" [] c!"${B}${PN}>" = .ok o' ∧
    expandTermS (Sample.world []) { Sample.stash with items := [Sample.assign 2 c!"B" c!"1${U}"] } c!"/a/b_1.bb" [] (c!"<${B}" ++ c!"${B}${PN}>") = .ok (o ++ o') := by
  refine C109_piecewise_partial _ _ _ _ _ _ [c!"B"] [c!"B", c!"PN"] .nil rfl (by rintro k j ⟨⟩) _ Sample.acyclic_B ?_
    (.char (by decide) (.ref (n := c!"B") (r := []) (Sample.name _ (by decide)) .nil))
    (.ref (n := c!"B") (r := c!"${PN}>") (Sample.name _ (by decide)) (.ref (n := c!"PN") (r := c!">") (Sample.name _ (by decide)) (.char (by decide) .nil)))
    ⟨by decide +kernel, by unfold ReadsFile; decide +kernel⟩
  intro n t h
  cases h with
  | pn => decide +kernel
  | bpn => decide +kernel
  | pv h _ =>
    have h' : guessRecipeVersion c!"/a/b_1.bb" = some c!"1" := by decide +kernel
    rw [h'] at h; cases h; decide
  | pvDefault _ => decide
  | file => decide
  | thisdir => decide +kernel

/-- what they are -/
example : expandTermS (Sample.world []) { Sample.stash with items := [Sample.assign 2 c!"B" c!"1${U}"] } c!"/a/b_1.bb" [] c!"<${B}${B}${PN}>" =
    .ok c!"<1${U}1${U}b>" := by decide +kernel

end
end Oelint

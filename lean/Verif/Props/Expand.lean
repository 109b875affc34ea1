import Verif.Lemmas.ExpandMeaning
import Verif.Lemmas.SampleRuns
/-! # Properties of `ExpandTerm`: C49, C50, C51 -/
set_option linter.unusedSectionVars false
namespace Oelint
variable [Uni]
open Spec

/-! ## C49 -/

/-- **C49** (`ExpandTerm` terminates). The result does not depend on the recursion depth that is allowed, once it is
large enough, and is not a recursion error; whatever is in `seen` already, also when definitions are cyclic. -/
theorem C49_expansion_terminates (W : World) (s : Stash) (file : Str) (spare : List Str) (value : Str) (seen : Seen) :
    ∃ depth, ∀ n, depth ≤ n →
      expandTermF W s n file spare value seen = expandTermF W s depth file spare value seen ∧
      expandTermF W s n file spare value seen ≠ .error .recursionError := by
  refine ⟨expandNeed s value seen, fun n hn => ?_⟩
  obtain ⟨h1, h2, -⟩ := expandTermF_settled W s n (expandNeed s value seen) file spare value seen hn (Nat.le_refl _)
  exact ⟨h1, h2⟩

/-- **C49** (the depth). A depth that is linear in the length of the text and in the number of known names times the
longest definition is enough; it is the one that `expandTermS` uses. -/
theorem C49_depth (W : World) (s : Stash) (file : Str) (spare : List Str) (value : Str) (n : Nat)
    (h : ((knownNames s).length + 1) * (value.length + ((knownTexts s).map List.length).foldl max 0 + 2) + 1 ≤ n) :
    (expandTermF W s n file spare value []).map (·.1) = expandTermS W s file spare value ∧
    expandTermS W s file spare value ≠ .error .recursionError :=
  expandTerm_fuel W s file spare value n h

/-! ## C50 -/

/-- **C50** (nothing to expand). A text without reference, without `getVar` and without `read_file` is returned unchanged. -/
theorem C50_no_reference (W : World) (s : Stash) (file : Str) (spare : List Str) (value : Str) (b : J)
    (hb : setsBase s.consts = .ok b) (h1 : ∀ n, ¬ Refers value n) (h2 : ∀ n, ¬ CallsGetVar value n) (h3 : ¬ ReadsFile value) :
    expandTermS W s file spare value = .ok value :=
  expandTermS_keep W s hb file spare value (fun n h => absurd h (h1 n)) (fun n h => absurd h (h2 n)) h3

/-- **C50** (unknown and spared names). A text whose references are all to unknown names or to names in `spare` is
returned unchanged. -/
theorem C50_unknown_or_spared (W : World) (s : Stash) (file : Str) (spare : List Str) (value : Str) (b : J)
    (hb : setsBase s.consts = .ok b) (h1 : ∀ n, Refers value n → n ∈ spare ∨ Unknown s file n)
    (h2 : ∀ n, CallsGetVar value n → n ∈ spare ∨ Unknown s file n) (h3 : ¬ ReadsFile value) :
    expandTermS W s file spare value = .ok value :=
  expandTermS_keep W s hb file spare value h1 h2 h3

/-- **C50** (among other references). Also when other references of the text are expanded, one to an unknown name or to
a name in `spare` stays where it is. -/
theorem C50_among_others (W : World) (s : Stash) (file : Str) (spare : List Str) (a r n o₁ o₂ : Str) (b : J)
    (hb : setsBase s.consts = .ok b) (hn : Name n) (h : n ∈ spare ∨ Unknown s file n) (hc : NoCalls (a ++ refText n ++ r))
    (ha : Expands W s file spare a o₁) (hr : Expands W s file spare r o₂) :
    expandTermS W s file spare (a ++ refText n ++ r) = .ok (o₁ ++ refText n ++ o₂) := by
  refine expandTermS_expands hb hc ?_
  have h1 : Expands W s file spare (refText n ++ r) (refText n ++ o₂) := by
    by_cases hs : n ∈ spare
    · exact .spared hn hs hr
    · exact .unknown hn hs (h.resolve_left hs) hr
  rw [List.append_assoc, List.append_assoc]
  have key : ∀ {sp a o}, Expands W s file sp a o → ∀ {r' o'}, Expands W s file sp r' o' →
      Expands W s file sp (a ++ r') (o ++ o') := by
    intro sp a o h
    induction h with
    | nil => exact fun h => h
    | char hc _ ih => exact fun h => .char hc (ih h)
    | dollar hc hb _ ih => exact fun h => .dollar hc hb (ih h)
    | spared hn hs _ ih => intro _ _ h; rw [List.append_assoc, List.append_assoc]; exact .spared hn hs (ih h)
    | unknown hn hs hu _ ih => intro _ _ h; rw [List.append_assoc, List.append_assoc]; exact .unknown hn hs hu (ih h)
    | name hn hs hu hf hd _ ih => intro _ _ h; rw [List.append_assoc, List.append_assoc]; exact .name hn hs hu hf hd (ih h)
    | defined hn hs hd hc hv _ _ ih => intro _ _ h; rw [List.append_assoc, List.append_assoc]; exact .defined hn hs hd hc hv (ih h)
  exact key ha h1

/-! ## C51 -/

/-- **C51** (`ExpandTerm` substitutes). If reading the text from left to right, replacing each reference by the full
expansion of its first assignment, else of its entry in the base set, else by what the file name says, gives `o`, then
`ExpandTerm` returns `o`. -/
theorem C51_expansion_substitutes (W : World) (s : Stash) (file : Str) (spare : List Str) (value o : Str) (b : J)
    (hb : setsBase s.consts = .ok b) (hc : NoCalls value) (h : Expands W s file spare value o) :
    expandTermS W s file spare value = .ok o :=
  expandTermS_expands hb hc h

/-- **C51** (when there is such an expansion). If no definition depends on itself, every text in which each `${` starts a
reference has a full expansion, and exactly one. -/
theorem C51_acyclic_definitions (W : World) (s : Stash) (file : Str) (spare : List Str) (value : Str) (ns : List Str) (d : KV)
    (hb : setsBase s.consts = .ok (.dict d)) (hd : ∀ k j, d.get k = some j → ∃ t, j = .str t) (rank : Str → Nat)
    (hr : Acyclic W s file rank) (hf : ∀ n t, FromFileName file n t → '$' ∉ t) (hw : Written value ns) (hc : NoCalls value) :
    ∃ o, Expands W s file spare value o ∧ expandTermS W s file spare value = .ok o ∧
      ∀ o', Expands W s file spare value o' → o' = o := by
  obtain ⟨k, hk⟩ : ∃ k, ∀ n ∈ ns, rank n < k := by
    refine ⟨(ns.map rank).foldl max 0 + 1, fun n hn => ?_⟩
    have := (foldl_max_nat (ns.map rank) 0).2 _ (List.mem_map.2 ⟨n, hn, rfl⟩)
    omega
  obtain ⟨o, ho⟩ := expands_of_acyclic hb hd hr hf k spare value ns hw hk
  have h1 := expandTermS_expands hb hc ho
  refine ⟨o, ho, h1, fun o' ho' => ?_⟩
  have h2 := expandTermS_expands hb hc ho'
  rw [h1] at h2
  cases h2
  rfl

/-- **C51** (which assignment is the first). No assignment of the name in the file or a linked file is on a smaller `Line`. -/
theorem C51_first_assignment (W : World) (s : Stash) (file n : Str) (hn : n ≠ []) (x : Item) (h : FirstAssignment W s file n x)
    (y : Item) (hy : Assigns s file n y) : x.line ≤ y.line := by
  obtain ⟨pre, post, h1, h2, h3⟩ := h
  obtain ⟨v, hp, -⟩ := hy.2.2
  have hm := (mem_assignments (W := W) hn).2 ⟨hp, hy⟩
  unfold assignments at hm
  obtain ⟨z, hz, hz'⟩ := List.mem_filterMap.1 hm
  have hzy : z = y := by
    unfold asAssignment at hz'
    split at hz'
    · split at hz'
      · cases hz'; rfl
      · cases hz'
    · cases hz'
  subst hzy
  rw [h1] at hz
  have hs := reduceL_sorted W s s.items (varFilter file n)
  rw [show reduceL W s s.items (varFilter file n) = getItemsFor W s (varFilter file n) from rfl, h1] at hs
  rcases List.mem_append.1 hz with hz | hz
  · exact absurd hy (h3 z hz)
  · rcases List.mem_cons.1 hz with rfl | hz
    · omega
    · exact (List.pairwise_cons.1 (List.pairwise_append.1 hs).2.1).1 z hz

end Oelint

/-! ## examples -/
namespace Oelint
open Spec
section
attribute [local instance] Sample.asciiUni

/-- `name = "value"` on a line of /a/b_1.bb -/
def Sample.assign (line : Int) (name value : Str) : Item :=
  mkVariable line.toNat ⟨line, [], line, false, c!"/a/b_1.bb", name ++ c!" = \"" ++ value ++ c!"\"", []⟩ name
    (c!"\"" ++ value ++ c!"\"") c!" = "

/-- `A = "x${B}y"`, `B = "1${U}"`, `B = "2"`, `C = "${D}"`, `D = "-${C}"` -/
def Sample.defs : Stash :=
  { Sample.stash with items := [Sample.assign 1 c!"A" c!"x${B}y", Sample.assign 2 c!"B" c!"1${U}", Sample.assign 3 c!"B" c!"2",
      Sample.assign 4 c!"C" c!"${D}", Sample.assign 5 c!"D" c!"-${C}"] }

example : expandTermS (Sample.world []) Sample.defs c!"/a/b_1.bb" [] c!"${A}-${PN}-${PV}-$x-${U}" = .ok c!"x1${U}y-b-1-$x-${U}" := by
  decide +kernel
/-- C49: cyclic definitions -/
example : expandTermS (Sample.world []) Sample.defs c!"/a/b_1.bb" [] c!"<${C}|${D}>" = .ok c!"<-|->" := by decide +kernel
example : ∃ depth, ∀ n, depth ≤ n → expandTermF (Sample.world []) Sample.defs n c!"/a/b_1.bb" [] c!"${C}" [] ≠ .error .recursionError :=
  (C49_expansion_terminates _ _ _ _ _ _).imp fun _ h n hn => (h n hn).2

theorem Sample.defs_base : setsBase Sample.defs.consts = .ok J.empty := rfl

/-- C50: the hypotheses are met -/
example : expandTermS (Sample.world []) Sample.defs c!"/a/b_1.bb" [] c!"plain $text {}" = .ok c!"plain $text {}" := by
  refine C50_no_reference _ _ _ _ _ _ Sample.defs_base ?_ ?_ (by unfold ReadsFile; decide +kernel)
  · rintro n ⟨h, -⟩
    have : c!"${" <:+: c!"plain $text {}" := (List.prefix_append _ _).isInfix.trans ((List.prefix_append _ _).isInfix.trans h)
    revert this; decide +kernel
  · rintro n ⟨q, q', args, -, h, -⟩
    have : c!"getVar(" <:+: c!"plain $text {}" := (List.prefix_append _ _).isInfix.trans h
    revert this; decide +kernel

/-- C50: a spared name stays; a name that is only reached through another definition is expanded nevertheless -/
example : expandTermS (Sample.world []) Sample.defs c!"/a/b_1.bb" [c!"B"] c!"${A} ${B}" = .ok c!"x1${U}y ${B}" := by decide +kernel

theorem Sample.unknown_U : Unknown Sample.defs c!"/a/b_1.bb" c!"U" := by
  refine ⟨(assignments_nil (W := Sample.world []) (by simp)).1 (by decide +kernel), fun b hb => ?_, by decide⟩
  rw [Sample.defs_base] at hb; cases hb; rfl

theorem Sample.defined_B : Defined (Sample.world []) Sample.defs c!"/a/b_1.bb" c!"B" c!"1${U}" := by
  have h := Defined.assigned (W := Sample.world []) (s := Sample.defs) (file := c!"/a/b_1.bb") (n := c!"B")
    (x := Sample.assign 2 c!"B" c!"1${U}") (v := ⟨c!"B", [], [], c!"\"1${U}\"", c!" = ", c!"B"⟩)
    ⟨[], [Sample.assign 3 c!"B" c!"2"], by decide +kernel, ?_, by simp⟩ (by decide +kernel)
  · have ht : assignmentText (Sample.assign 2 c!"B" c!"1${U}") ⟨c!"B", [], [], c!"\"1${U}\"", c!" = ", c!"B"⟩ = c!"1${U}" := by
      decide +kernel
    rwa [ht] at h
  · refine ⟨by decide +kernel, fun _ => Or.inl (by decide +kernel), ⟨c!"B", [], [], c!"\"1${U}\"", c!" = ", c!"B"⟩,
      by decide +kernel, rfl, by decide +kernel⟩

theorem Sample.name (n : Str) (h : n ≠ [] ∧ '$' ∉ n ∧ '}' ∉ n ∧ '\n' ∉ n) : Name n := ⟨h.1, h.2.1, h.2.2.1, h.2.2.2⟩

/-- C51: the hypotheses are met -/
example : expandTermS (Sample.world []) Sample.defs c!"/a/b_1.bb" [] c!"<${B}>" = .ok c!"<1${U}>" := by
  refine C51_expansion_substitutes _ _ _ _ _ _ _ Sample.defs_base ⟨by decide +kernel, by unfold ReadsFile; decide +kernel⟩ ?_
  refine .char (by decide) (.defined (n := c!"B") (t := c!"1${U}") (v := c!"1${U}") (r := c!">") (o := c!">")
    (Sample.name _ (by decide)) (by simp) Sample.defined_B ⟨by decide +kernel, by unfold ReadsFile; decide +kernel⟩ ?_ ?_)
  · exact .char (by decide) (.unknown (n := c!"U") (r := []) (o := []) (Sample.name _ (by decide)) (by simp) Sample.unknown_U .nil)
  · exact .char (by decide) .nil

/-- C51: definitions without cycle, with rank 1 for `B` and 0 for every other name -/
theorem Sample.acyclic_B : Acyclic (Sample.world []) { Sample.stash with items := [Sample.assign 2 c!"B" c!"1${U}"] } c!"/a/b_1.bb"
    (fun n => if n = c!"B" then 1 else 0) := by
  intro n t h
  have hx : ∀ x, Assigns { Sample.stash with items := [Sample.assign 2 c!"B" c!"1${U}"] } c!"/a/b_1.bb" n x →
      n = c!"B" ∧ x = Sample.assign 2 c!"B" c!"1${U}" := by
    rintro x ⟨h1, -, v, h2, h3, -⟩
    have h1 : x = Sample.assign 2 c!"B" c!"1${U}" := by simpa using h1
    subst h1
    have h4 : (Sample.assign 2 c!"B" c!"1${U}").payload = .variable ⟨c!"B", [], [], c!"\"1${U}\"", c!" = ", c!"B"⟩ := by
      decide +kernel
    rw [h4] at h2
    cases h2
    exact ⟨h3.symm, rfl⟩
  cases h with
  | @assigned x v hf hp =>
    obtain ⟨_, _, _, ha, _⟩ := hf
    obtain ⟨rfl, rfl⟩ := hx _ ha
    have h4 : (Sample.assign 2 c!"B" c!"1${U}").payload = .variable ⟨c!"B", [], [], c!"\"1${U}\"", c!" = ", c!"B"⟩ := by
      decide +kernel
    rw [h4] at hp
    cases hp
    have ht : assignmentText (Sample.assign 2 c!"B" c!"1${U}") ⟨c!"B", [], [], c!"\"1${U}\"", c!" = ", c!"B"⟩ = c!"1${U}" := by
      decide +kernel
    rw [ht]
    refine ⟨⟨by decide +kernel, by unfold ReadsFile; decide +kernel⟩, [c!"U"], ?_, by simp⟩
    exact .char (by decide) (.ref (n := c!"U") (r := []) (Sample.name _ (by decide)) .nil)
  | base _ h2 h3 =>
    have h5 : setsBase Sample.stash.consts = .ok J.empty := rfl
    rw [show setsBase _ = setsBase Sample.stash.consts from rfl, h5] at h2
    cases h2
    cases h3

end

end Oelint

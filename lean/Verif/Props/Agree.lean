import Verif.Props.DependsVar
/-! C114: a reference to a variable stands for the value of the variable. -/
set_option linter.unusedSectionVars false
namespace Oelint
section
variable [Uni]
open Spec

/-- what `ExpandVar` gives for `n` follows from the statements about `n` -/
theorem expandVar_text {W : World} {s : Stash} {file : Str} {att val : Arg} {nolink : Bool} {r : List (Str × List Str)} {b : KV}
    (h : expandVar W s (some file) att val nolink = .ok r) (hb : setsBase s.consts = .ok (.dict b)) (hbn : b.keys.Nodup) (hp : PlainNames s s.items)
    {n : Str} {l : List Item} (hl : StatementsAbout s file att val nolink n l) :
    (∃ base, Base s file n base ∧ ((dget n r).isSome = true ↔ Present base (events n l) (mods n l))) ∧
    ∀ items, dget n r = some items → ∃ u o, TextOf s file n l u ∧ expandTerm W s file u = .ok o ∧ items = safeLinesplit o := by
  obtain ⟨its, d, h1, h2, h3⟩ := expandVar_ok h
  have e : its.filter (fun x => decide (Concerns n x)) = l := by
    refine rising_unique hl.rising (h1.sorted.filter _) (h1.nodup.filter _) fun x => ?_
    rw [List.mem_filter, h1.mem, hl.all, decide_eq_true_iff]
    tauto
  have pl : PlainNames s its := by
    intro k hk
    refine hp k (hk.imp_left ?_)
    rintro ⟨x, hx, hv⟩
    exact ⟨x, ((h1.mem x).1 hx).1, hv⟩
  obtain ⟨b1, hb1, hall⟩ := expInit_base h2
  rw [hb] at hb1
  cases hb1
  obtain ⟨k1, k2, k3, k4⟩ := hall hbn
  have keys : ∀ k ∈ (finalDict its d).map (·.1), expandTerm W s file k = .ok k := by
    intro k hk
    obtain ⟨h5, h6⟩ := pl k (finalDict_names hb k4 k hk)
    exact expandTerm_plain hb h5 h6
  obtain ⟨i1, i2⟩ := explode_plain h3 (finalDict_keys k1) keys n
  have same : dget n (finalDict its d) = dget n (finalDict l d) := by
    refine finalDict_about (forall₂_of_map_eq (congrArg _ ?_))
    rw [← e, List.filter_filter]
    simp
  rw [same] at i1 i2
  refine ⟨?_, fun items hi => ?_⟩
  · obtain ⟨o, g1, g2⟩ := k2 n
    refine ⟨o, g1, i1.trans ?_⟩
    rw [finalDict_isSome, g2]
    unfold Present
    cases o <;> simp
  · obtain ⟨v, hv⟩ := Option.isSome_iff_exists.1 (i1.1 (by rw [hi]; rfl))
    obtain ⟨t, ht, hr⟩ := i2 v hv
    have := base_text k2 l n
    rw [hv] at this
    rw [hi] at hr
    exact ⟨_, t, this, ht, Option.some.inj hr⟩

section
variable {W : World} {s : Stash} {file : Str}

/-- a reference expands as the text it stands for -/
theorem expandTerm_ref {b : KV} (hb : setsBase s.consts = .ok (.dict b)) (hd : ∀ k j, b.get k = some j → ∃ t, j = .str t) {rank : Str → Nat}
    (hr : Acyclic W s file rank) (hf : ∀ n t, FromFileName file n t → '$' ∉ t) {n u : Str} (hn : Name n) (hg : NoCalls (refText n)) (hu : Defined W s file n u) :
    expandTerm W s file (refText n) = expandTerm W s file u := by
  obtain ⟨hc, ns, hw, -⟩ := hr n u hu
  obtain ⟨o, ho, he, -⟩ := C51_acyclic_definitions W s file [] u ns b hb hd rank hr hf hw hc
  have := Expands.defined (spare := []) (r := []) (o := []) hn (by simp) hu hc ho .nil
  rw [List.append_nil, List.append_nil] at this
  exact (C51_expansion_substitutes W s file [] _ o _ hb hg this).trans he.symm
end

/-- **C114, partial** (in general). If the statements about `n` give the text that `n` stands for in other texts, namely that of its first assignment, the items `ExpandVar` gives for `n` are those
of the expansion of `${n}`. (No definition depends on itself, no name contains a reference.) Missing: see `C114_negation`. -/
theorem C114_same_text_partial (W : World) (s : Stash) (file : Str) (r : List (Str × List Str)) (b : KV) (att val : Arg) (nolink : Bool)
    (h : expandVar W s (some file) att val nolink = .ok r) (hb : setsBase s.consts = .ok (.dict b)) (hbn : b.keys.Nodup)
    (hd : ∀ k j, b.get k = some j → ∃ t, j = .str t) (hp : PlainNames s s.items) (rank : Str → Nat)
    (hr : Acyclic W s file rank) (hf : ∀ n t, FromFileName file n t → '$' ∉ t) (n : Str) (hn : Name n) (hg : NoCalls (refText n))
    (l : List Item) (hl : StatementsAbout s file att val nolink n l) (u : Str) (ht : TextOf s file n l u) (hu : Defined W s file n u)
    (items : List Str) (hi : dget n r = some items) : ∃ o, expandTerm W s file (refText n) = .ok o ∧ items = safeLinesplit o := by
  obtain ⟨u', o, h1, h2, h3⟩ := (expandVar_text h hb hbn hp hl).2 items hi
  have := textOf_unique ht h1
  subst this
  exact ⟨o, (expandTerm_ref hb hd hr hf hn hg hu).trans h2, h3⟩

/-- **C114, partial** (one assignment). If one statement of the file and its links is about `n`, with or without overrides, and it assigns `n` with `=` or `:=`, or with `?=` or `??=` where there is no other value,
written with one blank on each side, `ExpandVar` gives for `n` the items of the expansion of `${n}`. -/
theorem C114_one_assignment_partial (W : World) (s : Stash) (file : Str) (r : List (Str × List Str)) (b : KV)
    (h : expandVar W s (some file) .none .none false = .ok r) (hb : setsBase s.consts = .ok (.dict b)) (hbn : b.keys.Nodup)
    (hd : ∀ k j, b.get k = some j → ∃ t, j = .str t) (hp : PlainNames s s.items) (rank : Str → Nat)
    (hr : Acyclic W s file rank) (hf : ∀ n t, FromFileName file n t → '$' ∉ t) (n : Str) (hn : Name n) (hg : NoCalls (refText n))
    (x : Item) (hl : StatementsAbout s file .none .none false n [x]) (hA : ∀ y, Assigns s file n y → y = x)
    (v : VarData) (hx : x.payload = .variable v) (hs : v.subItems = [])
    (hop : v.varOp ∈ [c!" = ", c!" := "] ∨ v.varOp ∈ [c!" ?= ", c!" ??= "] ∧ Base s file n none) :
    ∃ o, expandTerm W s file (refText n) = .ok o ∧ dget n r = some (safeLinesplit o) := by
  obtain ⟨hx1, hx2, hx3⟩ := (hl.all x).1 (by simp)
  have hname : v.varName = n := by
    unfold Concerns at hx2
    rw [hx] at hx2
    simpa [varNameCompleteNoModifiers, hs, joinS] using hx2
  have hm : ¬ Modifies v := by unfold Modifies; simp [hs]
  have hop' : v.varOp ∈ [c!" = ", c!" := ", c!" ?= ", c!" ??= "] := by
    simp only [List.mem_cons, List.not_mem_nil, or_false] at hop ⊢; tauto
  have happ : appendOperation v = [] := by
    simp only [List.mem_cons, List.not_mem_nil, or_false] at hop'
    unfold appendOperation
    rw [hs]
    have : stripP pySpace v.varOp ∉ [c!"+=", c!".=", c!"=+", c!"=."] := by
      rcases hop' with e | e | e | e <;> rw [e] <;> simp [stripP, lstripP, rstripP, pySpace, reSpace]
    simp [this]
  have hlink : file ≠ [] → LinkedTo s file false x := fun hne => hx3.elim (fun h => h.file file rfl hne) (fun h => h.file file rfl hne)
  have hass : Assigns s file n x := ⟨hx1, hlink, v, hx, hname, happ⟩
  have hdef : Defined W s file n (assignmentText x v) := by
    refine .assigned ?_ hx
    have hmem : (x, v) ∈ assignments W s file n := (mem_assignments hn.ne).2 ⟨hx, hass⟩
    have hmem : x ∈ getItemsFor W s (varFilter file n) := by
      unfold assignments at hmem
      obtain ⟨z, hz, hz'⟩ := List.mem_filterMap.1 hmem
      unfold asAssignment at hz'
      split at hz'
      · split at hz'
        · cases hz'; exact hz
        · cases hz'
      · cases hz'
    obtain ⟨pre, post, e⟩ := List.append_of_mem hmem
    refine ⟨pre, post, e, hass, fun y hy hAy => ?_⟩
    have hnd := reduceL_nodup W s s.items (varFilter file n)
    rw [show reduceL W s s.items (varFilter file n) = pre ++ x :: post from e, List.nodup_append] at hnd
    exact hnd.2.2 y hy x (by simp) (hA y hAy)
  have hmods : mods n [x] = [] := by
    unfold mods modOf; rw [List.filterMap_cons]; simp [hx, hm]
  have hev : events n [x] = [.assign (stripP pySpace v.varOp) (varValueStripped v)] := by
    unfold Concerns at hx2
    rw [hx] at hx2
    unfold events eventOf
    rw [List.filterMap_cons]
    simp only [hx] at hx2 ⊢
    simp [hm, hx2]
  obtain ⟨⟨base, hbase, hpres⟩, hitems⟩ := expandVar_text h hb hbn hp hl
  have htext : TextOf s file n [x] (assignmentText x v) := by
    refine ⟨base, _, hbase, immediate_fold n [x] _, ?_⟩
    rw [hmods]
    have hstep : stepItem n (base.map some) x = some (some (assignmentText x v)) := by
      unfold stepItem
      unfold Concerns at hx2
      rw [hx] at hx2
      simp only [hx] at hx2 ⊢
      rw [if_pos ⟨hm, hx2⟩]
      unfold immediateOp assignmentText
      simp only
      split
      · rfl
      · rcases hop with ho | ⟨ho, hbn⟩
        · simp only [List.mem_cons, List.not_mem_nil, or_false] at ho
          rcases ho with e | e <;> simp [e]
        · have := base_unique hbase hbn
          subst this
          simp only [List.mem_cons, List.not_mem_nil, or_false] at ho
          rcases ho with e | e <;> simp [e]
    rw [List.foldl_cons, List.foldl_nil, hstep]
    simp [startText, extended, prepends, appends, removes, without]
  have hsome : (dget n r).isSome = true := hpres.2 (.inr (.inl ⟨_, _, by rw [hev]; rfl⟩))
  obtain ⟨items, hi⟩ := Option.isSome_iff_exists.1 hsome
  obtain ⟨o, h1, h2⟩ := C114_same_text_partial W s file r b .none .none false h hb hbn hd hp rank hr hf n hn hg [x] hl _ htext hdef items hi
  exact ⟨o, h1, by rw [hi, h2]⟩

/-- **C114, partial** (base set). If no statement is about `n`, and the base set has a text for it, `ExpandVar` gives for `n` the items of the expansion of `${n}`. -/
theorem C114_base_set_partial (W : World) (s : Stash) (file : Str) (r : List (Str × List Str)) (b : KV)
    (h : expandVar W s (some file) .none .none false = .ok r) (hb : setsBase s.consts = .ok (.dict b)) (hbn : b.keys.Nodup)
    (hd : ∀ k j, b.get k = some j → ∃ t, j = .str t) (hp : PlainNames s s.items) (rank : Str → Nat)
    (hr : Acyclic W s file rank) (hf : ∀ n t, FromFileName file n t → '$' ∉ t) (n : Str) (hn : Name n) (hg : NoCalls (refText n))
    (hl : StatementsAbout s file .none .none false n []) (hA : ∀ y, ¬ Assigns s file n y) (t : Str) (ht : b.get n = some (.str t)) :
    ∃ o, expandTerm W s file (refText n) = .ok o ∧ dget n r = some (safeLinesplit o) := by
  obtain ⟨⟨base, hbase, hpres⟩, hitems⟩ := expandVar_text h hb hbn hp hl
  have := base_unique hbase (.base hb ht)
  subst this
  obtain ⟨items, hi⟩ := Option.isSome_iff_exists.1 (hpres.2 (.inr (.inr ⟨rfl, by simp⟩)))
  have htext : TextOf s file n [] t := ⟨some t, _, hbase, .nil, by simp [startText, extended, prepends, appends, removes, without, mods]⟩
  obtain ⟨o, h1, h2⟩ := C114_same_text_partial W s file r b .none .none false h hb hbn hd hp rank hr hf n hn hg [] hl t htext (.base hA hb ht) items hi
  exact ⟨o, h1, by rw [hi, h2]⟩
end

/-! ## examples -/
section
attribute [local instance] Sample.asciiUni
open Spec

/-- `A = "1"`, `A = "2"`, `B = "x"`, `B:append = "y"` -/
def Sample.assignedTwice : Stash := { Sample.stash with items := [Sample.assign 1 c!"A" c!"1", Sample.assign 2 c!"A" c!"2", Sample.assign 3 c!"B" c!"x", Sample.assign 4 c!"B:append" c!"y"] }

/-- **C114** is false: a reference stands for the first assignment, `ExpandVar` gives what the last one assigns, with what is appended. -/
theorem C114_negation :
    expandTerm (Sample.world []) Sample.assignedTwice c!"/a/b_1.bb" c!"${A}" = .ok c!"1" ∧ expandTerm (Sample.world []) Sample.assignedTwice c!"/a/b_1.bb" c!"${B}" = .ok c!"x" ∧
    (expandVar (Sample.world []) Sample.assignedTwice (some c!"/a/b_1.bb") .none .none false).toOption.map (fun r => (dget c!"A" r, dget c!"B" r)) =
      some (some [c!"2"], some [c!"xy"]) := by
  decide +kernel

/-- C114: the hypotheses are met -/
example (r : List (Str × List Str)) (h : expandVar (Sample.world []) { Sample.stash with items := [Sample.assign 2 c!"B" c!"1${U}"] } (some c!"/a/b_1.bb") .none .none false = .ok r) :
    ∃ o, expandTerm (Sample.world []) { Sample.stash with items := [Sample.assign 2 c!"B" c!"1${U}"] } c!"/a/b_1.bb" c!"${B}" = .ok o ∧ dget c!"B" r = some (safeLinesplit o) := by
  refine C114_one_assignment_partial _ _ _ r .nil h rfl (by decide) (by rintro k j ⟨⟩) (Sample.plainNames (by decide +kernel) rfl) _ Sample.acyclic_B ?_ c!"B" (Sample.name _ (by decide))
    ⟨by decide +kernel, by unfold ReadsFile; decide +kernel⟩ (Sample.assign 2 c!"B" c!"1${U}") ?_ ?_ ⟨c!"B", [], [], c!"\"1${U}\"", c!" = ", c!"B"⟩ (by decide +kernel) rfl (.inl (by decide))
  · intro n t h
    cases h with
    | pn => decide +kernel
    | bpn => decide +kernel
    | pv h1 _ => have : guessRecipeVersion c!"/a/b_1.bb" = some c!"1" := by decide +kernel
                 rw [this] at h1; cases h1; decide
    | pvDefault _ => decide
    | file => decide
    | thisdir => decide +kernel
  · have := Sample.statements (s := { Sample.stash with items := [Sample.assign 2 c!"B" c!"1${U}"] }) (by decide +kernel) c!"/a/b_1.bb" .none .none false c!"B"
    convert this using 1
    decide +kernel
  · rintro y ⟨hy, -⟩
    simpa using hy

/-- a stash with the base set `X: "1"` -/
def Sample.withBase : Stash := { Sample.stash with items := [], consts := .dict (.cons c!"sets" (.dict (.cons c!"base" (.dict (.cons c!"X" (.str c!"1") .nil)) .nil)) .nil) }

/-- C114: the hypotheses are met -/
example (r : List (Str × List Str)) (h : expandVar (Sample.world []) Sample.withBase (some c!"/a/b_1.bb") .none .none false = .ok r) :
    ∃ o, expandTerm (Sample.world []) Sample.withBase c!"/a/b_1.bb" c!"${X}" = .ok o ∧ dget c!"X" r = some (safeLinesplit o) := by
  have get : ∀ k j, (KV.cons c!"X" (.str c!"1") .nil).get k = some j → k = c!"X" ∧ j = .str c!"1" := by
    intro k j hk
    unfold KV.get at hk
    split at hk
    · rename_i hc; cases hk; exact ⟨(by simpa using hc : _ = k).symm, rfl⟩
    · cases hk
  have none : ∀ n x, ¬ Assigns Sample.withBase c!"/a/b_1.bb" n x := by
    rintro n x ⟨hx, -⟩; cases hx
  refine C114_base_set_partial _ _ _ r (.cons c!"X" (.str c!"1") .nil) h rfl (by decide) (fun k j hk => ⟨_, (get k j hk).2⟩) ?_ (fun _ => 0) ?_ ?_ c!"X" (Sample.name _ (by decide))
    ⟨by decide +kernel, by unfold ReadsFile; decide +kernel⟩ ?_ (none _) c!"1" rfl
  · rintro k (⟨x, hx, -⟩ | ⟨b, hb, hk⟩ | hk)
    · cases hx
    · cases hb
      simp only [KV.keys, List.mem_cons, List.not_mem_nil, or_false] at hk
      subst hk; decide
    · simp only [List.mem_cons, List.not_mem_nil, or_false] at hk
      rcases hk with rfl | rfl | rfl <;> decide
  · intro n t hn
    cases hn with
    | assigned hf _ => exact absurd hf.choose_spec.choose_spec.2.1 (none _ _)
    | base _ hb ht =>
      cases hb
      obtain ⟨-, e⟩ := get _ _ ht
      cases e
      exact ⟨⟨by decide +kernel, by unfold ReadsFile; decide +kernel⟩, [], .char (by decide) .nil, by simp⟩
  · intro n t h
    cases h with
    | pn => decide +kernel
    | bpn => decide +kernel
    | pv h1 _ => have : guessRecipeVersion c!"/a/b_1.bb" = some c!"1" := by decide +kernel
                 rw [this] at h1; cases h1; decide
    | pvDefault _ => decide
    | file => decide
    | thisdir => decide +kernel
  · exact ⟨.nil, fun x => ⟨fun h => (by cases h), fun h => (by cases h.1)⟩⟩
end
end Oelint

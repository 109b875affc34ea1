import Verif.Spec.MeaningRefs
import Verif.Props.Meaning
/-! C117: what the references of a recipe become follows from its text. -/
set_option linter.unusedSectionVars false
namespace Oelint
section
variable [Uni]
open Spec

theorem gives_iff {it : Item} {d : Decl} {v : VarData} (he : EntryItem it (.decl d)) (hv : it.payload = .variable v) (n : Str) :
    d.gives n = true ↔ v.varName = n ∧ appendOperation v = [] := by
  cases he with
  | @decl _ w hw hn hs ht ho hop hb hap hvn =>
    rw [hv] at hw
    cases hw
    have hstrip : stripP pySpace v.varOp = d.op := by
      rw [ho]
      revert hop
      generalize d.op = op
      intro hop
      simp only [operators, List.mem_cons, List.not_mem_nil, or_false] at hop
      rcases hop with rfl | rfl | rfl | rfl | rfl | rfl | rfl | rfl <;> decide
    unfold Decl.gives Decl.late appendOperation
    rw [hstrip, hs, hvn]
    simp only [Bool.and_eq_true, beq_iff_eq, Bool.not_eq_true', later, List.any_cons, List.any_nil, Bool.or_false, Bool.or_eq_false_iff]
    constructor
    · rintro ⟨⟨h1, h2, h3, h4⟩, h5⟩
      refine ⟨h1, ?_⟩
      rw [h5, h2, h3, h4]
      rfl
    · rintro ⟨h1, h2⟩
      refine ⟨⟨h1, ?_⟩, ?_⟩
      all_goals
        simp only [List.append_eq_nil_iff, ite_eq_right_iff, List.cons_ne_nil, imp_false, Bool.not_eq_true] at h2
      · exact ⟨h2.1.1.2, h2.1.2, h2.2⟩
      · exact h2.1.1.1

theorem entry_text {it : Item} {d : Decl} {v : VarData} (he : EntryItem it (.decl d)) (hv : it.payload = .variable v) : assignmentText it v = d.text := by
  cases he with
  | @decl _ w hw hn hs ht ho hop hb hap hvn =>
    rw [hv] at hw
    cases hw
    unfold assignmentText
    rw [ht, if_neg]
    intro hh
    exact hb (hasSub_iff.1 hh)

theorem exists_first {W : World} {s : Stash} {file n : Str} (hn : n ≠ []) {y : Item} (hy : Assigns s file n y) : ∃ x, FirstAssignment W s file n x := by
  classical
  obtain ⟨v, hp, -⟩ := hy.2.2
  have hm := (mem_assignments (W := W) hn).2 ⟨hp, hy⟩
  unfold assignments at hm
  obtain ⟨z, hz, hz'⟩ := List.mem_filterMap.1 hm
  have hzy : z = y := by
    unfold asAssignment at hz'
    split at hz'
    · split at hz'
      · cases hz'; rfl
      · cases hz'
    · cases hz'
  subst hzy
  cases e : (getItemsFor W s (varFilter file n)).find? (fun x => decide (Assigns s file n x)) with
  | none => exact absurd hy (by simpa using List.find?_eq_none.1 e z hz)
  | some x =>
    obtain ⟨h1, pre, post, h2, h3⟩ := List.find?_eq_some_iff_append.1 e
    exact ⟨x, pre, post, h2, by simpa using h1, fun y hy => by simpa using h3 y hy⟩

section
variable {D : World} {consts : J} {file : Str} {u : Stash} {res : List Item} {es : List Entry}

theorem RecipeRead.assigns (R : RecipeRead consts file u res es) {n : Str} {x : Item} : Assigns u file n x ↔ x ∈ res ∧ ∃ v, x.payload = .variable v ∧ v.varName = n ∧ appendOperation v = [] := by
  unfold Assigns
  rw [R.items]
  exact ⟨fun ⟨a, _, b⟩ => ⟨a, b⟩, fun ⟨a, b⟩ => ⟨a, fun _ => R.linked x a, b⟩⟩

/-- the first item that assigns `n` is the first declaration that gives a text -/
theorem entries_find {n : Str} {res : List Item} {es : List Entry} (hE : List.Forall₂ EntryItem res es) :
    (∀ d, (decls es).find? (Decl.gives n) = some d → ∃ pre x post v, res = pre ++ x :: post ∧ x.payload = .variable v ∧ v.varName = n ∧ appendOperation v = [] ∧ assignmentText x v = d.text ∧
      ∀ y ∈ pre, ¬ ∃ v, y.payload = .variable v ∧ v.varName = n ∧ appendOperation v = []) ∧
    ((decls es).find? (Decl.gives n) = none → ∀ y ∈ res, ¬ ∃ v, y.payload = .variable v ∧ v.varName = n ∧ appendOperation v = []) := by
  induction hE with
  | nil => simp [decls]
  | @cons it e res es he _ ih =>
    cases e with
    | other st =>
      have hno : ¬ ∃ v, it.payload = .variable v ∧ v.varName = n ∧ appendOperation v = [] := by
        rintro ⟨v, hv, -⟩
        cases he with
        | other hc => rw [hv] at hc; exact absurd (by simp [Payload.classifier]) hc
      simp only [decls]
      refine ⟨fun d hd => ?_, fun hd y hy => ?_⟩
      · obtain ⟨pre, x, post, v, h1, h2, h3, h4, h5, h6⟩ := ih.1 d hd
        refine ⟨it :: pre, x, post, v, by rw [h1]; rfl, h2, h3, h4, h5, fun y hy => ?_⟩
        rcases List.mem_cons.1 hy with rfl | hy
        exacts [hno, h6 y hy]
      · rcases List.mem_cons.1 hy with rfl | hy
        exacts [hno, ih.2 hd y hy]
    | decl d0 =>
      obtain ⟨v, hv⟩ : ∃ v, it.payload = .variable v := by cases he with | decl hv => exact ⟨_, hv⟩
      have hg := gives_iff he hv n
      simp only [decls, List.find?_cons]
      by_cases hgd : d0.gives n = true
      · rw [hgd]
        refine ⟨fun d hd => ?_, fun hd => by cases hd⟩
        cases hd
        exact ⟨[], it, res, v, rfl, hv, (hg.1 hgd).1, (hg.1 hgd).2, entry_text he hv, by simp⟩
      · rw [Bool.not_eq_true] at hgd
        have hno : ¬ ∃ v, it.payload = .variable v ∧ v.varName = n ∧ appendOperation v = [] := by
          rintro ⟨w, hw, hh⟩
          rw [hv] at hw
          cases hw
          rw [hg.2 hh] at hgd
          cases hgd
        rw [hgd]
        refine ⟨fun d hd => ?_, fun hd y hy => ?_⟩
        · obtain ⟨pre, x, post, v, h1, h2, h3, h4, h5, h6⟩ := ih.1 d hd
          refine ⟨it :: pre, x, post, v, by rw [h1]; rfl, h2, h3, h4, h5, fun y hy => ?_⟩
          rcases List.mem_cons.1 hy with rfl | hy
          exacts [hno, h6 y hy]
        · rcases List.mem_cons.1 hy with rfl | hy
          exacts [hno, ih.2 hd y hy]

variable (R : RecipeRead consts file u res es) {b : KV} (hb : setsBase consts = .ok (.dict b)) (hd : ∀ k j, b.get k = some j → ∃ t, j = .str t)
include R hb hd

theorem RecipeRead.defined_some {n t : Str} (h : Defined D u file n t) : stands b (decls es) n ≠ none := by
  intro hs
  unfold stands at hs
  cases hf : (decls es).find? (Decl.gives n) with
  | some d => rw [hf] at hs; cases hs
  | none =>
    rw [hf] at hs
    cases h with
    | assigned hx _ =>
      obtain ⟨-, -, -, hya, -⟩ := hx
      exact (entries_find R.entries).2 hf _ (R.assigns.1 hya).1 (R.assigns.1 hya).2
    | base _ h2 h3 =>
      rw [R.base.trans hb] at h2
      cases h2
      rw [h3] at hs
      cases hs

/-- what a name stands for -/
theorem RecipeRead.defined {n t : Str} (hn : n ≠ []) : stands b (decls es) n = some t ↔ Defined D u file n t := by
  have hbu : setsBase u.consts = .ok (.dict b) := R.base.trans hb
  have fwd : ∀ t, stands b (decls es) n = some t → Defined D u file n t := by
    intro t h
    unfold stands at h
    cases hf : (decls es).find? (Decl.gives n) with
    | some d =>
      rw [hf] at h
      cases h
      obtain ⟨pre, x, post, v, h1, h2, h3, h4, h5, h6⟩ := (entries_find R.entries).1 d hf
      have hx : Assigns u file n x := R.assigns.2 ⟨by rw [h1]; simp, v, h2, h3, h4⟩
      obtain ⟨y, hy⟩ := exists_first (W := D) hn hx
      have hxy : y = x := by
        have hle := C51_first_assignment D u file n hn y hy x hx
        obtain ⟨-, -, -, hya, -⟩ := hy
        obtain ⟨hym, hyv⟩ := R.assigns.1 hya
        have hr := R.rising
        rw [h1] at hym hr
        rcases List.mem_append.1 hym with hm | hm
        · exact absurd hyv (h6 y hm)
        · rcases List.mem_cons.1 hm with rfl | hm
          · rfl
          · have := (List.pairwise_cons.1 (List.pairwise_append.1 hr).2.1).1 y hm
            omega
      subst hxy
      rw [← h5]
      exact .assigned hy h2
    | none =>
      rw [hf] at h
      refine .base (fun x hx => (entries_find R.entries).2 hf x (R.assigns.1 hx).1 (R.assigns.1 hx).2) hbu ?_
      cases hg : b.get n with
      | none => rw [hg] at h; cases h
      | some j =>
        obtain ⟨s, rfl⟩ := hd n j hg
        rw [hg] at h
        cases h
        rfl
  refine ⟨fwd t, fun h => ?_⟩
  cases hs : stands b (decls es) n with
  | some t' => rw [defined_unique hbu hn h (fwd t' hs)]
  | none => exact absurd hs (R.defined_some hb hd h)

theorem RecipeRead.undefined {n : Str} (h : stands b (decls es) n = none) : Undefined u file n := by
  unfold stands at h
  cases hf : (decls es).find? (Decl.gives n) with
  | some d => rw [hf] at h; cases h
  | none =>
    rw [hf] at h
    refine ⟨fun x hx => (entries_find R.entries).2 hf x (R.assigns.1 hx).1 (R.assigns.1 hx).2, fun b' hb' => ?_⟩
    rw [R.base, hb] at hb'
    cases hb'
    cases hg : b.get n with
    | none => simp [J.has, hg]
    | some j =>
      obtain ⟨s, rfl⟩ := hd n j hg
      rw [hg] at h
      cases h

theorem RecipeRead.filled {t o : Str} (h : Filled b (decls es) file t o) : Expands D u file [] t o := by
  induction h with
  | nil => exact .nil
  | char hc _ ih => exact .char hc ih
  | dollar hc hc' _ ih => exact .dollar hc hc' ih
  | text hn hs hc _ _ ih1 ih2 => exact .defined hn (by simp) ((R.defined hb hd hn.ne).1 hs) hc ih1 ih2
  | name hn hs hf ht _ ih => exact .name hn (by simp) (R.undefined hb hd hs) hf ht ih
  | unknown hn hs hk _ ih => exact .unknown hn (by simp) ⟨(R.undefined hb hd hs).1, (R.undefined hb hd hs).2, hk⟩ ih

theorem RecipeRead.expands {t o : Str} (h : Expands D u file [] t o) : Filled b (decls es) file t o := by
  have hbu : setsBase u.consts = .ok (.dict b) := R.base.trans hb
  have none_of : ∀ n, n ≠ [] → Undefined u file n → stands b (decls es) n = none := by
    intro n hn hun
    cases hs : stands b (decls es) n with
    | none => rfl
    | some t => exact absurd hun (fun hun => defined_not_undefined ((R.defined (D := D) hb hd hn).1 hs) hun)
  generalize hsp : ([] : List Str) = spare at h
  induction h with
  | nil => exact .nil
  | char hc _ ih => exact .char hc (ih hsp)
  | dollar hc hc' _ ih => exact .dollar hc hc' (ih hsp)
  | spared _ hm => subst hsp; cases hm
  | unknown hn _ hu _ ih => exact .unknown hn (none_of _ hn.ne ⟨hu.1, hu.2.1⟩) hu.2.2 (ih hsp)
  | name hn _ hu hf ht _ ih => exact .name hn (none_of _ hn.ne hu) hf ht (ih hsp)
  | defined hn _ hu hc _ _ ih1 ih2 => exact .text hn ((R.defined hb hd hn.ne).2 hu) hc (ih1 rfl) (ih2 hsp)
end

/-- **C117**. A recipe of entries, read into a fresh stash: `ExpandTerm` for this file replaces the references of a text as the declarations of the recipe say. -/
theorem C117_references (W D : World) (ns neg : Bool) (consts : J) (hu : UsableConstants consts) (uid k : Nat) (path : Str) (off : Int) (forced : Option Str) (u : Stash) (res : List Item)
    (h : addFile W k path off forced (Stash.init ns neg consts uid) = (.ok res, u)) (t : Str) (hf : W.file (abspath W.cwd path) = .text t)
    (ls : List Str) (gs : List (List Str)) (hl : IsLines (univNewlines t) ls) (hg : Groups ls gs) (es : List Entry)
    (hst : List.Forall₂ (fun g e => ¬ c!"${@" <:+: g.flatten ∧ joined g.flatten = e.stmt.text ∧ e.Ok) gs es)
    (b : KV) (hb : setsBase consts = .ok (.dict b)) (hd : ∀ k j, b.get k = some j → ∃ t, j = .str t) (value o : Str) (hc : NoCalls value)
    (ho : Filled b (decls es) (abspath W.cwd path) value o) : expandTerm D u (abspath W.cwd path) value = .ok o := by
  have R := recipe_read hu h hf hl hg hst
  exact C51_expansion_substitutes D u _ [] value o _ (R.base.trans hb) hc (R.filled hb hd ho)

/-- **C117** (there is exactly one such text). If no declaration depends on itself, every text in which each `${` starts a reference has exactly one text with its references replaced, and this is
what `ExpandTerm` returns. -/
theorem C117_unique (W D : World) (ns neg : Bool) (consts : J) (hu : UsableConstants consts) (uid k : Nat) (path : Str) (off : Int) (forced : Option Str) (u : Stash) (res : List Item)
    (h : addFile W k path off forced (Stash.init ns neg consts uid) = (.ok res, u)) (t : Str) (hf : W.file (abspath W.cwd path) = .text t)
    (ls : List Str) (gs : List (List Str)) (hl : IsLines (univNewlines t) ls) (hg : Groups ls gs) (es : List Entry)
    (hst : List.Forall₂ (fun g e => ¬ c!"${@" <:+: g.flatten ∧ joined g.flatten = e.stmt.text ∧ e.Ok) gs es)
    (b : KV) (hb : setsBase consts = .ok (.dict b)) (hd : ∀ k j, b.get k = some j → ∃ t, j = .str t)
    (rank : Str → Nat) (hr : Ranked b (decls es) rank) (hempty : stands b (decls es) [] = none) (hff : ∀ n t, FromFileName (abspath W.cwd path) n t → '$' ∉ t)
    (value : Str) (names : List Str) (hw : Written value names) (hc : NoCalls value) :
    ∃ o, Filled b (decls es) (abspath W.cwd path) value o ∧ (∀ o', Filled b (decls es) (abspath W.cwd path) value o' → o' = o) ∧
      expandTerm D u (abspath W.cwd path) value = .ok o := by
  have R := recipe_read hu h hf hl hg hst
  have hA : Acyclic D u (abspath W.cwd path) rank := by
    intro n t hn
    by_cases hne : n = []
    · subst hne
      exact absurd hempty (R.defined_some hb hd hn)
    · exact hr n t ((R.defined hb hd hne).2 hn)
  obtain ⟨o, h1, h2, h3⟩ := C51_acyclic_definitions D u _ [] value names b (R.base.trans hb) hd rank hA hff hw hc
  exact ⟨o, R.expands hb hd h1, fun o' ho' => h3 o' (R.filled hb hd ho'), h2⟩

/-- **C117** (values). The items `ExpandVar` gives for a variable are those of its text (C116) with the references replaced as the declarations say. -/
theorem C117_values (W D : World) (ns neg : Bool) (consts : J) (hu : UsableConstants consts) (uid k : Nat) (path : Str) (off : Int) (forced : Option Str) (u : Stash) (res : List Item)
    (h : addFile W k path off forced (Stash.init ns neg consts uid) = (.ok res, u)) (t : Str) (hf : W.file (abspath W.cwd path) = .text t)
    (ls : List Str) (gs : List (List Str)) (hl : IsLines (univNewlines t) ls) (hg : Groups ls gs) (es : List Entry)
    (hst : List.Forall₂ (fun g e => ¬ c!"${@" <:+: g.flatten ∧ joined g.flatten = e.stmt.text ∧ e.Ok) gs es)
    (r : List (Str × List Str)) (hr : expandVar D u (some (abspath W.cwd path)) .none .none false = .ok r)
    (b : KV) (hb : setsBase consts = .ok (.dict b)) (hd : ∀ k j, b.get k = some j → ∃ t, j = .str t)
    (hbn : b.keys.Nodup) (hbk : ∀ x ∈ b.keys, '$' ∉ x ∧ '(' ∉ x) (hds : ∀ d ∈ decls es, '$' ∉ d.name ∧ '(' ∉ d.name)
    (n : Str) (start : Option Str) (hs : Base (Stash.init ns neg consts uid) (abspath W.cwd path) n start) (hgiven : Given n start (decls es))
    (hrem : byOperators n start (decls es) ≠ none ∨ texts n c!"remove" (decls es) = []) (value o : Str)
    (hvalue : value = without ((texts n c!"prepend" (decls es)).reverse.flatten ++ (byOperators n start (decls es)).getD [] ++ (texts n c!"append" (decls es)).flatten)
      (texts n c!"remove" (decls es))) (hc : NoCalls value) (ho : Filled b (decls es) (abspath W.cwd path) value o) : dget n r = some (safeLinesplit o) := by
  obtain ⟨o', h1, h2⟩ := (C116_recipe W D ns neg consts hu uid k path off forced u res h t hf ls gs hl hg es hst r hr b hb hbn hbk hds n start hs).2 hgiven hrem
  rw [← hvalue, C117_references W D ns neg consts hu uid k path off forced u res h t hf ls gs hl hg es hst b hb hd value o hc ho] at h1
  cases h1
  exact h2
end

section
attribute [local instance] Sample.asciiUni
open Spec

/-- references to a variable with overrides, to the name of the recipe and to an unknown variable -/
def Sample.referring : List Entry :=
  [ .decl ⟨c!"A", [], c!"=", c!"x${B}"⟩, .decl ⟨c!"B", [], c!"+=", c!"7"⟩, .decl ⟨c!"B", [c!"foo"], c!"=", c!"0${PN}${U}"⟩, .decl ⟨c!"A", [c!"append"], c!"=", c!" ${B}"⟩,
    .decl ⟨c!"B", [], c!"=", c!"1"⟩ ]
/-- the disk with this recipe -/
def Sample.referringDisk : World := Sample.world [(c!"/w/r.bb", (Sample.referring.map (fun e => e.stmt.text ++ c!"\n")).flatten)]

theorem Sample.referring_ok : ∀ e ∈ Sample.referring, e.Ok ∧ OneLine e.stmt.text ∧ ¬ c!"${@" <:+: e.stmt.text := by
  have hin : ∀ e ∈ Sample.referring, '@' ∉ e.stmt.text := by decide +kernel
  have hone : ∀ e ∈ Sample.referring, (∀ c ∈ e.stmt.text, c ≠ '\n' ∧ c ≠ '\r' ∧ c ≠ '\\' ∧ c ≠ '(') ∧ e.stmt.text.head? ≠ some '#' ∧
      ¬ c!"def " <+: (e.stmt.text ++ c!"\n").dropWhile pySpace := by decide +kernel
  intro e he
  refine ⟨?_, oneLine_of_chars (hone e he).1 (hone e he).2.1 (hone e he).2.2, ?_⟩
  · simp only [Sample.referring, List.mem_cons, List.not_mem_nil, or_false] at he
    rcases he with rfl | rfl | rfl | rfl | rfl <;>
      exact Sample.entry (by decide) (by decide) (by decide) (by decide) (by decide) (by decide)
  · rintro ⟨a, b, e'⟩
    exact hin e he (by rw [← e']; simp)

/-- what `B` stands for -/
theorem Sample.referring_B : Filled .nil (decls Sample.referring) c!"/w/r.bb" c!"0${PN}${U}" c!"0r${U}" :=
  .char (by decide) (.name (n := c!"PN") (t := c!"r") (r := c!"${U}") (Sample.name _ (by decide)) (by decide) .pn (by decide)
    (.unknown (n := c!"U") (r := []) (o := []) (Sample.name _ (by decide)) (by decide) (by decide) .nil))

/-- all hypotheses of C117 hold for this recipe; `ExpandVar` gives its values -/
example : ∀ res u, addFile Sample.referringDisk 5 c!"/w/r.bb" 0 none (Stash.init false false Sample.constants 0) = (.ok res, u) →
    ∀ (D : World) r, expandVar D u (some c!"/w/r.bb") .none .none false = .ok r → dget c!"A" r = some [c!"x0r${U}", c!"0r${U}"] := by
  intro res u h D r hr
  have hb : setsBase Sample.constants = .ok J.empty := Sample.emptyBase (u := Stash.init false false Sample.constants 0) (by decide +kernel)
  have heq : (Sample.referring.map Entry.stmt).map (fun st => st.text ++ c!"\n") = Sample.referring.map (fun e => e.stmt.text ++ c!"\n") := by rw [List.map_map]; rfl
  obtain ⟨g1, g2, g3⟩ := one_line_groups (sts := Sample.referring.map Entry.stmt) (by
    intro st hst
    obtain ⟨e, he, rfl⟩ := List.mem_map.1 hst
    exact (Sample.referring_ok e he).2)
  rw [heq] at g1 g2
  have nb : NoCalls c!"0${PN}${U}" := ⟨by decide +kernel, by unfold ReadsFile; decide +kernel⟩
  rw [C117_values Sample.referringDisk D false false Sample.constants Sample.usableConstants 0 5 c!"/w/r.bb" 0 none u res h _ rfl _ _ g1 g2 Sample.referring (by
      rw [List.map_map, List.forall₂_map_left_iff, List.forall₂_same]
      intro e he
      simp only [Function.comp, List.flatten_cons, List.flatten_nil, List.append_nil]
      obtain ⟨k1, k2⟩ := g3 e.stmt (List.mem_map_of_mem he)
      exact ⟨k1, k2, (Sample.referring_ok e he).1⟩) r hr .nil hb (by rintro k j ⟨⟩) (by decide) (by decide) (by decide) c!"A" none (.none hb rfl (by decide)) (.inl (by decide)) (.inl (by decide))
    c!"x${B} ${B}" c!"x0r${U} 0r${U}" (by decide +kernel) ⟨by decide +kernel, by unfold ReadsFile; decide +kernel⟩
    (.char (by decide) (.text (n := c!"B") (r := c!" ${B}") (Sample.name _ (by decide)) (by decide) nb Sample.referring_B
      (.char (by decide) (.text (n := c!"B") (r := []) (o := []) (Sample.name _ (by decide)) (by decide) nb Sample.referring_B .nil))))]
  decide +kernel

/-- the two calls do not fail -/
example : (expandVar (Sample.world []) (addFile Sample.referringDisk 5 c!"/w/r.bb" 0 none (Stash.init false false Sample.constants 0)).2 (some c!"/w/r.bb") .none .none false).toOption.map
      (fun e => (dget c!"A" e, dget c!"B" e)) = some (some [c!"x0r${U}", c!"0r${U}"], some [c!"1"]) := by
  decide +kernel

/-- no declaration of the recipe depends on itself -/
example : Ranked .nil (decls Sample.referring) (fun n => if n = c!"A" then 2 else if n = c!"B" then 1 else 0) := by
  have hst : ∀ n t, stands .nil (decls Sample.referring) n = some t → (n = c!"A" ∧ t = c!"x${B}") ∨ (n = c!"B" ∧ t = c!"0${PN}${U}") := by
    intro n t h
    by_cases hA : n = c!"A"
    · subst hA
      exact .inl ⟨rfl, (Option.some.inj (h.symm.trans (by decide : stands .nil (decls Sample.referring) c!"A" = some c!"x${B}")))⟩
    · by_cases hB : n = c!"B"
      · subst hB
        exact .inr ⟨rfl, (Option.some.inj (h.symm.trans (by decide : stands .nil (decls Sample.referring) c!"B" = some c!"0${PN}${U}")))⟩
      · exfalso
        have : (decls Sample.referring).find? (Decl.gives n) = none := by
          refine List.find?_eq_none.2 fun d hd => ?_
          have hbase : d.base = c!"A" ∨ d.base = c!"B" := by
            revert d
            decide
          unfold Decl.gives
          rcases hbase with e | e <;> rw [e] <;> simp [Ne.symm hA, Ne.symm hB]
        unfold stands at h
        rw [this] at h
        cases h
  intro n t h
  rcases hst n t h with ⟨rfl, rfl⟩ | ⟨rfl, rfl⟩
  · exact ⟨⟨by decide +kernel, by unfold ReadsFile; decide +kernel⟩, [c!"B"], .char (by decide) (.ref (n := c!"B") (r := []) (Sample.name _ (by decide)) .nil), by decide⟩
  · exact ⟨⟨by decide +kernel, by unfold ReadsFile; decide +kernel⟩, [c!"PN", c!"U"], .char (by decide) (.ref (n := c!"PN") (r := c!"${U}") (Sample.name _ (by decide))
      (.ref (n := c!"U") (r := []) (Sample.name _ (by decide)) .nil)), by decide⟩
end
end Oelint

import Verif.Lemmas.AppendNames
import Verif.Lemmas.SampleRuns
import Verif.Lemmas.LoadSpec
import Verif.Lemmas.Order
/-!
# `.bbappend` files and the order of lines: C41, C42, C43

`Glob stem name`: the name of a recipe fits the one of a `.bbappend`, `%` for any text. `History W Call.forward s s'` is any
sequence of calls of `AddFile` and `Finalize`, failing ones included.
-/
namespace Oelint
open Spec
set_option linter.unusedSectionVars false
variable [Uni]

/-! ## C41 -/

/-- **C41** Whenever a `.bbappend` and a `.bb` have items in the stash and the name of the recipe fits the one of the
`.bbappend`, the `.bbappend` is linked to the recipe; the order of the calls does not matter, nor what else was added. -/
theorem C41_matching_linked_partial (W : World) (ns neg : Bool) (consts : J) (uid : Nat) (s : Stash)
    (h : History W Call.forward (Stash.init ns neg consts uid) s) (i j : Item) (hi : i ∈ s.items) (hj : j ∈ s.items)
    (stem n : Str) (ha : IsFile i.origin stem c!".bbappend") (hs : PlainAppend stem) (hx : IsFile j.origin n c!".bb")
    (hn : PlainRecipe n) (hg : Glob stem n) : i.origin ∈ links s j.origin :=
  ((history_pairs h ⟨(sound_init W ns neg consts uid).closed, pairs_init ns neg consts uid⟩).2.2 i hi j hj
    (isFile_suffix ha) (isFile_suffix hx) ((fwd_iff ha hs hx).2 hg) ((bwd_iff ha hs hx hn).2 ⟨n, List.prefix_rfl, hg⟩)).1

/-- **C41** After successful calls of `AddFile`, a `.bbappend` that is linked to a `.bb` was loaded by it with an include, or
its name fits the beginning of the name of the recipe. That the beginning is enough is the part of C41 that is
false, see the counterexample. -/
theorem C41_linked_matching_partial (W : World) (ns neg : Bool) (consts : J) (uid : Nat) (args : List Str) (s : Stash)
    (h : Added W (Stash.init ns neg consts uid) args s) (a x stem n : Str) (hl : a ∈ links s x)
    (ha : IsFile a stem c!".bbappend") (hs : PlainAppend stem) (hx : IsFile x n c!".bb") (hn : PlainRecipe n) :
    (∃ it ∈ s.items, it.origin = x ∧ ∃ p, Reports it p ∧ abspath W.cwd p = a) ∨ ∃ u, u <+: n ∧ Glob stem u := by
  rcases added_justified h (fun k => by simp [links, Stash.init, dget]) x a hl with ⟨it, h1, h2, p, h3, h4⟩ | ⟨_, h1 | ⟨_, h1⟩⟩
  · exact Or.inl ⟨it, h1, h2, p, (reports_iff it p).2 h3, h4⟩
  · exact Or.inr ⟨n, List.prefix_rfl, (fwd_iff ha hs hx).1 h1⟩
  · exact Or.inr ((bwd_iff ha hs hx hn).1 h1)

/-- **C41** If the name of the `.bbappend` fits a beginning of the name of the recipe only when it fits the whole name, and the
recipe does not include the `.bbappend` itself, the link depends on the names only, whatever the order. -/
theorem C41_order_independent_partial (W : World) (ns neg : Bool) (consts : J) (uid : Nat) (args : List Str) (s : Stash)
    (h : Added W (Stash.init ns neg consts uid) args s) (i j : Item) (hi : i ∈ s.items) (hj : j ∈ s.items)
    (stem n : Str) (ha : IsFile i.origin stem c!".bbappend") (hs : PlainAppend stem) (hx : IsFile j.origin n c!".bb")
    (hn : PlainRecipe n) (hw : ∀ u, u <+: n → Glob stem u → Glob stem n)
    (hr : ∀ it ∈ s.items, it.origin = j.origin → ∀ p, Reports it p → abspath W.cwd p ≠ i.origin) :
    i.origin ∈ links s j.origin ↔ Glob stem n := by
  constructor
  · intro hl
    rcases C41_linked_matching_partial W ns neg consts uid args s h _ _ _ _ hl ha hs hx hn with ⟨it, h1, h2, p, h3, h4⟩ | ⟨u, h1, h2⟩
    · exact absurd h4 (hr it h1 h2 p h3)
    · exact hw u h1 h2
  · refine C41_matching_linked_partial W ns neg consts uid s ?_ i j hi hj stem n ha hs hx hn
    clear hi hj ha hx hr
    generalize hs0 : Stash.init ns neg consts uid = s0 at h
    induction h with
    | nil => exact .nil
    | @snoc s1 s2 ps p depth res h hp ih =>
      have := History.snoc (P := Call.forward) (ih) depth (.addFile p 0 none) (Int.le_refl 0)
      rw [show s2 = Call.after W depth (.addFile p 0 none) s1 by show s2 = (addFile W depth p 0 none s1).2; rw [hp]]
      exact this

/-- **C41** A `.bbappend` with `%` at the end of its name fits the beginning of the name of a recipe only if it fits the whole -/
theorem C41_percent_whole (stem n u : Str) (hn : '\n' ∉ n) (hu : u <+: n) (h : Glob (stem ++ c!"%") u) :
    Glob (stem ++ c!"%") n := by
  obtain ⟨r, rfl⟩ := hu
  obtain ⟨v, w, rfl, h1, h2⟩ := glob_append.1 h
  have hw : '\n' ∉ w := fun hh => hn (by simp [hh])
  have hr : '\n' ∉ r := fun hh => hn (by simp [hh])
  refine glob_append.2 ⟨v, w ++ r, by simp, h1, ?_⟩
  have := Glob.percent (a := w ++ r) (by simp [hw, hr]) Glob.nil
  simpa using this

/-- **C41** The same stem fits, and so does a stem with `%` for the rest of the name -/
theorem C41_same_stem (n r : Str) (hn : '\n' ∉ n) (hr : '\n' ∉ r) : Glob n n ∧ Glob (n ++ c!"%") (n ++ r) := by
  refine ⟨glob_self hn, glob_append.2 ⟨n, r, rfl, glob_self hn, ?_⟩⟩
  have := Glob.percent (a := r) hr Glob.nil
  simpa using this

/-! ## C42 -/

/-- **C42** After any calls of `AddFile` and `Finalize` in any order: when the name of a recipe fits the one of a `.bbappend`, every
item of the `.bbappend` has a `Line` greater than every item of the recipe. -/
theorem C42_append_after_recipe (W : World) (ns neg : Bool) (consts : J) (uid : Nat) (s : Stash)
    (h : History W Call.forward (Stash.init ns neg consts uid) s) (i j : Item) (hi : i ∈ s.items) (hj : j ∈ s.items)
    (stem n : Str) (ha : IsFile i.origin stem c!".bbappend") (hs : PlainAppend stem) (hx : IsFile j.origin n c!".bb")
    (hn : PlainRecipe n) (hg : Glob stem n) : j.line < i.line :=
  ((history_pairs h ⟨(sound_init W ns neg consts uid).closed, pairs_init ns neg consts uid⟩).2.2 i hi j hj
    (isFile_suffix ha) (isFile_suffix hx) ((fwd_iff ha hs hx).2 hg) ((bwd_iff ha hs hx hn).2 ⟨n, List.prefix_rfl, hg⟩)).2

/-- **C42** When a recipe is added later, the items of all `.bbappend` files that get linked to it by name (for which the beginning of
the name is enough) come after its items. -/
theorem C42_recipe_added_later (W : World) (ns neg : Bool) (consts : J) (uid : Nat) (s s' : Stash)
    (h : History W Call.forward (Stash.init ns neg consts uid) s) (d : Nat) (path : Str) (off : Int) (hoff : 0 ≤ off)
    (forced : Option Str) (res : List Item) (hadd : addFile W d path off forced s = (.ok res, s')) (i r : Item)
    (hi : i ∈ s'.items) (hr : r ∈ res) (stem n u : Str) (ha : IsFile i.origin stem c!".bbappend") (hs : PlainAppend stem)
    (hx : IsFile (abspath W.cwd path) n c!".bb") (hn : PlainRecipe n) (hu : u <+: n) (hg : Glob stem u) : r.line < i.line := by
  have hp := history_pairs h ⟨(sound_init W ns neg consts uid).closed, pairs_init ns neg consts uid⟩
  cases d with
  | zero => cases hadd
  | succ d =>
    have hro := addFile_origin hadd
    rcases addFile_ok W hadd with ⟨_, rfl, rfl⟩ | ⟨hs', ⟨ok⟩⟩
    · cases hr
    · have hfin : s'.items = ok.s4.items ++ res := (congrArg Stash.items ok.final).trans rfl
      have hdi := addDistroMachine_rel (R := fun s s' => s'.items = s.items) (fun _ => rfl) (fun _ _ _ h1 h2 => h2.trans h1)
        (fun _ _ => rfl) W (abspath W.cwd path) ok.s3
      rw [ok.distro] at hdi
      have hcs : ∀ c ∈ ok.chunks, 0 ≤ c.line := by
        intro c hc
        have hp := ok.prep
        unfold prepareLines at hp
        split at hp
        · obtain ⟨gs, _, hg⟩ := chunksOf_ok_iff.1 hp
          rw [hg] at hc
          have := chunksFrom_line_pos 1 gs c hc
          simp at this; omega
        · injection hp with hp; rw [← hp] at hc; cases hc
        · cases hp
        · cases hp
      have hs1 := itemsLoop_relNN (R := fun s s' => Closed s ∧ Pairs s → Closed s' ∧ Pairs s') (fun _ h => h)
        (fun _ _ _ h1 h2 h => h2 (h1 h)) (fun _ h => h)
        W (abspath W.cwd path) (fun p o f ho => addFile_pairs W d p o ho f) off 0 s.newStyle ok.chunks hcs
        (markSeen s (abspath W.cwd path)) hp
      rw [ok.loop] at hs1
      obtain ⟨_, o2⟩ := crossLink_order ok.cross (itemsLoop_pos hoff ok.prep ok.loop) hs1.2.1
      have hb := (bwd_iff ha hs hx hn).2 ⟨u, hu, hg⟩
      rw [hfin, hdi] at hi
      rcases List.mem_append.1 hi with hi | hi
      · exact o2 (isFile_suffix hx) i hi (isFile_suffix ha) hb r hr
      · rw [hro i hi] at ha
        exact (not_both_suffix (isFile_suffix ha) (isFile_suffix hx)).elim

/-! ## C43 -/

/-- an include or inherit -/
def isLoading (it : Item) : Prop := it.payload.classifier = c!"Include" ∨ it.payload.classifier = c!"Inherit"

/-- the items of a loaded file lie between the loading item and the following one -/
theorem included_sorted {W : World} {d : Nat} {path : Str} {off : Int} {forced : Option Str} {s s' : Stash}
    {res pre post : List Item} {it : Item} {p : Str} (hadd : addFile W d path off forced s = (.ok res, s'))
    (he : res = pre ++ it :: post) (hsub : ∃ sub, Included W p s' it post sub) :
    ∃ sub : List Item, sub.Sublist s'.items ∧ (∀ x ∈ sub, x.origin = abspath W.cwd p) ∧
      (∀ t, W.file (abspath W.cwd p) = .text t → (sub.map (·.realRaw)).flatten = univNewlines t) ∧
      ((∀ x ∈ sub, ¬ isLoading x) → (pre ++ it :: (sub ++ post)).Pairwise (fun a b => a.line < b.line)) := by
  have hload : ∀ x : Item, x.payload.loads = false ↔ ¬ isLoading x := by
    intro x
    unfold isLoading
    cases x.payload <;> simp [Payload.loads, Payload.classifier]
  obtain ⟨sub, h1⟩ := hsub
  refine ⟨sub, h1.inStash, h1.origin, h1.text, fun hno => ?_⟩
  obtain ⟨h2, h3⟩ := h1.order (fun x hx => (hload x).2 (hno x hx))
  have hinc : res.Pairwise (fun a b => a.line < b.line) := by
    rcases addFile_cases hadd with h0 | ⟨t, _, _, m, ⟨fo⟩⟩
    · rw [h0]; exact .nil
    · exact fo.increasing
  rw [he, List.pairwise_append, List.pairwise_cons] at hinc
  obtain ⟨g1, ⟨g2, g3⟩, g4⟩ := hinc
  rw [List.pairwise_append, List.pairwise_cons, List.pairwise_append]
  refine ⟨g1, ⟨fun b hb' => ?_, h3, g3, fun a ha b hb' => (h2 a ha).2 b hb'⟩, fun a ha b hb' => ?_⟩
  · rcases List.mem_append.1 hb' with hb' | hb'
    · exact (h2 b hb').1
    · exact g2 b hb'
  · rcases List.mem_cons.1 hb' with rfl | hb'
    · exact g4 a ha b (by simp)
    · rcases List.mem_append.1 hb' with hb' | hb'
      · have := g4 a ha it (by simp)
        have := (h2 b hb').1
        omega
      · exact g4 a ha b (by simp [hb'])

/-- **C43** For the first include of a file, if the included file includes nothing itself: sorted by `Line`, the items
before the include, the include, the items of the included file in their order, and then the items after the include follow each
other. With a second include, or an include in the included file, the claim is false, see the counterexamples. -/
theorem C43_first_include_partial (W : World) (P : Call → Prop) (ns neg : Bool) (consts : J) (uid : Nat) (s s' : Stash)
    (h : History W P (Stash.init ns neg consts uid) s) (d : Nat) (path : Str) (off : Int) (forced : Option Str)
    (res pre post : List Item) (it : Item) (hadd : addFile W d path off forced s = (.ok res, s'))
    (hb : ¬ c!".bbappend" <:+ abspath W.cwd path) (he : res = pre ++ it :: post) (hpre : ∀ x ∈ pre, ¬ isLoading x)
    (name p stmt : Str) (hp : it.payload = .include name p stmt) (hne : p ≠ [])
    (hext : (splitext (abspath W.cwd p)).2 ∈ [c!".inc", c!".bb", c!".conf"]) :
    ∃ sub : List Item, sub.Sublist s'.items ∧ (∀ x ∈ sub, x.origin = abspath W.cwd p) ∧
      (∀ t, W.file (abspath W.cwd p) = .text t → (sub.map (·.realRaw)).flatten = univNewlines t) ∧
      ((∀ x ∈ sub, ¬ isLoading x) → (pre ++ it :: (sub ++ post)).Pairwise (fun a b => a.line < b.line)) := by
  have hload : ∀ x : Item, x.payload.loads = false ↔ ¬ isLoading x := by
    intro x
    unfold isLoading
    cases x.payload <;> simp [Payload.loads, Payload.classifier]
  exact included_sorted hadd he (addFile_included hadd (history_classesOnly h (by intro f hf; simp [Stash.init] at hf)) hb he
    (fun x hx => (hload x).2 (hpre x hx)) hp hne hext)

/-- **C43** The same for the first inherit of a file, if it loads one class that was not loaded before and that loads nothing itself. -/
theorem C43_first_inherit_partial (W : World) (s s' : Stash) (d : Nat) (path : Str) (off : Int) (forced : Option Str)
    (res pre post : List Item) (it : Item) (hadd : addFile W d path off forced s = (.ok res, s'))
    (hb : ¬ c!".bbappend" <:+ abspath W.cwd path) (he : res = pre ++ it :: post) (hpre : ∀ x ∈ pre, ¬ isLoading x)
    (stmt cls p : Str) (hp : it.payload = .inherit stmt cls [p]) (hext : (splitext (abspath W.cwd p)).2 = c!".bbclass")
    (hnew : abspath W.cwd p ∉ s.seenClasses) (hself : abspath W.cwd p ≠ abspath W.cwd path) :
    ∃ sub : List Item, sub.Sublist s'.items ∧ (∀ x ∈ sub, x.origin = abspath W.cwd p) ∧
      (∀ t, W.file (abspath W.cwd p) = .text t → (sub.map (·.realRaw)).flatten = univNewlines t) ∧
      ((∀ x ∈ sub, ¬ isLoading x) → (pre ++ it :: (sub ++ post)).Pairwise (fun a b => a.line < b.line)) := by
  have hload : ∀ x : Item, x.payload.loads = false ↔ ¬ isLoading x := by
    intro x
    unfold isLoading
    cases x.payload <;> simp [Payload.loads, Payload.classifier]
  exact included_sorted hadd he (addFile_inherited hadd hb he (fun x hx => (hload x).2 (hpre x hx)) hp hext hnew hself)

end Oelint

namespace Oelint
open Spec
attribute [local instance] Sample.asciiUni

/-! ## counterexamples -/

/-- a recipe and files whose names begin alike -/
def Sample.appends : World := Sample.world
  [ (c!"/w/foo.bbappend", c!"A = \"1\"\nB = \"2\"\n"),
    (c!"/w/foobar.bb", c!"C = \"1\"\nD = \"1\"\nE = \"2\"\n"),
    (c!"/w/foobar_%.bbappend", c!"F = \"1\"\n"),
    (c!"/w/foobar_1.0.bb", c!"G = \"1\"\n\nH = \"1\"\n"),
    (c!"/w/gtk+.bb", c!"I = \"1\"\n"),
    (c!"/w/gtk+.bbappend", c!"J = \"1\"\n") ]

/-- **C41 is false**: `foo.bbappend` is linked to `foobar.bb` if it is added first, and not if it is added second. -/
theorem C41_order_counterexample :
    (∃ s, Added Sample.appends Sample.stash [c!"/w/foo.bbappend", c!"/w/foobar.bb"] s ∧
      c!"/w/foo.bbappend" ∈ links s c!"/w/foobar.bb") ∧
    ∃ s, Added Sample.appends Sample.stash [c!"/w/foobar.bb", c!"/w/foo.bbappend"] s ∧
      c!"/w/foo.bbappend" ∉ links s c!"/w/foobar.bb" := by
  constructor
  · obtain ⟨s, h1, h2⟩ := Sample.check_iff (W := Sample.appends) (ps := [c!"/w/foo.bbappend", c!"/w/foobar.bb"])
      (p := fun s => decide (c!"/w/foo.bbappend" ∈ links s c!"/w/foobar.bb")) (by decide +kernel)
    exact ⟨s, h1, of_decide_eq_true h2⟩
  · obtain ⟨s, h1, h2⟩ := Sample.check_iff (W := Sample.appends) (ps := [c!"/w/foobar.bb", c!"/w/foo.bbappend"])
      (p := fun s => decide (c!"/w/foo.bbappend" ∉ links s c!"/w/foobar.bb")) (by decide +kernel)
    exact ⟨s, h1, of_decide_eq_true h2⟩

/-- **C41 is false**: `gtk+.bbappend` has the same stem as `gtk+.bb`, but is not linked to it when it is added second. -/
theorem C41_stem_counterexample : ∃ s, Added Sample.appends Sample.stash [c!"/w/gtk+.bb", c!"/w/gtk+.bbappend"] s ∧
    c!"/w/gtk+.bbappend" ∉ links s c!"/w/gtk+.bb" := by
  obtain ⟨s, h1, h2⟩ := Sample.check_iff (W := Sample.appends) (ps := [c!"/w/gtk+.bb", c!"/w/gtk+.bbappend"])
    (p := fun s => decide (c!"/w/gtk+.bbappend" ∉ links s c!"/w/gtk+.bb")) (by decide +kernel)
  exact ⟨s, h1, of_decide_eq_true h2⟩

/-- includes, one after the other and nested -/
def Sample.includes : World := Sample.world
  [ (c!"/w/one.bb", c!"A = \"1\"\nrequire x.inc\nZ = \"2\"\n"),
    (c!"/w/two.bb", c!"require x.inc\nrequire y.inc\nZ = \"2\"\n"),
    (c!"/w/nested.bb", c!"require z.inc\nZ = \"2\"\n"),
    (c!"/w/x.inc", c!"X1 = \"1\"\nX2 = \"1\"\nX3 = \"1\"\n"),
    (c!"/w/y.inc", c!"Y1 = \"1\"\n"),
    (c!"/w/z.inc", c!"require x.inc\nW = \"1\"\n") ]

/-- origin and `Line` of the items of a stash -/
def Sample.origins (s : Stash) : List (Str × Int) := s.items.map (fun i => (i.origin, i.line))

/-- **C43 is false**: with two includes the items of the second one come before the last item of the first one, and before
the include statement itself. -/
theorem C43_two_includes_counterexample : ∃ s, Added Sample.includes Sample.stash [c!"/w/two.bb"] s ∧
    Sample.origins s = [(c!"/w/x.inc", 2), (c!"/w/x.inc", 3), (c!"/w/x.inc", 4), (c!"/w/y.inc", 3),
      (c!"/w/two.bb", 1), (c!"/w/two.bb", 5), (c!"/w/two.bb", 7)] := by
  obtain ⟨s, h1, h2⟩ := Sample.check_iff (W := Sample.includes) (ps := [c!"/w/two.bb"]) (p := fun s => decide (
    Sample.origins s = [(c!"/w/x.inc", 2), (c!"/w/x.inc", 3), (c!"/w/x.inc", 4), (c!"/w/y.inc", 3),
      (c!"/w/two.bb", 1), (c!"/w/two.bb", 5), (c!"/w/two.bb", 7)])) (by decide +kernel)
  exact ⟨s, h1, of_decide_eq_true h2⟩

/-- **C43 is false**: with an include in an included file, its last item comes after the items that follow the include. -/
theorem C43_nested_include_counterexample : ∃ s, Added Sample.includes Sample.stash [c!"/w/nested.bb"] s ∧
    Sample.origins s = [(c!"/w/x.inc", 3), (c!"/w/x.inc", 4), (c!"/w/x.inc", 5), (c!"/w/z.inc", 2), (c!"/w/z.inc", 6),
      (c!"/w/nested.bb", 1), (c!"/w/nested.bb", 4)] := by
  obtain ⟨s, h1, h2⟩ := Sample.check_iff (W := Sample.includes) (ps := [c!"/w/nested.bb"]) (p := fun s => decide (
    Sample.origins s = [(c!"/w/x.inc", 3), (c!"/w/x.inc", 4), (c!"/w/x.inc", 5), (c!"/w/z.inc", 2), (c!"/w/z.inc", 6),
      (c!"/w/nested.bb", 1), (c!"/w/nested.bb", 4)])) (by decide +kernel)
  exact ⟨s, h1, of_decide_eq_true h2⟩

/-- recipes that inherit one class and two classes -/
def Sample.inherits : World := Sample.world
  [ (c!"/w/one.bb", c!"A = \"1\"\ninherit foo\nB = \"2\"\n"),
    (c!"/w/both.bb", c!"A = \"1\"\ninherit foo bar\nB = \"2\"\n"),
    (c!"/w/classes/foo.bbclass", c!"C = \"1\"\nD = \"1\"\nE = \"2\"\n"),
    (c!"/w/classes/bar.bbclass", c!"F = \"1\"\n") ]

/-- **C43 is false**: with two classes in one inherit, the item of the second class comes before the last items of the first. -/
theorem C43_two_classes_counterexample : ∃ s, Added Sample.inherits Sample.stash [c!"/w/both.bb"] s ∧
    Sample.origins s = [(c!"/w/classes/foo.bbclass", 3), (c!"/w/classes/foo.bbclass", 4), (c!"/w/classes/foo.bbclass", 5),
      (c!"/w/classes/bar.bbclass", 3), (c!"/w/both.bb", 1), (c!"/w/both.bb", 2), (c!"/w/both.bb", 7)] := by
  obtain ⟨s, h1, h2⟩ := Sample.check_iff (W := Sample.inherits) (ps := [c!"/w/both.bb"]) (p := fun s => decide (
    Sample.origins s = [(c!"/w/classes/foo.bbclass", 3), (c!"/w/classes/foo.bbclass", 4), (c!"/w/classes/foo.bbclass", 5),
      (c!"/w/classes/bar.bbclass", 3), (c!"/w/both.bb", 1), (c!"/w/both.bb", 2), (c!"/w/both.bb", 7)])) (by decide +kernel)
  exact ⟨s, h1, of_decide_eq_true h2⟩

/-! ## examples -/

/-- C43: the hypotheses hold for a recipe with one include -/
example : ∃ s res it0 it it1, addFile Sample.includes 9 c!"/w/one.bb" 0 none Sample.stash = (.ok res, s) ∧
    res = [it0] ++ it :: [it1] ∧ it.payload = .include c!"x.inc" c!"/w/x.inc" c!"require" ∧ ¬ isLoading it0 ∧
    Sample.origins s = [(c!"/w/x.inc", 3), (c!"/w/x.inc", 4), (c!"/w/x.inc", 5), (c!"/w/one.bb", 1), (c!"/w/one.bb", 2),
      (c!"/w/one.bb", 6)] := by
  have h : (match addFile Sample.includes 9 c!"/w/one.bb" 0 none Sample.stash with
    | (.ok [it0, it, it1], s) => decide (it.payload = .include c!"x.inc" c!"/w/x.inc" c!"require" ∧
        ¬ (it0.payload.classifier = c!"Include" ∨ it0.payload.classifier = c!"Inherit") ∧
        Sample.origins s = [(c!"/w/x.inc", 3), (c!"/w/x.inc", 4), (c!"/w/x.inc", 5), (c!"/w/one.bb", 1), (c!"/w/one.bb", 2),
          (c!"/w/one.bb", 6)])
    | _ => false) = true := by decide +kernel
  split at h
  · rename_i it0 it it1 s hs
    obtain ⟨h1, h2, h3⟩ := of_decide_eq_true h
    exact ⟨s, _, it0, it, it1, hs, rfl, h1, h2, h3⟩
  · cases h

/-- C43: the hypotheses hold for a recipe with one inherit -/
example : ∃ s res it0 it it1, addFile Sample.inherits 9 c!"/w/one.bb" 0 none Sample.stash = (.ok res, s) ∧
    res = [it0] ++ it :: [it1] ∧ it.payload = .inherit c!"inherit" c!"foo" [c!"/w/classes/foo.bbclass"] ∧ ¬ isLoading it0 ∧
    Sample.origins s = [(c!"/w/classes/foo.bbclass", 3), (c!"/w/classes/foo.bbclass", 4), (c!"/w/classes/foo.bbclass", 5),
      (c!"/w/one.bb", 1), (c!"/w/one.bb", 2), (c!"/w/one.bb", 6)] := by
  have h : (match addFile Sample.inherits 9 c!"/w/one.bb" 0 none Sample.stash with
    | (.ok [it0, it, it1], s) => decide (it.payload = .inherit c!"inherit" c!"foo" [c!"/w/classes/foo.bbclass"] ∧
        ¬ (it0.payload.classifier = c!"Include" ∨ it0.payload.classifier = c!"Inherit") ∧
        Sample.origins s = [(c!"/w/classes/foo.bbclass", 3), (c!"/w/classes/foo.bbclass", 4), (c!"/w/classes/foo.bbclass", 5),
          (c!"/w/one.bb", 1), (c!"/w/one.bb", 2), (c!"/w/one.bb", 6)])
    | _ => false) = true := by decide +kernel
  split at h
  · rename_i it0 it it1 s hs
    obtain ⟨h1, h2, h3⟩ := of_decide_eq_true h
    exact ⟨s, _, it0, it, it1, hs, rfl, h1, h2, h3⟩
  · cases h

/-- C41, C42: names that meet the hypotheses -/
example : IsFile c!"/w/foobar_%.bbappend" c!"foobar_%" c!".bbappend" ∧ PlainAppend c!"foobar_%" ∧
    IsFile c!"/w/foobar_1.0.bb" c!"foobar_1.0" c!".bb" ∧ PlainRecipe c!"foobar_1.0" ∧ Glob c!"foobar_%" c!"foobar_1.0" ∧
    ¬ Glob c!"foo" c!"foobar" ∧ Glob c!"foo" c!"foo" := by
  refine ⟨⟨c!"/w", by decide, by decide⟩, ⟨by decide, by decide⟩, ⟨c!"/w", by decide, by decide⟩, by unfold PlainRecipe; decide,
    (C41_same_stem c!"foobar_" c!"1.0" (by decide) (by decide)).2, ?_, glob_self (by decide)⟩
  intro h
  cases h with | char _ _ h => cases h with | char _ _ h => cases h with | char _ _ h => cases h

/-- C41, C42: in both orders the items of the `.bbappend` come after those of the recipe -/
example : (∃ s, Added Sample.appends Sample.stash [c!"/w/foobar_%.bbappend", c!"/w/foobar_1.0.bb"] s ∧
      s.items.map (fun i => (i.origin, i.line)) = [(c!"/w/foobar_%.bbappend", 4), (c!"/w/foobar_1.0.bb", 1),
        (c!"/w/foobar_1.0.bb", 2), (c!"/w/foobar_1.0.bb", 3)] ∧ links s c!"/w/foobar_1.0.bb" = [c!"/w/foobar_%.bbappend"]) ∧
    ∃ s, Added Sample.appends Sample.stash [c!"/w/foobar_1.0.bb", c!"/w/foobar_%.bbappend"] s ∧
      s.items.map (fun i => (i.origin, i.line)) = [(c!"/w/foobar_1.0.bb", 1),
        (c!"/w/foobar_1.0.bb", 2), (c!"/w/foobar_1.0.bb", 3), (c!"/w/foobar_%.bbappend", 4)] ∧
      links s c!"/w/foobar_1.0.bb" = [c!"/w/foobar_%.bbappend"] := by
  constructor
  · obtain ⟨s, h1, h2⟩ := Sample.check_iff (W := Sample.appends) (ps := [c!"/w/foobar_%.bbappend", c!"/w/foobar_1.0.bb"])
      (p := fun s => decide (s.items.map (fun i => (i.origin, i.line)) = [(c!"/w/foobar_%.bbappend", 4), (c!"/w/foobar_1.0.bb", 1),
        (c!"/w/foobar_1.0.bb", 2), (c!"/w/foobar_1.0.bb", 3)] ∧ links s c!"/w/foobar_1.0.bb" = [c!"/w/foobar_%.bbappend"]))
      (by decide +kernel)
    exact ⟨s, h1, of_decide_eq_true h2⟩
  · obtain ⟨s, h1, h2⟩ := Sample.check_iff (W := Sample.appends) (ps := [c!"/w/foobar_1.0.bb", c!"/w/foobar_%.bbappend"])
      (p := fun s => decide (s.items.map (fun i => (i.origin, i.line)) = [(c!"/w/foobar_1.0.bb", 1),
        (c!"/w/foobar_1.0.bb", 2), (c!"/w/foobar_1.0.bb", 3), (c!"/w/foobar_%.bbappend", 4)] ∧
      links s c!"/w/foobar_1.0.bb" = [c!"/w/foobar_%.bbappend"]))
      (by decide +kernel)
    exact ⟨s, h1, of_decide_eq_true h2⟩

end Oelint

import Verif.Lemmas.Context
import Verif.Props.Reproducible
import Verif.Props.Known
/-! # C92: the items of a file do not depend on files added before -/
set_option linter.unusedSectionVars false
namespace Oelint
open Spec

section
variable [Uni]

/-- **C92** (partial: names of includes and classes refer to variables in `V` only, which are not assigned in either stash; `Line` is left
out, see the counterexample). Two stashes with the same settings have been filled with any files. Adding a file to both returns the same
items, whatever `lineOffset` and `forcedLink` are. -/
theorem C92_items_partial (W : World) (V : Str → Prop) (ns neg : Bool) (consts : J) (hu : UsableConstants consts) (hc : SetsWithin consts V)
    (uid uid' : Nat) (P P' : Call → Prop) (s s' t t' : Stash) (h : History W P (Stash.init ns neg consts uid) s)
    (h' : History W P' (Stash.init ns neg consts uid') s') (path : Str) (hw : FileWithin W V (abspath W.cwd path))
    (hnew : abspath W.cwd path ∉ s.seenFiles ∧ abspath W.cwd path ∉ s.seenClasses)
    (hnew' : abspath W.cwd path ∉ s'.seenFiles ∧ abspath W.cwd path ∉ s'.seenClasses)
    (n n' : Nat) (off off' : Int) (forced forced' : Option Str) (r r' : List Item)
    (hr : addFile W n path off forced s = (.ok r, t)) (hr' : addFile W n' path off' forced' s' = (.ok r', t'))
    (ht : NoneAssigned V t) (ht' : NoneAssigned V t') : r.map content = r'.map content := by
  have hs := history_settings h
  have hs' := history_settings h'
  refine addFile_content ⟨hu, hc⟩ hw (history_constsOf h hu) (history_constsOf h' hu) ht ht' (hs'.1.trans hs.1.symm) (hs'.2.trans hs.2.symm) ?_ ?_ hr hr'
  · simp [alreadySeen, hnew.1, hnew.2]
  · simp [alreadySeen, hnew'.1, hnew'.2]

/-- **C92** for a file that writes the names of includes and classes without references -/
theorem C92_plain_partial (W : World) (ns neg : Bool) (consts : J) (hu : UsableConstants consts) (uid uid' : Nat)
    (P P' : Call → Prop) (s s' t t' : Stash) (h : History W P (Stash.init ns neg consts uid) s)
    (h' : History W P' (Stash.init ns neg consts uid') s') (path : Str) (hw : PlainFile W (abspath W.cwd path))
    (hnew : abspath W.cwd path ∉ s.seenFiles ∧ abspath W.cwd path ∉ s.seenClasses)
    (hnew' : abspath W.cwd path ∉ s'.seenFiles ∧ abspath W.cwd path ∉ s'.seenClasses)
    (n n' : Nat) (off off' : Int) (forced forced' : Option Str) (r r' : List Item)
    (hr : addFile W n path off forced s = (.ok r, t)) (hr' : addFile W n' path off' forced' s' = (.ok r', t')) :
    r.map content = r'.map content :=
  C92_items_partial W (fun _ => False) ns neg consts hu (setsWithin_none _) uid uid' P P' s s' t t' h h' path (fileWithin_plain hw) hnew hnew'
    n n' off off' forced forced' r r' hr hr' (noneAssigned_none _) (noneAssigned_none _)

end

/-! ## concrete cases -/

section
attribute [local instance] Sample.asciiUni

/-- a recipe that inherits a class with two lines -/
def Sample.inhWorld : World := Sample.world
  [(c!"/w/r.bb", c!"inherit k\nA = \"1\"\n"), (c!"/w/classes/k.bbclass", c!"K = \"1\"\nL = \"2\"\n")]

/-- **C92** is false for `Line`: the lines of the class count only if the class had not been loaded before. -/
theorem C92_counterexample :
    (addFile Sample.inhWorld 3 c!"/w/r.bb" 0 none Sample.stash).1.toOption.map (·.map (·.line)) ≠
    (addFile Sample.inhWorld 3 c!"/w/r.bb" 0 none (addFile Sample.inhWorld 3 c!"/w/classes/k.bbclass" 0 none Sample.stash).2).1.toOption.map
      (·.map (·.line)) := by decide +kernel

/-- two recipes that inherit the same class and include a file with a variable of the class in its name -/
def Sample.refWorld : World := Sample.world
  [(c!"/w/r.bb", c!"inherit k\ninclude r-${X}.inc\n"), (c!"/w/s.bb", c!"inherit k\ninclude s-${X}.inc\n"),
   (c!"/w/classes/k.bbclass", c!"X = \"1\"\n"), (c!"/w/r-1.inc", c!"R = \"1\"\n"), (c!"/w/s-1.inc", c!"S = \"1\"\n")]

/-- **C92** is false for names with references to variables that other files assign: the include is found only if the class had not been
loaded before. -/
theorem C92_reference_counterexample :
    (addFile Sample.refWorld 3 c!"/w/r.bb" 0 none Sample.stash).1.toOption.map (·.map content) ≠
    (addFile Sample.refWorld 3 c!"/w/r.bb" 0 none (addFile Sample.refWorld 3 c!"/w/classes/k.bbclass" 0 none Sample.stash).2).1.toOption.map
      (·.map content) := by decide +kernel

/-- the recipe of `Sample.oneInc` is added to a new stash, and to one that has its include already -/
example : ∀ r r' t t', addFile Sample.oneInc 3 c!"/w/b_1.bb" 0 none (Stash.init false false Sample.constants 0) = (.ok r, t) →
    addFile Sample.oneInc 3 c!"/w/b_1.bb" 7 none (addFile Sample.oneInc 3 c!"/w/a.inc" 0 none (Stash.init false false Sample.constants 5)).2 = (.ok r', t') →
    r.map content = r'.map content := by
  intro r r' t t' h h'
  refine C92_plain_partial Sample.oneInc false false Sample.constants ?_ 0 5 Call.loading Call.loading _ _ t t' .nil
    ((History.nil (s := Stash.init false false Sample.constants 5)).snoc 3 (.addFile c!"/w/a.inc" 0 none) trivial) c!"/w/b_1.bb"
    (Sample.oneInc_plain _) ?_ ?_ 3 3 0 7 none none r r' h h'
  · exact Sample.usableConstants
  · decide +kernel
  · decide +kernel

/-- both calls succeed and return one item -/
example : (addFile Sample.oneInc 3 c!"/w/b_1.bb" 0 none (Stash.init false false Sample.constants 0)).1.toOption.map (·.length) = some 1 ∧
    (addFile Sample.oneInc 3 c!"/w/b_1.bb" 7 none
      (addFile Sample.oneInc 3 c!"/w/a.inc" 0 none (Stash.init false false Sample.constants 5)).2).1.toOption.map (·.length) = some 1 := by
  decide +kernel

/-- the name of the include is `${BPN}.inc`; nothing assigns `BPN` -/
def Sample.bpnInc : World := Sample.world
  [(c!"/w/r_1.bb", c!"require ${BPN}.inc\nA = \"1\"\n"), (c!"/w/r.inc", c!"R = \"1\"\n"), (c!"/w/s.bb", c!"PN = \"x\"\n")]

theorem Sample.bpn_setsWithin : SetsWithin Sample.constants (fun n => n = c!"BPN") := by
  rintro d n t h rfl ht
  have : (setsBase Sample.constants).toOption.bind (fun b => match b with | .dict d => d.get c!"BPN" | _ => none) = none := by decide +kernel
  rw [h] at this
  simp only [Except.toOption, Option.bind_some] at this
  rw [this] at ht
  cases ht

/-- the line loads nothing, or a file with one of these names, or classes written like this -/
def Sample.lineNames (L : List Str) (c : Str) : Bool :=
  (match reMatch reInclude.re c with
    | some m => decide ((reInclude.group m c!"incname").getD [] ∈ L)
    | none => true) &&
  (match reMatch reInherit.re c with
    | some m => decide ((reInherit.group m c!"inhname").getD [] ∈ L)
    | none => true) &&
  (match reMatch reInheritGlob.re c with
    | some m => decide ((reInheritGlob.group m c!"inhname").getD [] ∈ L)
    | none => true)

theorem Sample.within_of {W : World} {V : Str → Prop} {f : Str} (L : List Str) (hL : ∀ n ∈ L, RefersWithin V n)
    (h : ∀ neg, (prepareLines W f 0 neg).toOption.map (·.all (fun c => Sample.lineNames L c.cnt)) = some true) : FileWithin W V f := by
  intro n hn
  have key : ∀ {off neg cs} {c : Chunk}, prepareLines W f off neg = .ok cs → c ∈ cs → Sample.lineNames L c.cnt = true := by
    intro off neg cs c h1 h2
    obtain ⟨cs0, h3, h4⟩ : ∃ cs0, prepareLines W f 0 neg = .ok cs0 ∧ ∀ c ∈ cs0, Sample.lineNames L c.cnt = true := by
      have h0 := h neg
      cases hp : prepareLines W f 0 neg with
      | error e => rw [hp] at h0; cases h0
      | ok cs0 =>
        rw [hp] at h0
        exact ⟨cs0, rfl, List.all_eq_true.1 (Option.some.inj h0)⟩
    have := prepareLines_shift h1 h3
    obtain ⟨c0, h5, h6⟩ : ∃ c0 ∈ cs0, c.cnt = c0.cnt := by
      clear h1 h3 h4
      induction this with
      | nil => simp at h2
      | @cons x y l l' hxy _ ih =>
        rcases List.mem_cons.1 h2 with rfl | h2
        · exact ⟨y, by simp, hxy.1⟩
        · obtain ⟨z, hz, e⟩ := ih h2
          exact ⟨z, by simp [hz], e⟩
    rw [h6]; exact h4 c0 h5
  refine hL n ?_
  rcases hn with ⟨off, neg, cs, c, m, h1, h2, h3, rfl⟩ | ⟨off, neg, cs, c, m, h1, h2, ⟨h3, rfl⟩ | ⟨h3, rfl⟩⟩
  all_goals
    have := key h1 h2
    unfold Sample.lineNames at this
    rw [h3] at this
    simp only [Bool.and_eq_true, decide_eq_true_eq] at this
  · exact this.1.1
  · exact this.1.2
  · exact this.2

theorem Sample.world_within {l : List (Str × Str)} {V : Str → Prop} (L : List Str) (hL : ∀ n ∈ L, RefersWithin V n)
    (h : ∀ p ∈ l, ∀ neg, (prepareLines (Sample.world l) p.1 0 neg).toOption.map (·.all (fun c => Sample.lineNames L c.cnt)) = some true)
    (f : Str) : FileWithin (Sample.world l) V f := by
  by_cases hf : f ∈ l.map (·.1)
  · obtain ⟨p, hp, rfl⟩ := List.mem_map.1 hf
    exact Sample.within_of L hL (h p hp)
  · refine Sample.within_of L hL fun neg => ?_
    have : (Sample.world l).file f = .notFound := by
      unfold Sample.world
      have : dget f l = none := by
        clear h
        induction l with
        | nil => rfl
        | cons x l ih =>
          simp only [List.map_cons, List.mem_cons, not_or] at hf
          rw [dget, if_neg (by simpa using Ne.symm hf.1)]
          exact ih hf.2
      simp only [this]
    unfold prepareLines
    rw [this]
    rfl

theorem Sample.bpnInc_within (f : Str) : FileWithin Sample.bpnInc (fun n => n = c!"BPN") f := by
  refine Sample.world_within [c!"${BPN}.inc"] ?_ (by decide +kernel) f
  simp only [List.mem_singleton]
  rintro _ rfl
  exact refersWithin_one (a := []) (m := c!"BPN") (b := c!".inc") (by simp) (by simp) (by simp)

/-- a test for `NoneAssigned` -/
def Sample.freeOf (n : Str) (x : Item) : Bool := match x.payload with
  | .variable v => decide (appendOperation v = [] → v.varName ≠ n)
  | _ => true

theorem Sample.noneAssigned {n : Str} {s : Stash} (h : s.items.all (Sample.freeOf n) = true) : NoneAssigned (fun m => m = n) s := by
  intro x hx v hv ha
  have := List.all_eq_true.1 h x hx
  unfold Sample.freeOf at this
  rw [hv] at this
  exact of_decide_eq_true this ha

/-- the recipe with `require ${BPN}.inc` is added to a new stash, and to one that has the include and another recipe already; three items -/
example : ∀ r r' t t', addFile Sample.bpnInc 3 c!"/w/r_1.bb" 0 none (Stash.init false false Sample.constants 0) = (.ok r, t) →
    addFile Sample.bpnInc 3 c!"/w/r_1.bb" 7 none (addFile Sample.bpnInc 3 c!"/w/s.bb" 0 none
      (addFile Sample.bpnInc 3 c!"/w/r.inc" 0 none (Stash.init false false Sample.constants 5)).2).2 = (.ok r', t') →
    r.map content = r'.map content ∧ r'.length = 2 ∧ t.items.length = 3 := by
  intro r r' t t' h h'
  have e1 : t = (addFile Sample.bpnInc 3 c!"/w/r_1.bb" 0 none (Stash.init false false Sample.constants 0)).2 := by rw [h]
  have e2 : t' = (addFile Sample.bpnInc 3 c!"/w/r_1.bb" 7 none (addFile Sample.bpnInc 3 c!"/w/s.bb" 0 none
      (addFile Sample.bpnInc 3 c!"/w/r.inc" 0 none (Stash.init false false Sample.constants 5)).2).2).2 := by rw [h']
  have e3 : (addFile Sample.bpnInc 3 c!"/w/r_1.bb" 7 none (addFile Sample.bpnInc 3 c!"/w/s.bb" 0 none
      (addFile Sample.bpnInc 3 c!"/w/r.inc" 0 none (Stash.init false false Sample.constants 5)).2).2).1.toOption.map (·.length) = some 2 := by decide +kernel
  refine ⟨C92_items_partial Sample.bpnInc (fun n => n = c!"BPN") false false Sample.constants Sample.usableConstants Sample.bpn_setsWithin 0 5
    Call.loading Call.loading _ _ t t' .nil
    (((History.nil (s := Stash.init false false Sample.constants 5)).snoc 3 (.addFile c!"/w/r.inc" 0 none) trivial).snoc 3 (.addFile c!"/w/s.bb" 0 none) trivial)
    c!"/w/r_1.bb" (Sample.bpnInc_within _) ?_ ?_ 3 3 0 7 none none r r' h h' ?_ ?_, ?_, ?_⟩
  · decide +kernel
  · decide +kernel
  · rw [e1]; exact Sample.noneAssigned (by decide +kernel)
  · rw [e2]; exact Sample.noneAssigned (by decide +kernel)
  · rw [h'] at e3; exact Option.some.inj e3
  · rw [e1]; decide +kernel

end

end Oelint

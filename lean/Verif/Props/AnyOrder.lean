import Verif.Spec.AnyOrder
import Verif.Lemmas.Visits
import Verif.Props.Reproducible
import Verif.Props.Printed
import Verif.Props.Context
/-! # C104: the order in which files are added does not matter for what the items say -/
set_option linter.unusedSectionVars false
namespace Oelint
open Spec

section
variable [Uni]

theorem added_down {W : World} {V : Str → Prop} {L : List Str} {s t : Stash} (h : AddedAll W L s t) (u : NoneAssigned V t) : NoneAssigned V s := by
  induction h with
  | nil => exact u
  | cons h _ ih => exact (down_add _ _ _ _).ok h (ih u)

theorem added_visits {W : World} {db : J} {V : Str → Prop} {ns neg : Bool} {L : List Str} {s t : Stash} (h : AddedAll W L s t)
    (k : Fit db ns neg s) (u : NoneAssigned V t) : Visits W db V ns neg s (L.map (abspath W.cwd)) t := by
  induction h with
  | nil => exact .refl _
  | cons h h' ih => exact (addFile_visits _ _ _ _ _ _ _ k h (added_down h' u)).trans (ih (addFile_fit k h) u)

/-- **C104** (partial: names of includes and classes refer to variables in `V` only, which are not assigned in the end, see the
counterexample; `Line` is left out). The same files are added to a stash in two orders, with any `lineOffset` and `forcedLink`, and all calls succeed. In both cases
the stash has the same items - each as often - up to their order and `Line`; the same lines were printed, and the same
distros and machines are known, up to the order. -/
theorem C104_order_partial (W : World) (V : Str → Prop) (hw : ∀ f, FileWithin W V f) (ns neg : Bool) (consts : J)
    (hu : UsableConstants consts) (hc : SetsWithin consts V) (uid : Nat) (q : Bool) (P : Call → Prop) (s0 s s' : Stash) (h : History W P (Stash.init ns neg consts uid q) s0) (L L' : List Str)
    (hp : (L.map (abspath W.cwd)).Perm (L'.map (abspath W.cwd))) (ha : AddedAll W L s0 s) (ha' : AddedAll W L' s0 s')
    (hn : NoneAssigned V s) (hn' : NoneAssigned V s') :
    (s.items.map content).Perm (s'.items.map content) ∧ s.printed.Perm s'.printed ∧
    (namesAt c!"distros" s.consts).Perm (namesAt c!"distros" s'.consts) ∧
    (namesAt c!"machines" s.consts).Perm (namesAt c!"machines" s'.consts) := by
  have hs := history_settings h
  obtain ⟨t, ht⟩ := history_tells h (seenOk_init ns neg consts uid q)
  have k : Fit consts ns neg s0 := ⟨history_constsOf h hu, hs.1, hs.2, ht.inv⟩
  obtain ⟨E, w, l⟩ := added_visits ha k hn
  obtain ⟨E', w', l'⟩ := added_visits ha' k hn'
  obtain ⟨pe, -⟩ := walk_perm (says_unique ⟨hu, hc⟩ hw) hp w w'
  refine ⟨?_, ?_, ?_, ?_⟩
  · rw [l.items, l'.items]
    exact (pe.flatMap_right _).append_left _
  · refine l.printed.trans (.trans (.append_left _ ?_) l'.printed.symm)
    split
    · exact .refl _
    · exact pe.map _
  · rw [l.distros, l'.distros]
    exact (pe.flatMap_right _).append_left _
  · rw [l.machines, l'.machines]
    exact (pe.flatMap_right _).append_left _

/-- **C104** if the names of includes and classes are written without references -/
theorem C104_plain_partial (W : World) (hw : PlainLoads W) (ns neg : Bool) (consts : J) (hu : UsableConstants consts) (uid : Nat)
    (q : Bool) (P : Call → Prop) (s0 s s' : Stash) (h : History W P (Stash.init ns neg consts uid q) s0) (L L' : List Str)
    (hp : (L.map (abspath W.cwd)).Perm (L'.map (abspath W.cwd))) (ha : AddedAll W L s0 s) (ha' : AddedAll W L' s0 s') :
    (s.items.map content).Perm (s'.items.map content) ∧ s.printed.Perm s'.printed ∧
    (namesAt c!"distros" s.consts).Perm (namesAt c!"distros" s'.consts) ∧
    (namesAt c!"machines" s.consts).Perm (namesAt c!"machines" s'.consts) :=
  C104_order_partial W (fun _ => False) (fun f => fileWithin_plain (hw f)) ns neg consts hu (setsWithin_none _) uid q P s0 s s' h L L' hp ha ha'
    (noneAssigned_none _) (noneAssigned_none _)

end

/-! ## concrete cases -/

section
attribute [local instance] Sample.asciiUni

theorem Sample.succeeds {W : World} {n : Nat} {p : Str} {off : Int} {forced : Option Str} {s : Stash}
    (h : (addFile W n p off forced s).1.toOption.isSome = true) :
    addFile W n p off forced s = (.ok ((addFile W n p off forced s).1.toOption.getD []), (addFile W n p off forced s).2) := by
  rcases hr : addFile W n p off forced s with ⟨r, t⟩
  rw [hr] at h
  cases r with
  | error e => cases h
  | ok a => rfl

/-- **C104** is false for names with references: the class is skipped for the second recipe, which then does not know the variable, so the
order decides which file is loaded. -/
theorem C104_counterexample : ∃ s s' : Stash,
    AddedAll Sample.refWorld [c!"/w/r.bb", c!"/w/s.bb"] (Stash.init false false Sample.constants 0) s ∧
    AddedAll Sample.refWorld [c!"/w/s.bb", c!"/w/r.bb"] (Stash.init false false Sample.constants 0) s' ∧
    s.items.any (·.origin == c!"/w/r-1.inc") = true ∧ s'.items.any (·.origin == c!"/w/r-1.inc") = false := by
  refine ⟨_, _, .cons (n := 5) (off := 0) (forced := none) (Sample.succeeds ?_)
      (.cons (n := 5) (off := 0) (forced := none) (Sample.succeeds ?_) .nil),
    .cons (n := 5) (off := 0) (forced := none) (Sample.succeeds ?_)
      (.cons (n := 5) (off := 0) (forced := none) (Sample.succeeds ?_) .nil), ?_, ?_⟩
  all_goals decide +kernel

/-- the recipe of `Sample.oneInc` and its include are added in both orders -/
example : ∃ s s' : Stash, AddedAll Sample.oneInc [c!"/w/b_1.bb", c!"a.inc"] (Stash.init false false Sample.constants 0) s ∧
    AddedAll Sample.oneInc [c!"/w/a.inc", c!"/w/b_1.bb"] (Stash.init false false Sample.constants 0) s' ∧
    (s.items.map content).Perm (s'.items.map content) ∧ s.printed.Perm s'.printed ∧ s.items.length = 3 ∧
    s.items.map (·.origin) ≠ s'.items.map (·.origin) := by
  have h : AddedAll Sample.oneInc [c!"/w/b_1.bb", c!"a.inc"] (Stash.init false false Sample.constants 0)
      (addFile Sample.oneInc 3 c!"a.inc" 4 none (addFile Sample.oneInc 3 c!"/w/b_1.bb" 0 none (Stash.init false false Sample.constants 0)).2).2 :=
    .cons (n := 3) (off := 0) (forced := none) (Sample.succeeds (by decide +kernel))
      (.cons (n := 3) (off := 4) (forced := none) (Sample.succeeds (by decide +kernel)) .nil)
  have h' : AddedAll Sample.oneInc [c!"/w/a.inc", c!"/w/b_1.bb"] (Stash.init false false Sample.constants 0)
      (addFile Sample.oneInc 3 c!"/w/b_1.bb" 0 none (addFile Sample.oneInc 3 c!"/w/a.inc" 0 none (Stash.init false false Sample.constants 0)).2).2 :=
    .cons (n := 3) (off := 0) (forced := none) (Sample.succeeds (by decide +kernel))
      (.cons (n := 3) (off := 0) (forced := none) (Sample.succeeds (by decide +kernel)) .nil)
  obtain ⟨h1, h2, -⟩ := C104_plain_partial Sample.oneInc Sample.oneInc_plain false false Sample.constants Sample.usableConstants 0 false Call.loading _ _ _
    .nil _ _ (by decide +kernel) h h'
  exact ⟨_, _, h, h', h1, h2, by decide +kernel, by decide +kernel⟩

/-- a recipe with `require ${BPN}.inc`, its include and another recipe are added in two orders -/
example : ∃ s s' : Stash, AddedAll Sample.bpnInc [c!"/w/r_1.bb", c!"/w/s.bb"] (Stash.init false false Sample.constants 0) s ∧
    AddedAll Sample.bpnInc [c!"/w/s.bb", c!"/w/r_1.bb"] (Stash.init false false Sample.constants 0) s' ∧
    (s.items.map content).Perm (s'.items.map content) ∧ s.items.length = 4 ∧ s.items.map (·.origin) ≠ s'.items.map (·.origin) := by
  have h : AddedAll Sample.bpnInc [c!"/w/r_1.bb", c!"/w/s.bb"] (Stash.init false false Sample.constants 0)
      (addFile Sample.bpnInc 3 c!"/w/s.bb" 0 none (addFile Sample.bpnInc 3 c!"/w/r_1.bb" 0 none (Stash.init false false Sample.constants 0)).2).2 :=
    .cons (n := 3) (off := 0) (forced := none) (Sample.succeeds (by decide +kernel))
      (.cons (n := 3) (off := 0) (forced := none) (Sample.succeeds (by decide +kernel)) .nil)
  have h' : AddedAll Sample.bpnInc [c!"/w/s.bb", c!"/w/r_1.bb"] (Stash.init false false Sample.constants 0)
      (addFile Sample.bpnInc 3 c!"/w/r_1.bb" 0 none (addFile Sample.bpnInc 3 c!"/w/s.bb" 0 none (Stash.init false false Sample.constants 0)).2).2 :=
    .cons (n := 3) (off := 0) (forced := none) (Sample.succeeds (by decide +kernel))
      (.cons (n := 3) (off := 0) (forced := none) (Sample.succeeds (by decide +kernel)) .nil)
  obtain ⟨h1, -⟩ := C104_order_partial Sample.bpnInc (fun n => n = c!"BPN") Sample.bpnInc_within false false Sample.constants Sample.usableConstants
    Sample.bpn_setsWithin 0 false Call.loading _ _ _ .nil _ _ (by decide +kernel) h h' (Sample.noneAssigned (by decide +kernel))
    (Sample.noneAssigned (by decide +kernel))
  exact ⟨_, _, h, h', h1, by decide +kernel, by decide +kernel⟩

end

end Oelint

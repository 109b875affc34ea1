import Verif.Lemmas.Unique
import Verif.Lemmas.Sample
import Verif.Props.Queries
/-! # No item is lost: C79 -/
set_option linter.unusedSectionVars false
namespace Oelint
open Spec

section
variable [Uni]

/-- what a fresh stash holds, and what every history of `AddFile`, `Remove` and `Finalize` makes of it -/
theorem distinct_of_history {W : World} {newStyle negative : Bool} {consts : J} {uid : Nat} {s : Stash}
    (h : History W Call.own (Stash.init newStyle negative consts uid) s) : Distinct s :=
  history_distinct h ⟨by simp [Stash.init], by simp [Stash.init]⟩

/-- **C79** Whatever was added, removed and finalized before: `GetItemsFor()` returns each item of the stash exactly once, although it
goes through a set; with a filter it returns exactly those that satisfy it. -/
theorem C79_query_returns_every_item {W : World} {newStyle negative : Bool} {consts : J} {uid : Nat} {s : Stash}
    (h : History W Call.own (Stash.init newStyle negative consts uid) s) :
    (getItemsFor W s {}).Perm s.items ∧
    ∀ (f : Filter) [DecidablePred (Selected s f)],
      (getItemsFor W s f).Perm (s.items.filter (fun x => decide (Selected s f x))) :=
  ⟨getItemsFor_all (distinct_of_history h) W, fun f => getItemsFor_perm (distinct_of_history h) W f⟩

/-- **C79** After `AddFile(path)` the query returns what it returned before (with other `Line`s at most), the items of the
statements of the file, and those of the files loaded on the way; equal statements are different items. -/
theorem C79_add_file_adds {W : World} {newStyle negative : Bool} {consts : J} {uid : Nat} {s s' : Stash}
    (h : History W Call.own (Stash.init newStyle negative consts uid) s) {depth : Nat} {path : Str} {off : Int} {forced : Option Str}
    {res : List Item} (hr : addFile W depth path off forced s = (.ok res, s')) :
    res.Nodup ∧ ∃ nested,
      ((getItemsFor W s' {}).map noLine).Perm ((getItemsFor W s {}).map noLine ++ (nested ++ res).map noLine) := by
  have hd := distinct_of_history h
  have hd' : Distinct s' := by
    have := hd.ext (addFile_uids W depth path off forced s).1
    rw [hr] at this; exact this
  obtain ⟨old, nested, h1, h2, h3, h4⟩ := (addFile_uids W depth path off forced s).2 res s' hr
  refine ⟨?_, nested, ?_⟩
  · rw [List.map_append] at h3
    exact h3.of_append_right.of_map _
  refine ((getItemsFor_all hd' W).map noLine).trans ?_
  rw [h1, List.append_assoc, List.map_append, h2.noLine]
  exact List.Perm.append_right _ ((getItemsFor_all hd W).map noLine).symm

/-- **C79** Also when `AddFile` raises, no earlier item is lost. -/
theorem C79_failing_add_file_keeps {W : World} {newStyle negative : Bool} {consts : J} {uid : Nat} {s : Stash}
    (h : History W Call.own (Stash.init newStyle negative consts uid) s) (depth : Nat) (path : Str) (off : Int) (forced : Option Str) :
    ∃ new, ((getItemsFor W (addFile W depth path off forced s).2 {}).map noLine).Perm ((getItemsFor W s {}).map noLine ++ new) := by
  have hd := distinct_of_history h
  have he := (addFile_uids W depth path off forced s).1
  have hd' := hd.ext he
  obtain ⟨old, new, h1, h2, -⟩ := he
  refine ⟨new.map noLine, ((getItemsFor_all hd' W).map noLine).trans ?_⟩
  rw [h1, List.map_append, h2.noLine]
  exact List.Perm.append_right _ ((getItemsFor_all hd W).map noLine).symm

/-- **C79** A successful `Remove(items)` takes exactly these items out of the result of the query. -/
theorem C79_remove_takes_out {W : World} {newStyle negative : Bool} {consts : J} {uid : Nat} {s s' : Stash}
    (h : History W Call.own (Stash.init newStyle negative consts uid) s) {l : List Item} (hr : removeItems l s = (.ok (), s')) :
    (getItemsFor W s {}).Perm (l ++ getItemsFor W s' {}) ∧ ∀ x ∈ l, x ∉ getItemsFor W s' {} := by
  have hd := distinct_of_history h
  have hd' := distinct_of_history (h.snoc 0 (.remove l) trivial)
  have e : (Call.remove l).after W 0 s = s' := by show (removeItems l s).2 = s'; rw [hr]
  rw [e] at hd'
  have hp : s.items.Perm (l ++ s'.items) := by
    rcases C36_remove s l with ⟨t, h1, -, h3, -⟩ | ⟨_, _, _, -, -, h3⟩
    · rw [hr] at h1
      cases h1
      exact h3
    · rw [hr] at h3
      cases h3
  refine ⟨(getItemsFor_all hd W).trans (hp.trans (List.Perm.append_left _ (getItemsFor_all hd' W).symm)), fun x hx hx' => ?_⟩
  have := (hp.nodup_iff.1 hd.items)
  rw [List.nodup_append'] at this
  exact this.2.2 hx ((getItemsFor_all hd' W).mem_iff.1 hx')

end

/-! ## Example: the same statement twice gives two items -/

section
attribute [local instance] Sample.asciiUni

def Sample.twice : World := Sample.world [(c!"/w/r.bb", c!"A = \"1\"\nA = \"1\"\n")]

example : ∃ s, History Sample.twice Call.own (Stash.init false false J.empty 0) s ∧
    (getItemsFor Sample.twice s {}).map (fun x => (x.line, x.realRaw)) = [(1, c!"A = \"1\"\n"), (2, c!"A = \"1\"\n")] :=
  ⟨_, (History.nil (s := Sample.stash)).snoc 1 (.addFile c!"/w/r.bb" 0 none) trivial, by decide +kernel⟩

example : ∃ res s', addFile Sample.twice 1 c!"/w/r.bb" 0 none (Stash.init false false J.empty 0) = (.ok res, s') ∧
    (removeItems res s').1 = .ok () ∧ res.length = 2 := by
  have h : Sample.okAnd (addFile Sample.twice 1 c!"/w/r.bb" 0 none Sample.stash) (fun res =>
    res.length == 2 && (match (removeItems res (addFile Sample.twice 1 c!"/w/r.bb" 0 none Sample.stash).2).1 with
      | .ok () => true
      | .error _ => false)) = true := by decide +kernel
  obtain ⟨res, s, h, hp⟩ := Sample.okAnd_iff.1 h
  rw [h] at hp
  simp only [Bool.and_eq_true, beq_iff_eq] at hp
  refine ⟨res, s, h, ?_, hp.1⟩
  have := hp.2
  split at this
  · assumption
  · cases this

end
end Oelint

import Verif.Lemmas.CacheOps
import Verif.Lemmas.SampleRuns
/-! C34, C35: the caches of the stash. -/
namespace Oelint
open Spec

section
variable [Uni]

/-- **C34** (partial) After any successful updates (`AddFile`, `Append`, `Remove`, `Finalize`), any calls of `AddFile` that failed because a file
could not be read, and any questions, asked in any order, every question is answered (or raises) as a fresh computation on the current stash would,
except for the three questions whose caches are never emptied.  Missing: `GetBBClasses`, `GetPackagesDynamic`, `IsDynamicPackage` (see
`C34_false`), and histories with a call that raised half-way: `Remove` (see `C34_failed_remove_false`), `Finalize` (see
`C34_failed_finalize_false`), or `AddFile` because of a malformed pattern in the name of an append (see `C34_failed_addFile_false`) or malformed
constants. -/
theorem C34_caching_invisible_partial (W : World) (ns neg : Bool) (consts : J) (uid : Nat) (c : CStash)
    (h : Lived W (CStash.init ns neg consts uid) c) (q : Question) (hq : q.neverCleared = false) :
    (q.ask W c).1 = q.fresh W c.base := by
  obtain ⟨c', h1, _⟩ := reads_question (W := W) q hq c (valid_lived h (valid_init W ns neg consts uid))
  rw [h1]

/-- **C35** (partial) A question changes nothing but the caches. -/
theorem C35_question_changes_nothing (W : World) (ns neg : Bool) (consts : J) (uid : Nat) (c : CStash)
    (h : Lived W (CStash.init ns neg consts uid) c) (q : Question) : (q.ask W c).2.base = c.base :=
  (keeps_question (W := W) q c (valid_lived h (valid_init W ns neg consts uid))).1

/-- **C35** (partial) Leaving out all questions changes neither what the calls return or raise nor the stash, provided
that between a question and a later `Finalize` some call empties the caches (an `Append`, a `Remove`, another `Finalize`, or `AddFile` of
a recipe, an include or a configuration).  Missing: the other histories, for which it is false (`C35_false`). -/
theorem C35_questions_change_nothing_partial (W : World) (ns neg : Bool) (consts : J) (uid : Nat) (l : List Act)
    (hl : EmptiedBeforeFinalize W l) :
    (play W l (CStash.init ns neg consts uid)).1 = (play W (callsOnly l) (CStash.init ns neg consts uid)).1 ∧
    (play W l (CStash.init ns neg consts uid)).2.base = (play W (callsOnly l) (CStash.init ns neg consts uid)).2.base := by
  have hco : ClassesOnly (CStash.init ns neg consts uid).base := fun f hf => by cases hf
  obtain ⟨r1, c1, h1, h2⟩ := play_plain (W := W) l hl _ (valid_init W ns neg consts uid) hco (Or.inr (noCleared_init ns neg consts uid))
  obtain ⟨r2, c2, h3, h4⟩ := play_plain (W := W) (callsOnly l) (emptied_callsOnly l) _ (valid_init W ns neg consts uid) hco
    (Or.inr (noCleared_init ns neg consts uid))
  rw [playPlain_callsOnly, h2] at h4
  rw [h1, h3]
  exact ⟨(Prod.mk.inj h4).1, (Prod.mk.inj h4).2⟩

end

attribute [local instance] Sample.asciiUni

/-- a recipe with an include that has an include -/
def Sample.nested : World := Sample.world
  [ (c!"/w/a_1.bb", c!"require b.inc\nPACKAGES_DYNAMIC = \"^a-.*\"\n"), (c!"/w/b.inc", c!"require c.inc\n"), (c!"/w/c.inc", c!"C = \"1\"\n"),
    (c!"/w/x.bbclass", c!"X = \"1\"\n") ]

/-- a new stash with its caches -/
def Sample.cached : CStash := CStash.init false false Sample.stash.consts 0

/-- what a play ends with, if no call raises -/
def Sample.played (W : World) (l : List Act) (p : CStash → Bool) : Bool :=
  match play W l Sample.cached with
  | (.ok _, c) => p c
  | _ => false

theorem Sample.played_iff {W : World} {l : List Act} {p : CStash → Bool} (h : Sample.played W l p = true) :
    ∃ r c, play W l Sample.cached = (.ok r, c) ∧ p c = true := by
  unfold Sample.played at h
  split at h
  · rename_i r c hr
    exact ⟨r, c, hr, h⟩
  · cases h

/-- **C34 is false** for `GetBBClasses`, `GetPackagesDynamic` and `IsDynamicPackage`: an answer given before `AddFile` is given again after
it. -/
theorem C34_false :
    (∃ c, Lived Sample.nested Sample.cached c ∧ (Question.bbClasses.ask Sample.nested c).1 = .ok (.names []) ∧
      Question.bbClasses.fresh Sample.nested c.base = .ok (.names [c!"/w/x.bbclass"])) ∧
    (∃ c, Lived Sample.nested Sample.cached c ∧ ((Question.packagesDynamic c!"/w/a_1.bb").ask Sample.nested c).1 = .ok (.names []) ∧
      (Question.packagesDynamic c!"/w/a_1.bb").fresh Sample.nested c.base = .ok (.names [c!"^a-.*"])) ∧
    (∃ c, Lived Sample.nested Sample.cached c ∧ ((Question.isDynamicPackage c!"/w/a_1.bb" c!"a-b").ask Sample.nested c).1 = .ok (.bool false) ∧
      (Question.isDynamicPackage c!"/w/a_1.bb" c!"a-b").fresh Sample.nested c.base = .ok (.bool true)) := by
  refine ⟨?_, ?_, ?_⟩
  · obtain ⟨r, c, h1, h2⟩ := Sample.played_iff (W := Sample.nested) (l := [.ask .bbClasses, .call 9 (.addFile c!"/w/x.bbclass" 0 none)])
      (p := fun c => decide ((Question.bbClasses.ask Sample.nested c).1 = .ok (.names []) ∧
        Question.bbClasses.fresh Sample.nested c.base = .ok (.names [c!"/w/x.bbclass"]))) (by decide +kernel)
    exact ⟨c, lived_play _ h1, of_decide_eq_true h2⟩
  · obtain ⟨r, c, h1, h2⟩ := Sample.played_iff (W := Sample.nested)
      (l := [.ask (.packagesDynamic c!"/w/a_1.bb"), .call 9 (.addFile c!"/w/a_1.bb" 0 none)])
      (p := fun c => decide (((Question.packagesDynamic c!"/w/a_1.bb").ask Sample.nested c).1 = .ok (.names []) ∧
        (Question.packagesDynamic c!"/w/a_1.bb").fresh Sample.nested c.base = .ok (.names [c!"^a-.*"]))) (by decide +kernel)
    exact ⟨c, lived_play _ h1, of_decide_eq_true h2⟩
  · obtain ⟨r, c, h1, h2⟩ := Sample.played_iff (W := Sample.nested)
      (l := [.ask (.isDynamicPackage c!"/w/a_1.bb" c!"a-b"), .call 9 (.addFile c!"/w/a_1.bb" 0 none)])
      (p := fun c => decide (((Question.isDynamicPackage c!"/w/a_1.bb" c!"a-b").ask Sample.nested c).1 = .ok (.bool false) ∧
        (Question.isDynamicPackage c!"/w/a_1.bb" c!"a-b").fresh Sample.nested c.base = .ok (.bool true))) (by decide +kernel)
    exact ⟨c, lived_play _ h1, of_decide_eq_true h2⟩

/-- a configuration -/
def Sample.conf : World := Sample.world [ (c!"/w/x.conf", c!"X = \"1\"\n") ]

/-- **C34 is false** after a `Remove` that raises: what was removed before the item that is not in the stash is still reported. -/
theorem C34_failed_remove_false : ∃ c x y e, Lived Sample.conf Sample.cached c ∧
    ((Call.remove [x, y]).perform Sample.conf 9 c).1 = .error e ∧
    (Question.confFiles.ask Sample.conf ((Call.remove [x, y]).perform Sample.conf 9 c).2).1 = .ok (.names [c!"/w/x.conf"]) ∧
    Question.confFiles.fresh Sample.conf ((Call.remove [x, y]).perform Sample.conf 9 c).2.base = .ok (.names []) := by
  obtain ⟨r, c, h1, h2⟩ := Sample.played_iff (W := Sample.conf)
    (l := [.call 9 (.addFile c!"/w/x.conf" 0 none), .ask .confFiles])
    (p := fun c => match c.base.items with
      | [x] =>
        decide (((Call.remove [x, x]).perform Sample.conf 9 c).1 = .error .valueError ∧
          (Question.confFiles.ask Sample.conf ((Call.remove [x, x]).perform Sample.conf 9 c).2).1 = .ok (.names [c!"/w/x.conf"]) ∧
          Question.confFiles.fresh Sample.conf ((Call.remove [x, x]).perform Sample.conf 9 c).2.base = .ok (.names []))
      | _ => false) (by decide +kernel)
  split at h2
  · rename_i x hx
    obtain ⟨g1, g2, g3⟩ := of_decide_eq_true h2
    exact ⟨c, x, x, _, lived_play _ h1, g1, g2, g3⟩
  · cases h2

/-- two appends and a recipe; the name of the second append without its ending is not a valid pattern -/
def Sample.badAppend : World := Sample.world
  [ (c!"/w/r.bbappend", c!"A = \"1\"\n"), (c!"/w/r\\.bbappend", c!"B = \"1\"\n"), (c!"/w/r.bb", c!"C = \"1\"\n") ]

/-- **C34 is false** after an `AddFile` that raises because of the name of an append: the recipe is linked to the first append by then, and
`GetItemsFor` gives what it gave before. -/
theorem C34_failed_addFile_false : ∃ c e x, Lived Sample.badAppend Sample.cached c ∧
    ((Call.addFile c!"/w/r.bb" 0 none).perform Sample.badAppend 9 c).1 = .error e ∧
    ((Question.itemsFor { filename := some c!"/w/r.bb" }).ask Sample.badAppend ((Call.addFile c!"/w/r.bb" 0 none).perform Sample.badAppend 9 c).2).1 =
      .ok (.items []) ∧
    (Question.itemsFor { filename := some c!"/w/r.bb" }).fresh Sample.badAppend ((Call.addFile c!"/w/r.bb" 0 none).perform Sample.badAppend 9 c).2.base =
      .ok (.items [x]) := by
  obtain ⟨r, c, h1, h2⟩ := Sample.played_iff (W := Sample.badAppend)
    (l := [.call 9 (.addFile c!"/w/r.bbappend" 0 none), .call 9 (.addFile c!"/w/r\\.bbappend" 0 none),
      .ask (.itemsFor { filename := some c!"/w/r.bb" })])
    (p := fun c => match (Question.itemsFor { filename := some c!"/w/r.bb" }).fresh Sample.badAppend
        ((Call.addFile c!"/w/r.bb" 0 none).perform Sample.badAppend 9 c).2.base with
      | .ok (.items [_]) =>
        decide (((Call.addFile c!"/w/r.bb" 0 none).perform Sample.badAppend 9 c).1 = .error .regexError ∧
          ((Question.itemsFor { filename := some c!"/w/r.bb" }).ask Sample.badAppend
            ((Call.addFile c!"/w/r.bb" 0 none).perform Sample.badAppend 9 c).2).1 = .ok (.items []))
      | _ => false) (by decide +kernel)
  split at h2
  · rename_i x hx
    obtain ⟨g1, g2⟩ := of_decide_eq_true h2
    exact ⟨c, _, x, lived_play _ h1, g1, g2, hx⟩
  · cases h2

/-- a recipe that requires a file which requires another one, a second recipe and its append -/
def Sample.foreign : World := Sample.world
  [ (c!"/w/a.bb", c!"require b.inc\n"), (c!"/w/b.inc", c!"require c.inc\n"), (c!"/w/c.inc", c!"C = \"1\"\n"), (c!"/w/z.bb", c!"Z = \"1\"\n"),
    (c!"/w/z.bbappend", c!"Z = \"2\"\n") ]

/-- the items of the append, in another stash -/
def Sample.foreignItems : List Item := (addFile Sample.foreign 9 c!"/w/z.bbappend" 0 none Sample.stash).1.toOption.getD []

/-- **C34 is false** after a `Finalize` that raises because of a file that is known from `Append` only: the links of the other recipe are
closed by then, and `GetItemsFor` gives what it gave before. -/
theorem C34_failed_finalize_false : ∃ c e l l', Lived Sample.foreign Sample.cached c ∧
    (Call.finalize.perform Sample.foreign 9 c).1 = .error e ∧
    ((Question.itemsFor { filename := some c!"/w/a.bb" }).ask Sample.foreign (Call.finalize.perform Sample.foreign 9 c).2).1 = .ok (.items l) ∧
    (Question.itemsFor { filename := some c!"/w/a.bb" }).fresh Sample.foreign (Call.finalize.perform Sample.foreign 9 c).2.base = .ok (.items l') ∧
    l.length = 2 ∧ l'.length = 3 := by
  obtain ⟨r, c, h1, h2⟩ := Sample.played_iff (W := Sample.foreign)
    (l := [.call 9 (.addFile c!"/w/a.bb" 0 none), .call 9 (.append Sample.foreignItems), .call 9 (.addFile c!"/w/z.bb" 0 none),
      .ask (.itemsFor { filename := some c!"/w/a.bb" })])
    (p := fun c => match (Question.itemsFor { filename := some c!"/w/a.bb" }).fresh Sample.foreign (Call.finalize.perform Sample.foreign 9 c).2.base,
        ((Question.itemsFor { filename := some c!"/w/a.bb" }).ask Sample.foreign (Call.finalize.perform Sample.foreign 9 c).2).1,
        (Call.finalize.perform Sample.foreign 9 c).1 with
      | .ok (.items l'), .ok (.items l), .error _ => decide (l.length = 2 ∧ l'.length = 3)
      | _, _, _ => false) (by decide +kernel)
  split at h2
  · rename_i l' l e hl' hl he
    obtain ⟨g1, g2⟩ := of_decide_eq_true h2
    exact ⟨c, e, l, l', lived_play _ h1, he, hl, hl', g1, g2⟩
  · cases h2

/-- a recipe that requires a file which cannot be read -/
def Sample.unreadableInclude : World :=
  { Sample.world [ (c!"/w/a_1.bb", c!"A = \"1\"\nrequire c.inc\nrequire b.inc\n"), (c!"/w/b.inc", []), (c!"/w/c.inc", c!"C = \"1\"\n") ] with
    file := fun p => if p == c!"/w/b.inc" then .fails else
      match dget p [ (c!"/w/a_1.bb", c!"A = \"1\"\nrequire c.inc\nrequire b.inc\n"), (c!"/w/c.inc", c!"C = \"1\"\n") ] with
      | some t => .text t
      | none => .notFound }

/-- `C34_caching_invisible_partial` applies after an `AddFile` that failed half-way, which leaves the items of `c.inc` in the stash -/
example : ∃ c, Lived Sample.unreadableInclude Sample.cached c ∧ c.base.items.length = 1 ∧ c.base.seenFiles.length = 3 ∧ c.tab ≠ [] := by
  have h : ((Call.addFile c!"/w/a_1.bb" 0 none).perform Sample.unreadableInclude 9 Sample.cached).1 = .error .osError := by decide +kernel
  have h' : ∀ {x : Except PyErr (List Item) × CStash} {e : PyErr}, x.1 = .error e → x = (.error e, x.2) := by
    rintro ⟨a, b⟩ e rfl
    rfl
  refine ⟨_, Lived.failed .nil (h' h) rfl, ?_, ?_, ?_⟩ <;> decide +kernel

/-- the files that include the given file, as its items report them -/
def Sample.reported (file : Str) (c : CStash) : List (List Str) := (c.base.items.filter (·.origin == file)).map (·.includedFrom)

/-- **C35 is false**: whether the items of `c.inc` report the recipe in `IncludedFrom` after `Finalize` depends on a question asked before. -/
theorem C35_false : ∃ l r r' c c', play Sample.nested l Sample.cached = (.ok r, c) ∧
    play Sample.nested (callsOnly l) Sample.cached = (.ok r', c') ∧
    (∃ it ∈ c'.base.items, it.origin = c!"/w/c.inc" ∧ c!"/w/a_1.bb" ∈ it.includedFrom) ∧
    ∀ it ∈ c.base.items, it.origin = c!"/w/c.inc" → c!"/w/a_1.bb" ∉ it.includedFrom := by
  obtain ⟨r, c, h1, h2⟩ := Sample.played_iff (W := Sample.nested)
    (l := [.call 9 (.addFile c!"/w/a_1.bb" 0 none), .ask (.itemsFor { filename := some c!"/w/a_1.bb" }), .call 9 .finalize])
    (p := fun c => c.base.items.all (fun it => !(it.origin == c!"/w/c.inc") || !it.includedFrom.contains c!"/w/a_1.bb")) (by decide +kernel)
  obtain ⟨r', c', h3, h4⟩ := Sample.played_iff (W := Sample.nested)
    (l := [.call 9 (.addFile c!"/w/a_1.bb" 0 none), .call 9 .finalize])
    (p := fun c => c.base.items.any (fun it => it.origin == c!"/w/c.inc" && it.includedFrom.contains c!"/w/a_1.bb")) (by decide +kernel)
  refine ⟨_, r, r', c, c', h1, h3, ?_, ?_⟩
  · simpa using h4
  · intro it hit ho hm
    have := List.all_eq_true.1 h2 it hit
    simp only [Bool.or_eq_true, Bool.not_eq_true', beq_eq_false_iff_ne, ne_eq, List.contains_eq_mem, decide_eq_false_iff_not] at this
    rcases this with h | h
    · exact h ho
    · exact h hm

/-- the theorems apply: questions between the calls, each answered from caches that updates have emptied -/
example : ∃ c, Lived Sample.nested Sample.cached c ∧ c.tab ≠ [] ∧
    ((Question.itemsFor { filename := some c!"/w/a_1.bb", classifier := .one c!"Variable" }).ask Sample.nested c).1 =
      (Question.itemsFor { filename := some c!"/w/a_1.bb", classifier := .one c!"Variable" }).fresh Sample.nested c.base ∧
    ∃ x y, (Question.itemsFor { filename := some c!"/w/a_1.bb", classifier := .one c!"Variable" }).fresh Sample.nested c.base = .ok (.items [x, y]) := by
  obtain ⟨r, c, h1, h2⟩ := Sample.played_iff (W := Sample.nested)
    (l := [.ask (.itemsFor { filename := some c!"/w/a_1.bb", classifier := .one c!"Variable" }), .call 9 (.addFile c!"/w/a_1.bb" 0 none), .call 9 .finalize,
      .ask (.itemsFor { filename := some c!"/w/a_1.bb", classifier := .one c!"Variable" })])
    (p := fun c => c.tab.length != 0 &&
      match (Question.itemsFor { filename := some c!"/w/a_1.bb", classifier := .one c!"Variable" }).fresh Sample.nested c.base with
      | .ok (.items l) => l.length == 2
      | _ => false) (by decide +kernel)
  rw [Bool.and_eq_true] at h2
  have hl : Lived Sample.nested Sample.cached c := lived_play _ h1
  refine ⟨c, hl, ?_, C34_caching_invisible_partial _ _ _ _ _ c hl _ rfl, ?_⟩
  · intro h; rw [h] at h2; simp at h2
  · split at h2
    · next l he =>
      match l, h2.2 with
      | [x, y], _ => exact ⟨x, y, he⟩
    · exact absurd h2.2 (by decide)

example : EmptiedBeforeFinalize Sample.nested [.ask .bbClasses, .call 9 (.addFile c!"/w/a_1.bb" 0 none), .call 9 .finalize, .ask .recipes] := by
  intro pre q mid d post h
  have h9 : Call.empties Sample.nested (.addFile c!"/w/a_1.bb" 0 none) = true := by decide +kernel
  match pre, mid, h with
  | [], [], h => cases h
  | [], [_], h => cases h; exact ⟨9, _, List.mem_cons_self, h9⟩
  | [], _ :: _ :: [], h => cases h
  | [], _ :: _ :: _ :: m, h => simp at h
  | [_], _, h => cases h
  | [_, _], _, h => cases h
  | [_, _, _], mid, h => cases mid <;> simp at h
  | _ :: _ :: _ :: _ :: p, mid, h => simp at h

end Oelint

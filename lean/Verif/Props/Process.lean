import Verif.Lemmas.Process
import Verif.Props.Cache
import Verif.Props.Known
/-! C100: stashes of one process do not influence each other. -/
namespace Oelint
open Spec

section
variable [Uni]

/-- **C100** (partial) In a process that makes stashes and works with them in any order, all a user sees of one of them is what they would
see had they made only that one, and it ends up the same but for the constants.  Its own calls must not raise, and between a question and a
later `Finalize` of this stash some call on it must empty the caches.  Missing: the other histories, for which it is false (`C100_false`). -/
theorem C100_independent_partial (W : World) (db : J) (hu : UsableConstants db) (l : List (Deed × Option Reply)) (P : Process)
    (h : Process.Run W { consts := db, stashes := [] } l P) (i : Nat) (quiet ns neg : Bool) (uid : Nat)
    (hi : (makings l)[i]? = some (quiet, ns, neg, uid)) (hok : NoRaise (repliesOf i l)) (he : EmptiedBeforeFinalize W (actsOn i l)) :
    repliesOf i l = observe W (actsOn i l) (newStash quiet ns neg uid db) ∧
    ∃ c, P.stashes[i]? = some c ∧
      { c.base with consts := db } = { (afterActs W (actsOn i l) (newStash quiet ns neg uid db)).base with consts := db } := by
  obtain ⟨⟨c, mid, h1, ⟨-, e, h2, -⟩, h3⟩, h4⟩ := (sound_run h rfl hu).tracks i quiet ns neg uid hi hok he
  refine ⟨h4, c, h1, ?_⟩
  have := congrArg (fun s : Stash => { s with consts := db }) h2
  rw [← h3.near.base]
  exact this

/-- **C100** (partial) The same holds of the first call that raises: it raises the same. -/
theorem C100_next_reply_partial (W : World) (db : J) (hu : UsableConstants db) (l : List (Deed × Option Reply)) (P Q : Process)
    (h : Process.Run W { consts := db, stashes := [] } l P) (i : Nat) (quiet ns neg : Bool) (uid : Nat)
    (hi : (makings l)[i]? = some (quiet, ns, neg, uid)) (hok : NoRaise (repliesOf i l)) (a : Act) (r : Option Reply)
    (hs : Process.Step W P (.act i a) r Q) (he : EmptiedBeforeFinalize W (actsOn i l ++ [a])) :
    r = some (a.run W (afterActs W (actsOn i l) (newStash quiet ns neg uid db))).1 := by
  obtain ⟨⟨c, mid, h1, h2, h3⟩, -⟩ := (sound_run h rfl hu).tracks i quiet ns neg uid hi hok (emptied_prefix he)
  cases hs with
  | @act _ c' _ hc others hl ho =>
    rw [hc] at h1
    cases h1
    rw [(run_names (W := W) a h2).1, beside_reply h3 a he]

/-- **C100** What the stashes share are the constants.  Whatever is done with the stashes, and whether or not calls raise, only the lists of
known distros and machines change. -/
theorem C100_shared_constants (W : World) (db : J) (hu : UsableConstants db) (l : List (Deed × Option Reply)) (P : Process)
    (h : Process.Run W { consts := db, stashes := [] } l P) : UsableConstants P.consts ∧ OtherNames db P.consts :=
  ⟨(sound_run h rfl hu).usable, (sound_run h rfl hu).names⟩

/-- one step after the other, the acts leaving the caches of the other stashes alone -/
def Sample.doAll (W : World) : List Deed → Process → List (Deed × Option Reply) × Process
  | [], P => ([], P)
  | .make q n g u :: rest, P =>
    let r := Sample.doAll W rest { P with stashes := P.stashes.map CStash.clear ++ [newStash q n g u P.consts] }
    ((.make q n g u, none) :: r.1, r.2)
  | .act i a :: rest, P =>
    match P.stashes[i]? with
    | none => ([], P)
    | some c =>
      let x := a.run W (underConsts P.consts c)
      let r := Sample.doAll W rest { consts := x.2.base.consts, stashes := P.stashes.set i x.2 }
      ((.act i a, some x.1) :: r.1, r.2)

theorem run_trans {W : World} {P Q R : Process} {l m : List (Deed × Option Reply)} (h1 : Process.Run W P l Q)
    (h2 : Process.Run W Q m R) : Process.Run W P (l ++ m) R := by
  induction h2 with
  | nil => rw [List.append_nil]; exact h1
  | snoc h hs ih => rw [← List.append_assoc]; exact .snoc ih hs

theorem run_cons {W : World} {P Q R : Process} {d : Deed} {r : Option Reply} {m : List (Deed × Option Reply)} (h1 : Process.Step W P d r Q)
    (h2 : Process.Run W Q m R) : Process.Run W P ((d, r) :: m) R :=
  run_trans (l := [(d, r)]) (.snoc .nil h1) h2

theorem Sample.doAll_run (W : World) (l : List Deed) (P : Process) : Process.Run W P (Sample.doAll W l P).1 (Sample.doAll W l P).2 := by
  induction l generalizing P with
  | nil => exact .nil
  | cons d l ih =>
    cases d with
    | make q n g u => exact run_cons (.make q n g u) (ih _)
    | act i a =>
      unfold Sample.doAll
      split
      · exact .nil
      · next c hc => exact run_cons (.act a hc P.stashes rfl (fun _ _ => Or.inl rfl)) (ih _)

end

attribute [local instance] Sample.asciiUni

/-- the replies name the recipe as including file -/
def Sample.names (r : List Reply) : Bool :=
  r.any (fun x => match x with
    | .answer (.ok (.items l)) => l.any (fun it => it.origin == c!"/w/c.inc" && it.includedFrom.contains c!"/w/a_1.bb")
    | _ => false)

/-- no call raised -/
def Sample.fine (r : List Reply) : Bool := r.all (fun x => match x with | .result (.error _) => false | _ => true)

theorem Sample.fine_iff {r : List Reply} (h : Sample.fine r = true) : NoRaise r := by
  intro e he
  have := List.all_eq_true.1 h _ he
  cases this

/-- load a recipe, look at it, finalize, look at everything; another stash is made in between if `other` -/
def Sample.deeds (other : Bool) : List Deed :=
  [.make true false false 0, .act 0 (.call 9 (.addFile c!"/w/a_1.bb" 0 none)), .act 0 (.ask (.itemsFor { filename := some c!"/w/a_1.bb" }))] ++
  (if other then [.make true false false 50] else []) ++
  [.act 0 (.call 9 .finalize), .act 0 (.ask (.itemsFor {}))]

/-- **C100 is false**: making another stash between a question and `Finalize` empties the caches, and then `Finalize` finds the files that
include a file, which it misses otherwise. -/
theorem C100_false : ∃ (l : List (Deed × Option Reply)) (P : Process),
    Process.Run Sample.nested { consts := Sample.constants, stashes := [] } l P ∧ UsableConstants Sample.constants ∧
    (makings l)[0]? = some (true, false, false, 0) ∧ NoRaise (repliesOf 0 l) ∧
    repliesOf 0 l ≠ observe Sample.nested (actsOn 0 l) (newStash true false false 0 Sample.constants) := by
  refine ⟨_, _, Sample.doAll_run Sample.nested (Sample.deeds true) _, Sample.usableConstants, by decide +kernel,
    Sample.fine_iff (by decide +kernel), fun h => ?_⟩
  have h1 : Sample.names (repliesOf 0 (Sample.doAll Sample.nested (Sample.deeds true) { consts := Sample.constants, stashes := [] }).1) = true := by
    decide +kernel
  rw [h] at h1
  exact absurd h1 (by decide +kernel)

/-- the theorem applies: two stashes used in turns -/
example : ∃ (l : List (Deed × Option Reply)) (P : Process),
    Process.Run Sample.nested { consts := Sample.constants, stashes := [] } l P ∧ (makings l)[0]? = some (true, false, false, 0) ∧
    (makings l).length = 2 ∧ (actsOn 0 l).length = 4 ∧ (actsOn 1 l).length = 1 ∧ NoRaise (repliesOf 0 l) ∧
    EmptiedBeforeFinalize Sample.nested (actsOn 0 l) ∧
    repliesOf 0 l = observe Sample.nested (actsOn 0 l) (newStash true false false 0 Sample.constants) := by
  have hrun := Sample.doAll_run Sample.nested
    [.make true false false 0, .act 0 (.call 9 (.addFile c!"/w/a_1.bb" 0 none)), .make false true false 50,
     .act 0 (.call 9 .finalize), .act 1 (.call 9 (.addFile c!"/w/b.inc" 0 none)), .act 0 (.ask .recipes),
     .act 0 (.ask (.itemsFor { filename := some c!"/w/a_1.bb" }))] { consts := Sample.constants, stashes := [] }
  have hok := Sample.fine_iff (r := repliesOf 0 (Sample.doAll Sample.nested
    [.make true false false 0, .act 0 (.call 9 (.addFile c!"/w/a_1.bb" 0 none)), .make false true false 50,
     .act 0 (.call 9 .finalize), .act 1 (.call 9 (.addFile c!"/w/b.inc" 0 none)), .act 0 (.ask .recipes),
     .act 0 (.ask (.itemsFor { filename := some c!"/w/a_1.bb" }))] { consts := Sample.constants, stashes := [] }).1) (by decide +kernel)
  have hacts : actsOn 0 (Sample.doAll Sample.nested
    [.make true false false 0, .act 0 (.call 9 (.addFile c!"/w/a_1.bb" 0 none)), .make false true false 50,
     .act 0 (.call 9 .finalize), .act 1 (.call 9 (.addFile c!"/w/b.inc" 0 none)), .act 0 (.ask .recipes),
     .act 0 (.ask (.itemsFor { filename := some c!"/w/a_1.bb" }))] { consts := Sample.constants, stashes := [] }).1 =
     [.call 9 (.addFile c!"/w/a_1.bb" 0 none), .call 9 .finalize, .ask .recipes, .ask (.itemsFor { filename := some c!"/w/a_1.bb" })] := rfl
  have he : EmptiedBeforeFinalize Sample.nested
     [.call 9 (.addFile c!"/w/a_1.bb" 0 none), .call 9 .finalize, .ask .recipes, .ask (.itemsFor { filename := some c!"/w/a_1.bb" })] := by
    intro pre q mid d post h
    match pre, h with
    | [], h => cases h
    | [_], h => cases h
    | [_, _], h =>
      simp only [List.cons_append, List.nil_append, List.cons.injEq] at h
      obtain ⟨-, -, -, h⟩ := h
      match mid, h with
      | [], h => simp at h
      | [_], h => simp at h
      | _ :: _ :: _, h => simp at h
    | [_, _, _], h => simp at h
    | _ :: _ :: _ :: _ :: _, h => simp at h
  have hm : (makings (Sample.doAll Sample.nested
    [.make true false false 0, .act 0 (.call 9 (.addFile c!"/w/a_1.bb" 0 none)), .make false true false 50,
     .act 0 (.call 9 .finalize), .act 1 (.call 9 (.addFile c!"/w/b.inc" 0 none)), .act 0 (.ask .recipes),
     .act 0 (.ask (.itemsFor { filename := some c!"/w/a_1.bb" }))] { consts := Sample.constants, stashes := [] }).1)[0]? =
     some (true, false, false, 0) := by decide +kernel
  refine ⟨_, _, hrun, hm, by decide +kernel, by rw [hacts]; rfl, by decide +kernel, hok, by rw [hacts]; exact he, ?_⟩
  exact (C100_independent_partial Sample.nested Sample.constants Sample.usableConstants _ _ hrun 0 true false false 0 hm hok
    (by rw [hacts]; exact he)).1

end Oelint

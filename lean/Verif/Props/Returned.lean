import Verif.Lemmas.Returned
import Verif.Props.Cache
/-!
# Callers that change what a question returned (C87)

`CStash.change k v c` is the stash after a caller has changed a returned list, set or dictionary so that it holds `v`; `k` is the
remembered result that is the same object.
-/
set_option linter.unusedSectionVars false
namespace Oelint
variable [Uni]
open Spec

/-- **C87** (partial) Changing a returned object changes nothing the user sees, as long as no question is asked that reads it - nor the
stash. Missing: the questions that read it, for which it is false (`C87_counterexample`). -/
theorem C87_not_read_partial (W : World) (q : Question) (k : CKey) (hk : q.object = some k) (v : CVal) (l : List Act) (hl : NotRead k l)
    (c : CStash) :
    observe W l (CStash.change k v c) = observe W l c ∧
    afterActs W l (CStash.change k v c) = CStash.change k v (afterActs W l c) ∧
    (afterActs W l (CStash.change k v c)).base = (afterActs W l c).base := by
  have hr := object_returned hk
  have : observe W l (CStash.change k v c) = observe W l c ∧
      afterActs W l (CStash.change k v c) = CStash.change k v (afterActs W l c) := by
    induction l generalizing c with
    | nil => exact ⟨rfl, rfl⟩
    | cons a l ih =>
      have hl' : NotRead k l := fun q hq => hl q (List.mem_cons_of_mem _ hq)
      cases a with
      | ask q' =>
        have h := frames_question (v := v) W hr q' (hl q' (by simp)) c
        obtain ⟨h1, h2⟩ := ih hl' (q'.ask W c).2
        constructor
        · rw [observe, observe, h, h1]
        · rw [afterActs, afterActs, h, h2]
      | call d k' =>
        have h := frames_call (v := v) W hr d k' c
        obtain ⟨h1, h2⟩ := ih hl' (k'.perform W d c).2
        constructor
        · rw [observe, observe, h, h1]
        · rw [afterActs, afterActs, h, h2]
  exact ⟨this.1, this.2, by rw [this.2]; rfl⟩

/-- **C87** (partial) An update of the stash undoes the change, for the results that updates forget: from then on every question is
answered as if the object had not been changed. Missing: `GetBBClasses`, `GetScrComponents` and `GetPackagesDynamic`, whose results are
never forgotten. -/
theorem C87_forgotten_partial (W : World) (q : Question) (k : CKey) (hk : q.object = some k) (v : CVal) (hc : k.cleared = true)
    (pre post : List Act) (hpre : NotRead k pre) (depth : Nat) (call : Call) (c : CStash) (hcall : Updates W depth call (afterActs W pre c)) :
    observe W (pre ++ .call depth call :: post) (CStash.change k v c) = observe W (pre ++ .call depth call :: post) c := by
  have hsplit : ∀ (l : List Act) (c : CStash), observe W (l ++ .call depth call :: post) c =
      observe W l c ++ .result (call.perform W depth (afterActs W l c)).1 :: observe W post (call.perform W depth (afterActs W l c)).2 := by
    intro l
    induction l with
    | nil => intro c; rfl
    | cons a l ih =>
      intro c
      cases a with
      | ask q => rw [List.cons_append, observe, ih]; rfl
      | call d k => rw [List.cons_append, observe, ih]; rfl
  obtain ⟨h1, h2, -⟩ := C87_not_read_partial W q k hk v pre hpre c
  rw [hsplit, hsplit, h1, h2, frames_call W (object_returned hk) depth call]
  obtain ⟨⟨r, c', hp⟩, hs⟩ := hcall
  rw [hp]
  have hn : NoCleared c' := by
    rcases cleared_call hp with ⟨-, p, o, f, rfl, ha⟩ | h
    · rw [hs p o f rfl] at ha; cases ha
    · exact h
  rw [change_noCleared hn hc]

end Oelint

/-! ## examples -/
namespace Oelint
open Spec
section
attribute [local instance] Sample.asciiUni

/-- the full statement: changing a returned object changes nothing a user sees -/
def ReturnedAreOwn (W : World) (c0 : CStash) : Prop :=
  ∀ (c : CStash) (q : Question) (k : CKey) (v : CVal) (l : List Act), Lived W c0 c → q.object = some k →
    observe W l (CStash.change k v c) = observe W l c

/-- **C87** (counterexample) If a caller empties the list that `GetRecipes` returned, `GetRecipes` returns no recipes; if a caller
empties the list that `GetBBClasses` returned, that is so even after another file has been added. -/
theorem C87_counterexample : ¬ ReturnedAreOwn Sample.nested Sample.cached ∧
    (∃ c, Lived Sample.nested Sample.cached c ∧ (Question.recipes.ask Sample.nested c).1 = .ok (.names [c!"/w/a_1.bb"]) ∧
      (Question.recipes.ask Sample.nested (CStash.change .recipes (.strs []) c)).1 = .ok (.names [])) ∧
    ∃ c, Lived Sample.nested Sample.cached c ∧ (Question.bbClasses.ask Sample.nested c).1 = .ok (.names [c!"/w/x.bbclass"]) ∧
      (Question.bbClasses.ask Sample.nested
        (afterActs Sample.nested [.call 9 (.addFile c!"/w/a_1.bb" 0 none)] (CStash.change .bbClasses (.strs []) c))).1 = .ok (.names []) := by
  have hex : ∃ c, Lived Sample.nested Sample.cached c ∧ (Question.recipes.ask Sample.nested c).1 = .ok (.names [c!"/w/a_1.bb"]) ∧
      (Question.recipes.ask Sample.nested (CStash.change .recipes (.strs []) c)).1 = .ok (.names []) := by
    obtain ⟨r, c, h1, h2⟩ := Sample.played_iff (W := Sample.nested) (l := [.call 9 (.addFile c!"/w/a_1.bb" 0 none), .ask .recipes])
      (p := fun c => decide ((Question.recipes.ask Sample.nested c).1 = .ok (.names [c!"/w/a_1.bb"]) ∧
        (Question.recipes.ask Sample.nested (CStash.change .recipes (.strs []) c)).1 = .ok (.names []))) (by decide +kernel)
    exact ⟨c, lived_play _ h1, of_decide_eq_true h2⟩
  refine ⟨fun h => ?_, hex, ?_⟩
  · obtain ⟨c, h1, h2, h3⟩ := hex
    have := h c .recipes .recipes (.strs []) [.ask .recipes] h1 rfl
    have h4 : Reply.answer (Question.recipes.ask Sample.nested (CStash.change .recipes (.strs []) c)).1 =
        Reply.answer (Question.recipes.ask Sample.nested c).1 := (List.cons.inj this).1
    rw [h2, h3] at h4
    cases h4
  · obtain ⟨r, c, h1, h2⟩ := Sample.played_iff (W := Sample.nested) (l := [.call 9 (.addFile c!"/w/x.bbclass" 0 none), .ask .bbClasses])
      (p := fun c => decide ((Question.bbClasses.ask Sample.nested c).1 = .ok (.names [c!"/w/x.bbclass"]) ∧
        (Question.bbClasses.ask Sample.nested
          (afterActs Sample.nested [.call 9 (.addFile c!"/w/a_1.bb" 0 none)] (CStash.change .bbClasses (.strs []) c))).1 = .ok (.names [])))
      (by decide +kernel)
    exact ⟨c, lived_play _ h1, of_decide_eq_true h2⟩

/-- C87: the theorems apply to the list of recipes: other questions do not notice, and the next update restores it -/
example (c : CStash) (v : CVal) : ((Question.itemsFor {}).ask Sample.nested (CStash.change .recipes v c)).1 =
      ((Question.itemsFor {}).ask Sample.nested c).1 ∧
    observe Sample.nested [.call 9 (.append []), .ask .recipes] (CStash.change .recipes v c) =
      observe Sample.nested [.call 9 (.append []), .ask .recipes] c := by
  refine ⟨?_, C87_forgotten_partial Sample.nested .recipes .recipes rfl v rfl [] [.ask .recipes] (fun _ h => by cases h) 9 (.append []) c
    ⟨⟨_, _, rfl⟩, fun _ _ _ h => by cases h⟩⟩
  have := (C87_not_read_partial Sample.nested .recipes .recipes rfl v [.ask (.itemsFor {})] (fun q h => by
    simp only [List.mem_singleton, Act.ask.injEq] at h; subst h; rfl) c).1
  rw [observe, observe] at this
  injection this with h1 _
  injection h1

end
end Oelint

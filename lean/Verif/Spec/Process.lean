import Verif.Spec.Returned
/-! Several stashes in one process (C100). -/
namespace Oelint.Spec
variable [Uni]

/-- A process and its stashes.  `CONSTANTS` is one object for all of them (`/repo/oelint_parser/constants.py:195`), so the stash with number
`i` reads and writes `consts`; the field of the same name of the stash itself is not used.  Simplification: items are values, so no item
belongs to two stashes. -/
structure Process where
  consts : J
  stashes : List CStash

/-- the stash with the constants of the process -/
def underConsts (db : J) (c : CStash) : CStash := { c with base := { c.base with consts := db } }

/-- what is done in a process -/
inductive Deed where
  /-- `Stash(quiet, new_style_override_syntax, negative_inline)`; the numbers that stand for the identities of its items start with `uid` -/
  | make (quiet newStyle negative : Bool) (uid : Nat)
  /-- something is done with the stash number `i` -/
  | act (i : Nat) (a : Act)

/-- one act: what the user sees and the stash after it -/
def Act.run (W : World) : Act → CStash → Reply × CStash
  | .ask q, c => (.answer (q.ask W c).1, (q.ask W c).2)
  | .call d k, c => (.result (k.perform W d c).1, (k.perform W d c).2)

/-- a new stash -/
def newStash (quiet newStyle negative : Bool) (uid : Nat) (db : J) : CStash :=
  { base := Stash.init newStyle negative db uid quiet, tab := [] }

/-- One step of a process.  `functools.cache` keeps one table for all instances of the class, so `_clear_cached`
(`/repo/oelint_parser/cls_stash.py:141-155`) called by one stash empties the caches of every stash.  Making a stash calls it (line 139).
Simplification: whether an act on a stash calls it is not computed here; every other stash may or may not lose its caches. -/
inductive Process.Step (W : World) : Process → Deed → Option Reply → Process → Prop
  | make {P : Process} (quiet ns neg : Bool) (uid : Nat) :
      Process.Step W P (.make quiet ns neg uid) none
        { P with stashes := P.stashes.map CStash.clear ++ [newStash quiet ns neg uid P.consts] }
  | act {P : Process} {i : Nat} {c : CStash} (a : Act) (hc : P.stashes[i]? = some c) (others : List CStash)
      (hl : others.length = P.stashes.length)
      (ho : ∀ j, j ≠ i → others[j]? = P.stashes[j]? ∨ others[j]? = P.stashes[j]?.map CStash.clear) :
      Process.Step W P (.act i a) (some (a.run W (underConsts P.consts c)).1)
        { consts := (a.run W (underConsts P.consts c)).2.base.consts, stashes := others.set i (a.run W (underConsts P.consts c)).2 }

/-- one step after the other; what was done and seen -/
inductive Process.Run (W : World) : Process → List (Deed × Option Reply) → Process → Prop
  | nil {P} : Process.Run W P [] P
  | snoc {P Q R : Process} {l : List (Deed × Option Reply)} {d : Deed} {r : Option Reply} (h : Process.Run W P l Q)
      (hs : Process.Step W Q d r R) : Process.Run W P (l ++ [(d, r)]) R

/-- what was done with stash number `i` -/
def actsOn (i : Nat) (l : List (Deed × Option Reply)) : List Act :=
  l.filterMap (fun e => match e.1 with | .act j a => if j = i then some a else none | _ => none)

/-- what was seen of stash number `i` -/
def repliesOf (i : Nat) (l : List (Deed × Option Reply)) : List Reply :=
  l.filterMap (fun e => match e.1 with | .act j _ => if j = i then e.2 else none | _ => none)

/-- how the stashes were made -/
def makings (l : List (Deed × Option Reply)) : List (Bool × Bool × Bool × Nat) :=
  l.filterMap (fun e => match e.1 with | .make q n g u => some (q, n, g, u) | _ => none)

/-- no call raises -/
def NoRaise (l : List Reply) : Prop := ∀ e, Reply.result (.error e) ∉ l

end Oelint.Spec

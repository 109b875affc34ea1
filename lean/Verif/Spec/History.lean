import Verif.Model.StashOps
/-! Histories of calls on a stash (C12, C38-C48). -/
namespace Oelint.Spec
variable [Uni]

/-- the calls that change a stash -/
inductive Call where
  | addFile (path : Str) (lineOffset : Int) (forcedLink : Option Str)
  | append (items : List Item)
  | remove (items : List Item)
  | finalize

/-- the state after a call; `depth` is the recursion limit of the interpreter -/
def Call.after (W : World) (depth : Nat) : Call → Stash → Stash
  | .addFile p o f, s => (Oelint.addFile W depth p o f s).2
  | .append l, s => appendItems s l
  | .remove l, s => (removeItems l s).2
  | .finalize, s => (Oelint.finalize W s).2

/-- a call of `AddFile` or `Finalize` -/
def Call.loading : Call → Prop
  | .addFile .. => True
  | .finalize => True
  | _ => False

/-- calls (all with `P`), whether they succeed or raise -/
inductive History (W : World) (P : Call → Prop) : Stash → Stash → Prop
  | nil {s} : History W P s s
  | snoc {s s1 : Stash} (h : History W P s s1) (depth : Nat) (c : Call) (hc : P c) : History W P s (c.after W depth s1)

/-- successful calls `AddFile(path)` for the given paths in order -/
inductive Added (W : World) : Stash → List Str → Stash → Prop
  | nil {s} : Added W s [] s
  | snoc {s s1 s2 : Stash} {ps : List Str} {p : Str} {depth : Nat} {res : List Item} (h : Added W s ps s1)
      (hp : Oelint.addFile W depth p 0 none s1 = (.ok res, s2)) : Added W s (ps ++ [p]) s2

/-- the files an item has loaded, as the item reports them: `FileIncluded` of an include, `FilePaths` of an inherit -/
def Reports (it : Item) (p : Str) : Prop :=
  (∃ name stmt, it.payload = .include name p stmt ∧ p ≠ []) ∨ ∃ stmt cls ps, it.payload = .inherit stmt cls ps ∧ p ∈ ps

/-- the links of a file -/
def links (s : Stash) (f : Str) : List Str := (dget f s.map).getD []

/-- `x` can be reached from `k` over links -/
inductive Reach (s : Stash) : Str → Str → Prop
  | refl (k : Str) : Reach s k k
  | step {k i x : Str} (h : i ∈ links s k) (hx : Reach s i x) : Reach s k x

/-- `i` stands before `k` -/
def Before (l : List Str) (i k : Str) : Prop := ∃ a b c, l = a ++ i :: (b ++ k :: c)

end Oelint.Spec

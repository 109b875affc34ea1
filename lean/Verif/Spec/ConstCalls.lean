import Verif.Spec.ConstHeap
/-! What a sequence of calls leaves in the constant data base (C108). -/
namespace Oelint.Spec

/-- a call of `AddConstants`, `RemoveConstants` or `OverrideConstants`: the dictionary object passed, its value and the objects it consists of -/
structure ConstCall where
  op : MergeOp
  arg : Ref
  value : KV
  objs : List Ref

/-- there is a list at the path -/
def ListAt (ks : List Str) (j : J) : Prop := ∃ xs, valueAt ks j = some (.list xs)

/-- the list at the path has the element -/
def ListHas (ks : List Str) (x : Str) (j : J) : Prop := ∃ xs, valueAt ks j = some (.list xs) ∧ x ∈ xs

/-- the call puts the element into the list at the path: an `AddConstants` or `OverrideConstants` with the element there -/
def Puts (ks : List Str) (x : Str) (c : MergeOp × KV) : Prop := c.1 ≠ .remove ∧ ListHas ks x (.dict c.2)

/-- the call takes the element out of the list at the path: a `RemoveConstants` with the element there, or an `OverrideConstants` with a
list there that does not have it -/
def Takes (ks : List Str) (x : Str) (c : MergeOp × KV) : Prop :=
  (c.1 = .remove ∧ ListHas ks x (.dict c.2)) ∨ (c.1 = .override ∧ ListAt ks (.dict c.2) ∧ ¬ ListHas ks x (.dict c.2))

/-- the last call that decides about the element puts it there; or none decides and it was there before -/
def LastSays (ks : List Str) (x : Str) (before : Prop) (calls : List (MergeOp × KV)) : Prop :=
  (∃ pre c post, calls = pre ++ c :: post ∧ Puts ks x c ∧ ∀ c' ∈ post, ¬ Takes ks x c') ∨ (before ∧ ∀ c ∈ calls, ¬ Takes ks x c)

/-- each dictionary passed is made of objects of its own: none occurs in two places of it, in the data base or in the dictionary of another
call -/
structure OwnObjects (h : Heap) (fdb : List Ref) (calls : List ConstCall) : Prop where
  stores : ∀ c ∈ calls, Stores h (.ref c.arg) (.dict c.value) c.objs
  once : ∀ c ∈ calls, c.objs.Nodup
  notDb : ∀ c ∈ calls, ∀ r ∈ c.objs, r ∉ fdb
  apart : calls.Pairwise fun c c' => ∀ r ∈ c.objs, r ∉ c'.objs

/-- the shapes of the data base and all dictionaries passed go together -/
structure ShapesAgree (db : J) (calls : List (MergeOp × KV)) : Prop where
  withDb : ∀ c ∈ calls, Compatible db (.dict c.2)
  pairs : calls.Pairwise fun c c' => Compatible (.dict c.2) (.dict c'.2)

end Oelint.Spec

import Verif.Model.ConstHeap
import Verif.Spec.Constants
/-! Objects and what they mean (C31). -/
namespace Oelint.Spec

mutual
/-- the variable `v` holds the JSON value, made of exactly the objects in the list (with repetitions, if an object occurs in several places) -/
def Stores (h : Heap) : HVal → J → List Ref → Prop
  | v, .str s, fp => v = .str s ∧ fp = []
  | v, .list xs, fp => ∃ r, v = .ref r ∧ h[r]? = some (.list xs) ∧ fp = [r]
  | v, .dict kv, fp => ∃ r es f, v = .ref r ∧ h[r]? = some (.dict es) ∧ StoresKV h es kv f ∧ fp = r :: f
/-- the entries of a dictionary object -/
def StoresKV (h : Heap) : List (Str × HVal) → KV → List Ref → Prop
  | es, .nil, fp => es = [] ∧ fp = []
  | es, .cons k j kv, fp => ∃ v es' f1 f2, es = (k, v) :: es' ∧ Stores h v j f1 ∧ StoresKV h es' kv f2 ∧ fp = f1 ++ f2
end

mutual
/-- how deep dictionaries are nested -/
def depthJ : J → Nat
  | .dict kv => depthKV kv + 1
  | _ => 0
/-- how deep the dictionaries in the values are nested -/
def depthKV : KV → Nat
  | .nil => 0
  | .cons _ v r => max (depthJ v) (depthKV r)
end

/-- the object `r` holds the object `x` in one of its entries -/
def Holds (h : Heap) (r x : Ref) : Prop := ∃ es k, h[r]? = some (.dict es) ∧ (k, HVal.ref x) ∈ es

/-- `x` is `r` or can be reached from it -/
inductive Reaches (h : Heap) : Ref → Ref → Prop
  | refl (r : Ref) : Reaches h r r
  | step {r x y : Ref} (hx : Reaches h r x) (hy : Holds h x y) : Reaches h r y

/-- every path of `d` leads to a value of `db` too -/
def KnownPaths (db d : J) : Prop := ∀ ks y, valueAt ks d = some y → ∃ x, valueAt ks db = some x

/-- a sequence of calls, starting from the database `db`: each is a `RemoveConstants` of anything or an `AddConstants` of a dictionary all of
whose paths the database has at that time -/
def OnlyKnown (db : J) : List (MergeOp × KV) → Prop
  | [] => True
  | (op, d) :: rest => (op = .remove ∨ (op = .add ∧ KnownPaths db (.dict d))) ∧ OnlyKnown (mergeDb op db d).1 rest

/-- the value of the database after the calls -/
def afterCalls (db : J) : List (MergeOp × KV) → J
  | [] => db
  | (op, d) :: rest => afterCalls (mergeDb op db d).1 rest

end Oelint.Spec

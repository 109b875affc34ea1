import Verif.Model.Constants
/-! Specifications for the constant data base (C27-C30): values are read along a path of keys. -/
namespace Oelint.Spec

/-- the value found by following the keys -/
def valueAt : List Str → J → Option J
  | [], j => some j
  | k :: ks, .dict d => (d.get k).bind (valueAt ks)
  | _ :: _, _ => none

/-- is the value a dictionary -/
def IsDict (j : J) : Prop := ∃ d, j = .dict d

mutual
/-- no dictionary in the value has a key twice (true of every Python dictionary) -/
def WF : J → Prop
  | .dict d => WFKV d
  | .list _ => True
  | .str _ => True
/-- no key twice -/
def WFKV : KV → Prop
  | .nil => True
  | .cons k v r => r.get k = none ∧ WF v ∧ WFKV r
end

/-- `d` has a shape that can be added to or removed from `db`: where both have a value, both are dictionaries or both are lists -/
def Compatible (db d : J) : Prop :=
  ∀ ks x y, valueAt ks db = some x → valueAt ks d = some y → (IsDict x ∧ IsDict y) ∨ (∃ xs ys, x = .list xs ∧ y = .list ys)

/-- `d` can override `db`: where `d` has a dictionary, `db` has one or nothing -/
def Overridable (db d : J) : Prop :=
  ∀ ks x y, valueAt ks db = some x → valueAt ks d = some y → IsDict y → IsDict x

/-- following the keys from `j` runs through a value that is not a dictionary -/
def RunsThroughLeaf (ks : List Str) (j : J) : Prop :=
  ∃ pre k post x, ks = pre ++ k :: post ∧ valueAt pre j = some x ∧ ¬ IsDict x

end Oelint.Spec

import Verif.Model.Constants
/-!
# `Constants` with object identities

`/repo/oelint_parser/constants.py:44-93` again, on a heap of dictionary and list objects, to see which objects a call changes.
Strings are values.  As in `Verif.Model.Constants`, the elements of lists are strings.
-/
namespace Oelint

/-- the identity of a dictionary or list object -/
abbrev Ref := Nat

/-- what a variable or an entry of a dictionary holds -/
inductive HVal where
  | str (s : Str)
  | ref (r : Ref)
  deriving DecidableEq

/-- an object -/
inductive HObj where
  | dict (es : List (Str × HVal))
  | list (xs : List Str)
  deriving DecidableEq

/-- all objects; `h[r]?` is the object `r` -/
abbrev Heap := List HObj

/-- a program on the heap; what it did before an exception stays done -/
abbrev HM := Heap → Option PyErr × Heap

/-- is the value a dictionary, `isinstance(b[k], dict)` -/
def HVal.dict? (h : Heap) : HVal → Option (Ref × List (Str × HVal))
  | .ref r => match h[r]? with
    | some (.dict es) => some (r, es)
    | _ => none
  | .str _ => none

/-- iteration over a value: the elements of a list, the keys of a dictionary, the characters of a string -/
def HVal.elems (h : Heap) : HVal → List Str
  | .str s => s.map ([·])
  | .ref r => match h[r]? with
    | some (.list xs) => xs
    | some (.dict es) => es.map (·.1)
    | none => []

/-- `x in v` -/
def HVal.has (h : Heap) (x : Str) : HVal → Bool
  | .str s => hasSub x s
  | v => (v.elems h).contains x

/-- what happens to the existing entry `w` at the key `k` of the dictionary object `a` when `b[k]` is the non-dictionary `v`:
`a[k] += v` extends a list object in place (`/repo/oelint_parser/constants.py:57`), `a[k] = [x for x in a[k] if x not in v]` makes a new
list (74), `a[k] = v` stores the caller's object (91) -/
def hLeaf (op : MergeOp) (a : Ref) (es : List (Str × HVal)) (k : Str) (w v : HVal) : HM := fun h =>
  match op with
  | .add =>
    match w, v with
    | .str s, .str t => (none, h.set a (.dict (dset k (.str (s ++ t)) es)))
    | .ref r, v =>
      match h[r]? with
      | some (.list xs) => (none, h.set r (.list (xs ++ v.elems h)))
      | _ => (some .typeError, h)
    | _, _ => (some .typeError, h)
  | .remove =>
    (none, (h ++ [HObj.list ((w.elems h).filter (fun x => !v.has h x))]).set a (.dict (dset k (.ref h.length) es)))
  | .override => (none, h.set a (.dict (dset k v es)))

/-- the body of the loop of `dict_merge(a, b)` for one item `k, v` of `b`, `/repo/oelint_parser/constants.py:52-57, 69-74, 86-91`; `rec` is the
recursive call.  If `a` is a list or a string, looking up a key raises `TypeError`. -/
def hItem (rec : HVal → Ref → HM) (op : MergeOp) (a : HVal) (k : Str) (v : HVal) : HM := fun h =>
  match a.dict? h with
  | none =>
    if a.has h k || op != .remove then (some .typeError, h) else (none, h)
  | some (r, es) =>
    match dget k es with
    | none => if op = .remove then (none, h) else (none, h.set r (.dict (dset k v es)))
    | some w =>
      match v.dict? h with
      | some (vr, _) => rec w vr h
      | none => hLeaf op r es k w v h

/-- the items of `b` in the middle of `for k, v in b.items()`; a change of their number raises `RuntimeError` -/
def hItems (b : Ref) (n : Nat) (h : Heap) : Except PyErr (List (Str × HVal)) :=
  match h[b]? with
  | some (.dict es) => if es.length = n then .ok es else .error .runtimeError
  | _ => .error .attributeError

/-- `for k, v in b.items()`, `/repo/oelint_parser/constants.py:51, 68, 85`, with the given number of the `n` items still to do -/
def hLoop (rec : HVal → Ref → HM) (op : MergeOp) (a : HVal) (b : Ref) (n : Nat) : Nat → HM
  | 0 => fun h => match hItems b n h with
    | .error e => (some e, h)
    | .ok _ => (none, h)
  | todo + 1 => fun h => match hItems b n h with
    | .error e => (some e, h)
    | .ok es => match es[n - (todo + 1)]? with
      | none => (none, h)
      | some (k, v) => match hItem rec op a k v h with
        | (some e, h') => (some e, h')
        | (none, h') => hLoop rec op a b n todo h'

/-- `dict_merge(a, b)`, `/repo/oelint_parser/constants.py:50-58, 67-75, 84-92`; the first argument is the recursion limit -/
def hMerge (op : MergeOp) : Nat → HVal → Ref → HM
  | 0, _, _ => fun h => (some .recursionError, h)
  | fuel + 1, a, b => fun h =>
    match h[b]? with
    | some (.dict es) => hLoop (hMerge op fuel) op a b es.length es.length h
    | _ => (some .attributeError, h)

/-- a sequence of calls of `AddConstants`, `RemoveConstants`, `OverrideConstants` with the given dictionary objects; `db` is the object of the
database (it stays the same object: `dict_merge` returns `a`). Exceptions are caught by the caller. -/
def hCalls (fuel : Nat) (db : Ref) : List (MergeOp × Ref) → Heap → Heap
  | [], h => h
  | (op, d) :: rest, h => hCalls fuel db rest (hMerge op fuel (.ref db) d h).2

end Oelint

import Verif.Model.RegexRpl
/-!
# `Constants`

`/repo/oelint_parser/constants.py`.  JSON values are restricted to what the database contains: dictionaries, lists of
strings and strings.  The merge functions change the database in place; an exception in the middle leaves the changes
made so far, therefore they return the new value *and* the exception.
Aliasing between the database and the caller's dictionaries is modelled separately in `Verif.Model.ConstHeap`.
-/
namespace Oelint

mutual
/-- a JSON value -/
inductive J where
  | dict (d : KV)
  | list (xs : List Str)
  | str (s : Str)
/-- the items of a dictionary in order -/
inductive KV where
  | nil
  | cons (k : Str) (v : J) (rest : KV)
end

/-- `d.get(k)` -/
def KV.get (k : Str) : KV → Option J
  | .nil => none
  | .cons k' v r => if k' == k then some v else r.get k

/-- `d[k] = v` -/
def KV.set (k : Str) (v : J) : KV → KV
  | .nil => .cons k v .nil
  | .cons k' v' r => if k' == k then .cons k' v r else .cons k' v' (r.set k v)

/-- `list(d)` -/
def KV.keys : KV → List Str
  | .nil => []
  | .cons k _ r => k :: r.keys

/-- `d.items()` -/
def KV.toList : KV → List (Str × J)
  | .nil => []
  | .cons k v r => (k, v) :: r.toList

/-- the empty dictionary -/
def J.empty : J := .dict .nil

/-- `path.rstrip('/').split('/')`, `/repo/oelint_parser/constants.py:38` -/
def pathKeys (path : Str) : List Str := splitC '/' (rstripP (· == '/') path)

/-- the loop of `GetByPath`, `/repo/oelint_parser/constants.py:39-42`; `.get` on anything but a dictionary raises -/
def getKeys : List Str → J → Except PyErr J
  | [], d => .ok d
  | k :: ks, .dict d => getKeys ks ((d.get k).getD J.empty)
  | _ :: _, _ => .error .attributeError

/-- `Constants.GetByPath`, `/repo/oelint_parser/constants.py:29-42` -/
def getByPath (db : J) (path : Str) : Except PyErr J := getKeys (pathKeys path) db

/-- `a[k] += v` on values (`/repo/oelint_parser/constants.py:57`); a list extended by a string gets its characters,
by a dictionary would get its keys (that case is taken by the `isinstance` branch before) -/
def plusEq : J → J → Except PyErr J
  | .list xs, .list ys => .ok (.list (xs ++ ys))
  | .list xs, .str s => .ok (.list (xs ++ s.map ([·])))
  | .str s, .str t => .ok (.str (s ++ t))
  | _, _ => .error .typeError

/-- `[x for x in a[k] if x not in v]`, `/repo/oelint_parser/constants.py:74`: iterating a dictionary gives its keys,
a string its characters; `x not in v` for a string is a substring test -/
def minusEq (a v : J) : J :=
  let elems : List Str := match a with
    | .list xs => xs
    | .dict d => d.keys
    | .str s => s.map ([·])
  match v with
  | .list ys => .list (elems.filter (fun x => !ys.contains x))
  | .str s => .list (elems.filter (fun x => !hasSub x s))
  | .dict d => .list (elems.filter (fun x => !d.keys.contains x))

/-- which of the three merge functions -/
inductive MergeOp where
  | add | remove | override
  deriving DecidableEq, Repr

/-- What the merge does to an existing non-dictionary entry: `/repo/oelint_parser/constants.py:56-57` (add),
`73-74` (remove), `90-91` (override). -/
def leafMerge : MergeOp → J → J → Except PyErr J
  | .add, a, v => plusEq a v
  | .remove, a, v => .ok (minusEq a v)
  | .override, _, v => .ok v

mutual
/-- `dict_merge(a, b)` for dictionaries (`/repo/oelint_parser/constants.py:50-58, 67-75, 84-92`): walk the items of `b`;
returns the updated `a` and the exception that stopped the walk, if any. -/
def mergeKV (op : MergeOp) (a : KV) : KV → KV × Option PyErr
  | .nil => (a, none)
  | .cons k v rest =>
    match a.get k with
    | none =>
      -- `if k not in a: a[k] = v` (remove: `pass`)
      mergeKV op (match op with | .remove => a | _ => a.set k v) rest
    | some ak =>
      match mergeJ op ak v with
      | (ak', none) => mergeKV op (a.set k ak') rest
      | (ak', some e) => (a.set k ak', some e)
/-- the `elif isinstance(b[k], dict)` / `else` branches for an existing entry `ak`.  Descending with a non-empty
dictionary into a non-dictionary raises `TypeError` (`a["key"]` on a list or string); with an empty one it is a no-op.
Simplification: `k not in a` on a string is a substring test; both outcomes raise or (remove, not contained) skip. -/
def mergeJ (op : MergeOp) (ak : J) : J → J × Option PyErr
  | .dict b =>
    match ak with
    | .dict a =>
      match mergeKV op a b with
      | (a', e) => (.dict a', e)
    | other => (other, descendErr op other b.keys)
  | .list ys => match leafMerge op ak (.list ys) with
    | .ok r => (r, none)
    | .error e => (ak, some e)
  | .str s => match leafMerge op ak (.str s) with
    | .ok r => (r, none)
    | .error e => (ak, some e)
/-- descending into a list or string: every key present raises `TypeError`; an absent key raises too, except that
`RemoveConstants` skips absent keys -/
def descendErr (op : MergeOp) (ak : J) : List Str → Option PyErr
  | [] => none
  | k :: ks =>
    let present := match ak with
      | .list xs => xs.contains k
      | .str s => hasSub k s
      | .dict _ => true
    if present || op != .remove then some .typeError else descendErr op ak ks
end

/-- the three public functions on a database that is a dictionary (`/repo/oelint_parser/constants.py:44-93`) -/
def mergeDb (op : MergeOp) (db : J) (d : KV) : J × Option PyErr := mergeJ op db (.dict d)

/-- `Constants.AddConstants`, `/repo/oelint_parser/constants.py:44-59` -/
def addConstants (db : J) (d : KV) : J × Option PyErr := mergeDb .add db d
/-- `Constants.RemoveConstants`, `/repo/oelint_parser/constants.py:61-76` -/
def removeConstants (db : J) (d : KV) : J × Option PyErr := mergeDb .remove db d
/-- `Constants.OverrideConstants`, `/repo/oelint_parser/constants.py:78-93` -/
def overrideConstants (db : J) (d : KV) : J × Option PyErr := mergeDb .override db d

/-- `x in value` for a value of the database (list: membership, dictionary: key, string: substring) -/
def J.has (x : Str) : J → Bool
  | .list xs => xs.contains x
  | .dict d => (d.get x).isSome
  | .str s => hasSub x s

/-- iteration over a value of the database -/
def J.elems : J → List Str
  | .list xs => xs
  | .dict d => d.keys
  | .str s => s.map ([·])

/-- the getters `/repo/oelint_parser/constants.py:95-192`; a database in which the path runs through a non-dictionary
makes them raise `AttributeError` -/
def constGet (db : J) (path : Str) : Except PyErr J := getByPath db path

/-- `FunctionsKnown`, 95-102 -/
def functionsKnown (db : J) := constGet db c!"functions/known"
/-- `FunctionsOrder`, 104-111 -/
def functionsOrder (db : J) := constGet db c!"functions/order"
/-- `MirrorsKnown`, 113-120 -/
def mirrorsKnown (db : J) := constGet db c!"replacements/mirrors"
/-- `VariablesKnown`, 122-129 -/
def variablesKnown (db : J) := constGet db c!"variables/known"
/-- `DistrosKnown`, 131-138 -/
def distrosKnown (db : J) := constGet db c!"replacements/distros"
/-- `MachinesKnown`, 140-147 -/
def machinesKnown (db : J) := constGet db c!"replacements/machines"
/-- `ImagesClasses`, 149-156 -/
def imagesClasses (db : J) := constGet db c!"images/known-classes"
/-- `ImagesVariables`, 158-165 -/
def imagesVariables (db : J) := constGet db c!"images/known-variables"
/-- `SetsBase`, 167-174 -/
def setsBase (db : J) := constGet db c!"sets/base"
/-- `ClassIgnore`, 176-183 -/
def classIgnore (db : J) := constGet db c!"ignore/classes"
/-- `IncludeIgnore`, 185-192 -/
def includeIgnore (db : J) := constGet db c!"ignore/include"

end Oelint

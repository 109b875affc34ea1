/-!
# Python `str` and `os.path` functions used by oelint_parser

Python strings are modelled as lists of Unicode scalar values.  (A file read in text mode cannot yield lone
surrogates with the default error handler, so `Char` is the right element type.)
These are *library* functions: the citations name the places in `/repo` that call them.
-/
namespace Oelint

/-- A Python `str`. -/
abbrev Str := List Char

open Lean in
/-- `c! "abc"` is the list of characters `['a', 'b', 'c']`. -/
macro:max "c!" s:str : term => do
  let elems := s.getString.toList.toArray.map fun c => Syntax.mkCharLit c
  `(([ $elems,* ] : List Char))

/-- Characters matched by `\s` in a `str` pattern of the `regex` module (Unicode property `White_Space`).
Library behaviour; used by every `\s` of `oelint_parser/parser.py:31-65`, `cls_item.py:10-12`, `cls_stash.py:16-24`. -/
def reSpace (c : Char) : Bool :=
  let n := c.toNat
  (9 ≤ n && n ≤ 13) || n == 32 || n == 0x85 || n == 0xa0 || n == 0x1680 || (0x2000 ≤ n && n ≤ 0x200a)
    || n == 0x2028 || n == 0x2029 || n == 0x202f || n == 0x205f || n == 0x3000

/-- Characters removed by `str.strip()` without argument (`str.isspace`): `White_Space` plus U+001C..U+001F.
Library behaviour; used at `oelint_parser/cls_item.py:378,386,395,628,633,710`, `parser.py:150,385`. -/
def pySpace (c : Char) : Bool :=
  reSpace c || (0x1c ≤ c.toNat && c.toNat ≤ 0x1f)

/-- `p in s` (substring test), e.g. `oelint_parser/parser.py:175`, `inlinerep.py:40`. -/
def hasSub (p : Str) : Str → Bool
  | [] => p.isEmpty
  | c :: t => p.isPrefixOf (c :: t) || hasSub p t

/-- `s.find(p)` with `none` for `-1`, e.g. `oelint_parser/parser.py:176`, `cls_item.py:633`. -/
def findSub (p : Str) : Str → Option Nat
  | [] => if p.isEmpty then some 0 else none
  | c :: t => if p.isPrefixOf (c :: t) then some 0 else (findSub p t).map (· + 1)

/-- `s.split(c)` for a one-character separator (all calls in the code base use one character),
e.g. `oelint_parser/cls_item.py:187,195,289,485,948`, `cls_stash.py:665-668,694`. -/
def splitC (c : Char) : Str → List Str
  | [] => [[]]
  | x :: t =>
    if x == c then [] :: splitC c t
    else match splitC c t with
      | [] => [[x]]
      | h :: r => (x :: h) :: r

/-- `sep.join(parts)`, e.g. `oelint_parser/cls_item.py:195,205,351`. -/
def joinS (sep : Str) : List Str → Str
  | [] => []
  | [a] => a
  | a :: b :: rest => a ++ sep ++ joinS sep (b :: rest)

/-- Worker of `replaceAll` for a non-empty `old`; `skip` counts characters of a replaced occurrence still to drop. -/
def replaceGo (old new : Str) : Nat → Str → Str
  | _, [] => []
  | k + 1, _ :: t => replaceGo old new k t
  | 0, c :: t =>
    if old.isPrefixOf (c :: t) then new ++ replaceGo old new (old.length - 1) t
    else c :: replaceGo old new 0 t

/-- `s.replace("", new)`: `new` before every character and at the end. -/
def replaceEmpty (new : Str) : Str → Str
  | [] => new
  | c :: t => new ++ c :: replaceEmpty new t

/-- `s.replace(old, new)`: all non-overlapping occurrences from the left,
e.g. `oelint_parser/parser.py:181,186`, `cls_stash.py:195,207,212,560,643,768,831`. -/
def replaceAll (old new s : Str) : Str :=
  if old.isEmpty then replaceEmpty new s else replaceGo old new 0 s

/-- Worker of `replaceFirst` for a non-empty `old`. -/
def replaceFirstGo (old new : Str) : Str → Str
  | [] => []
  | c :: t => if old.isPrefixOf (c :: t) then new ++ (c :: t).drop old.length else c :: replaceFirstGo old new t

/-- `s.replace(old, new, 1)`: the leftmost occurrence only (`oelint_parser/cls_stash.py:729`); an empty `old`
occurs at position 0. -/
def replaceFirst (old new s : Str) : Str :=
  if old.isEmpty then new ++ s else replaceFirstGo old new s

/-- `s.lstrip(chars)` / `s.lstrip()` with the character set given as a predicate. -/
def lstripP (p : Char → Bool) (s : Str) : Str := s.dropWhile p

/-- `s.rstrip(chars)` / `s.rstrip()`. -/
def rstripP (p : Char → Bool) (s : Str) : Str := (s.reverse.dropWhile p).reverse

/-- `s.strip(chars)` / `s.strip()`. -/
def stripP (p : Char → Bool) (s : Str) : Str := rstripP p (lstripP p s)

/-- membership predicate of the character set of a `strip(chars)` call -/
def oneOf (chars : Str) (c : Char) : Bool := chars.contains c

/-- `s.startswith(p)`. -/
def startsWith (p s : Str) : Bool := p.isPrefixOf s

/-- `s.endswith(p)`. -/
def endsWith (p s : Str) : Bool := p.isSuffixOf s

/-- `s.count(c)` for one character (`oelint_parser/parser.py:127,128,169`). -/
def countC (c : Char) (s : Str) : Nat := s.count c

/-! ## os.path (POSIX) -/

/-- `os.path.basename` (`oelint_parser/cls_stash.py:195,207,212,279,693,722`, `cls_item.py:917`). -/
def basename (p : Str) : Str := (p.reverse.takeWhile (· != '/')).reverse

/-- `os.path.dirname` (`oelint_parser/cls_stash.py:586,604,608,630,791`, `parser.py:340`). -/
def dirname (p : Str) : Str :=
  let head := (p.reverse.dropWhile (· != '/')).reverse
  if head.all (· == '/') then head else rstripP (· == '/') head

/-- `os.path.splitext` (`oelint_parser/cls_stash.py:171,279,693,722`, `cls_item.py:917`): the extension starts at the
last `.` of the last path component, unless only dots precede it. -/
def splitext (p : Str) : Str × Str :=
  let base := basename p
  let ext := (base.reverse.takeWhile (· != '.')).reverse
  let stemDot := (base.reverse.dropWhile (· != '.')).reverse
  let stem := stemDot.dropLast
  if stemDot.isEmpty || stem.all (· == '.') then (p, [])
  else (p.take (p.length - ext.length - 1), '.' :: ext)

/-- `os.path.isabs`. -/
def isAbs (p : Str) : Bool := startsWith c!"/" p

/-- `os.path.join(a, b)` (`oelint_parser/cls_stash.py:278,609,624`, `parser.py:339`). -/
def pathJoin (a b : Str) : Str :=
  if isAbs b then b
  else if a.isEmpty || endsWith c!"/" a then a ++ b
  else a ++ '/' :: b

/-- The component loop of `os.path.normpath` (new components kept in reverse). -/
def normComps (slashes : Bool) : List Str → List Str → List Str
  | acc, [] => acc.reverse
  | acc, comp :: rest =>
    if comp == [] || comp == c!"." then normComps slashes acc rest
    else if comp != c!".." || (!slashes && acc.isEmpty) || (acc.head? == some c!"..") then
      normComps slashes (comp :: acc) rest
    else normComps slashes acc.tail rest

/-- `os.path.normpath` (POSIX: exactly two leading slashes are kept). -/
def normpath (p : Str) : Str :=
  if p.isEmpty then c!"." else
  let n : Nat :=
    if startsWith c!"///" p then 1 else if startsWith c!"//" p then 2 else if startsWith c!"/" p then 1 else 0
  let res := List.replicate n '/' ++ joinS c!"/" (normComps (n != 0) [] (splitC '/' p))
  if res.isEmpty then c!"." else res

/-- `os.path.abspath` with the current directory as a parameter (`oelint_parser/cls_stash.py:170`, `parser.py:278`). -/
def abspath (cwd p : Str) : Str :=
  normpath (if isAbs p then p else pathJoin cwd p)

/-! ## order and duplicates -/

/-- `a <= b` on Python strings: lexicographic by code point (`sorted` at `oelint_parser/cls_stash.py:309,325,343,592`). -/
def strLe : Str → Str → Bool
  | [], _ => true
  | _ :: _, [] => false
  | a :: s, b :: t => if a.toNat < b.toNat then true else if b.toNat < a.toNat then false else strLe s t

/-- insertion into a sorted list, before the first element that is not smaller -/
def insertBy {α} (le : α → α → Bool) (x : α) : List α → List α
  | [] => [x]
  | y :: ys => if le x y then x :: y :: ys else y :: insertBy le x ys

/-- `sorted(xs, key=...)`: a stable sort (`oelint_parser/cls_stash.py:309,325,343,425,489,527,548,592`). -/
def sortBy {α} (le : α → α → Bool) : List α → List α
  | [] => []
  | x :: xs => insertBy le x (sortBy le xs)

/-- remove later duplicates -/
def dedup {α} [BEq α] : List α → List α
  | [] => []
  | x :: xs => x :: (dedup xs).filter (fun y => !(y == x))

/-! ## dictionaries (insertion ordered association lists) -/

/-- `d.get(k)`. -/
def dget {α} (k : Str) : List (Str × α) → Option α
  | [] => none
  | (k', v) :: t => if k' == k then some v else dget k t

/-- `k in d`. -/
def dhas {α} (k : Str) (d : List (Str × α)) : Bool := (dget k d).isSome

/-- `d[k] = v`: keeps the position of an existing key, otherwise appends. -/
def dset {α} (k : Str) (v : α) : List (Str × α) → List (Str × α)
  | [] => [(k, v)]
  | (k', v') :: t => if k' == k then (k', v) :: t else (k', v') :: dset k v t

/-- `del d[k]`. -/
def ddel {α} (k : Str) (d : List (Str × α)) : List (Str × α) := d.filter (fun kv => !(kv.1 == k))

end Oelint

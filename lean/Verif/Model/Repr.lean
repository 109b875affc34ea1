import Verif.Model.Item
/-!
# `str(item)`

`/repo/oelint_parser/cls_item.py:260-261`: the class and the dictionary `GetAttributes()`, as Python shows them.  `repr` of strings,
numbers, lists, tuples, sets and dictionaries is library behaviour (CPython).
Parameters: `printable` (`str.isprintable` of a character beyond ASCII) and `order` (the order in which a set of strings is shown).
-/
namespace Oelint
variable [Uni]

/-- a digit of a hexadecimal number as `repr` writes it -/
def hexChar (n : Nat) : Char := if n < 10 then Char.ofNat (48 + n) else Char.ofNat (87 + n)

/-- the last `w` hexadecimal digits of a number -/
def hexN : Nat → Nat → Str
  | 0, _ => []
  | w + 1, n => hexN w (n / 16) ++ [hexChar (n % 16)]

/-- one character inside of `repr` of a string in the quotes `q` -/
def reprChar (printable : Char → Bool) (q c : Char) : Str :=
  if c == '\\' || c == q then ['\\', c]
  else if c == '\t' then c!"\\t"
  else if c == '\n' then c!"\\n"
  else if c == '\r' then c!"\\r"
  else if c.toNat < 32 || c.toNat == 127 then c!"\\x" ++ hexN 2 c.toNat
  else if c.toNat < 127 || printable c then [c]
  else if c.toNat < 256 then c!"\\x" ++ hexN 2 c.toNat
  else if c.toNat < 65536 then c!"\\u" ++ hexN 4 c.toNat
  else c!"\\U" ++ hexN 8 c.toNat

/-- the quotes `repr` of a string uses: double ones only if there are single and no double ones in the string -/
def reprQuote (s : Str) : Char := if s.contains '\'' && !s.contains '"' then '"' else '\''

/-- `repr` of a string -/
def reprStr (printable : Char → Bool) (s : Str) : Str :=
  [reprQuote s] ++ (s.map (reprChar printable (reprQuote s))).flatten ++ [reprQuote s]

/-- `repr` of an integer -/
def reprInt (i : Int) : Str := if i < 0 then '-' :: Nat.toDigits 10 i.natAbs else Nat.toDigits 10 i.natAbs

/-- `repr` of the elements of a collection, separated by commas -/
def reprSeq (l : List Str) : Str := joinS c!", " l

/-- `repr` of the value of a property. The set `IncludedFrom` is shown as `set()` when empty
(`/repo/oelint_parser/cls_item.py:47`), the set `FilePaths` as `{}` (`inherit_file_paths or {}`, 1256). -/
def Attr.repr (printable : Char → Bool) (order : List Str → List Str) (name : Str) : Attr → Str
  | .str s => reprStr printable s
  | .int i => reprInt i
  | .bool b => if b then c!"True" else c!"False"
  | .strs l => c!"[" ++ reprSeq (l.map (reprStr printable)) ++ c!"]"
  | .strset l =>
    if l.isEmpty && name == c!"IncludedFrom" then c!"set()"
    else c!"{" ++ reprSeq ((order l).map (reprStr printable)) ++ c!"}"
  | .pairs l =>
    c!"[" ++ reprSeq (l.map (fun p => c!"(" ++ reprStr printable p.1 ++ c!", " ++ reprStr printable p.2 ++ c!")")) ++ c!"]"

/-- `Item.__repr__`, `/repo/oelint_parser/cls_item.py:260-261` -/
def Item.repr (printable : Char → Bool) (order : List Str → List Str) (x : Item) : Str :=
  x.payload.classifier ++ c!" -- {" ++
    reprSeq (x.getAttributes.map (fun a => reprStr printable a.1 ++ c!": " ++ a.2.repr printable order a.1)) ++ c!"}\n"

end Oelint

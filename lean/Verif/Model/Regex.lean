import Verif.Model.Str
/-!
# The regular expressions of the `regex` module

Backtracking semantics as a *list of successes*: `ms r s` lists, in the order in which a backtracking matcher tries
them, the states reached by matching `r` from state `s`; `regex.match` returns the first one.

Simplifications (all recorded in DESIGN.md): no time-outs here (see `RegexRpl`), no flags (RegexRpl.match drops the
flags it is given, `/repo/oelint_parser/rpl_regex.py:64`), iterations of a loop that consume nothing are dropped
(no loop of the code base has a nullable body, proved in `Verif.Model.Patterns`).
-/
namespace Oelint

/-- The part of the Unicode database that `\w` needs: which non-ASCII characters are word characters. -/
class Uni where
  wordNA : Char → Bool

/-- `\w`. -/
def isWord [Uni] (c : Char) : Bool :=
  if c.toNat < 128 then c.isAlphanum || c == '_' else Uni.wordNA c

/-- An entry of a character class. -/
inductive CItem where
  | one (c : Char)
  | range (a b : Char)
  | space
  | word
  deriving DecidableEq, Repr

/-- does the entry contain the character -/
def CItem.test [Uni] : CItem → Char → Bool
  | .one c, x => x == c
  | .range a b, x => a.toNat ≤ x.toNat && x.toNat ≤ b.toNat
  | .space, x => reSpace x
  | .word, x => isWord x

/-- Regular expressions. -/
inductive Re where
  /-- empty -/
  | eps
  /-- a literal text -/
  | lit (s : Str)
  /-- `.`: any character but newline -/
  | any
  /-- `[...]`, `[^...]`, `\s`, `\w` -/
  | cls (neg : Bool) (items : List CItem)
  | seq (a b : Re)
  | alt (a b : Re)
  /-- `r*` (greedy) or `r*?` (lazy) -/
  | star (greedy : Bool) (r : Re)
  /-- capturing group number `n` -/
  | grp (n : Nat) (r : Re)
  /-- `^` -/
  | bos
  /-- `$` -/
  | eos
  /-- `(?=r)` (`neg = false`) or `(?!r)` -/
  | look (neg : Bool) (r : Re)
  /-- possessive / atomic -/
  | atomic (r : Re)
  deriving DecidableEq, Repr

/-- A state of the matcher: position, remaining text, captures (latest first). -/
structure St where
  pos : Nat
  rest : Str
  caps : List (Nat × Str)
  deriving DecidableEq, Repr

/-- Iterations of a loop; `n` bounds their number (the remaining length is always enough, every iteration kept
consumes a character). -/
def iter (greedy : Bool) (f : St → List St) : Nat → St → List St
  | 0, s => [s]
  | n + 1, s =>
    let more := ((f s).filter (fun t => s.pos < t.pos)).flatMap (iter greedy f n)
    if greedy then more ++ [s] else s :: more

/-- All ways to match `r` from a state, in backtracking order. -/
def ms [Uni] : Re → St → List St
  | .eps => fun s => [s]
  | .lit p => fun s =>
    if p.isPrefixOf s.rest then [⟨s.pos + p.length, s.rest.drop p.length, s.caps⟩] else []
  | .any => fun s => match s.rest with
    | [] => []
    | x :: t => if x == '\n' then [] else [⟨s.pos + 1, t, s.caps⟩]
  | .cls neg items => fun s => match s.rest with
    | [] => []
    | x :: t => if (items.any (·.test x)) != neg then [⟨s.pos + 1, t, s.caps⟩] else []
  | .seq a b => fun s => (ms a s).flatMap (ms b)
  | .alt a b => fun s => ms a s ++ ms b s
  | .star g r => fun s => iter g (ms r) s.rest.length s
  | .grp n r => fun s =>
    (ms r s).map fun t => ⟨t.pos, t.rest, (n, s.rest.take (t.pos - s.pos)) :: t.caps⟩
  | .bos => fun s => if s.pos == 0 then [s] else []
  | .eos => fun s => if s.rest == [] || s.rest == ['\n'] then [s] else []
  | .look neg r => fun s =>
    if neg then (if (ms r s).isEmpty then [s] else [])
    else match ms r s with
      | [] => []
      | t :: _ => [⟨s.pos, s.rest, t.caps⟩]
  | .atomic r => fun s => (ms r s).take 1

/-- A match object: start, end, group 0 and the captures. -/
structure Mt where
  start : Nat
  stop : Nat
  text : Str
  caps : List (Nat × Str)
  deriving DecidableEq, Repr

/-- `m.group(n)` for `n ≥ 1` (`none` = the group did not take part). -/
def Mt.group (m : Mt) (n : Nat) : Option Str :=
  (m.caps.find? (fun c => c.1 == n)).map (·.2)

/-- match object of a run from `s` to `t` -/
def mkMt (s t : St) : Mt := ⟨s.pos, t.pos, s.rest.take (t.pos - s.pos), t.caps⟩

/-- the first success from a given state -/
def matchAt [Uni] (r : Re) (pos : Nat) (rest : Str) : Option Mt :=
  match ms r ⟨pos, rest, []⟩ with
  | [] => none
  | t :: _ => some (mkMt ⟨pos, rest, []⟩ t)

/-- `regex.match(pattern, string)`. -/
def reMatch [Uni] (r : Re) (s : Str) : Option Mt := matchAt r 0 s

/-- `regex.search` from a position on. -/
def searchFrom [Uni] (r : Re) : Nat → Str → Option Mt
  | pos, [] => matchAt r pos []
  | pos, c :: t => match matchAt r pos (c :: t) with
    | some m => some m
    | none => searchFrom r (pos + 1) t

/-- `regex.search(pattern, string)`. -/
def reSearch [Uni] (r : Re) (s : Str) : Option Mt := searchFrom r 0 s

/-- `regex.finditer` from a position on; `skip` characters belong to the previous match.
(Simplification: an empty match is followed by an advance of one character; no pattern used can match empty.) -/
def finditerGo [Uni] (r : Re) : Nat → Nat → Str → List Mt
  | _, _, [] => []
  | pos, k + 1, _ :: t => finditerGo r (pos + 1) k t
  | pos, 0, c :: t => match matchAt r pos (c :: t) with
    | some m => m :: finditerGo r (pos + 1) (m.stop - pos - 1) t
    | none => finditerGo r (pos + 1) 0 t

/-- `list(regex.finditer(pattern, string))`. -/
def reFinditer [Uni] (r : Re) (s : Str) : List Mt := finditerGo r 0 0 s

/-- put a character in front of the first piece -/
def consHead (c : Char) : List Str → List Str
  | [] => [[c]]
  | h :: r => (c :: h) :: r

/-- `regex.split` from a position on (pattern without groups). -/
def splitGo [Uni] (r : Re) : Nat → Nat → Str → List Str
  | _, _, [] => [[]]
  | pos, k + 1, _ :: t => splitGo r (pos + 1) k t
  | pos, 0, c :: t => match matchAt r pos (c :: t) with
    | some m => [] :: splitGo r (pos + 1) (m.stop - pos - 1) t
    | none => consHead c (splitGo r (pos + 1) 0 t)

/-- `regex.split(pattern, string)`. -/
def reSplit [Uni] (r : Re) (s : Str) : List Str := splitGo r 0 0 s

/-- `regex.sub` from a position on, replacement computed from the match. -/
def subGo [Uni] (r : Re) (f : Mt → Str) : Nat → Nat → Str → Str
  | _, _, [] => []
  | pos, k + 1, _ :: t => subGo r f (pos + 1) k t
  | pos, 0, c :: t => match matchAt r pos (c :: t) with
    | some m => f m ++ subGo r f (pos + 1) (m.stop - pos - 1) t
    | none => c :: subGo r f (pos + 1) 0 t

/-- `regex.sub(pattern, repl, string)`. -/
def reSub [Uni] (r : Re) (f : Mt → Str) (s : Str) : Str := subGo r f 0 0 s

/-! ## nullability -/

/-- can the expression match the empty text (over-approximation) -/
def Re.nullable : Re → Bool
  | .eps => true
  | .lit s => s.isEmpty
  | .any => false
  | .cls _ _ => false
  | .seq a b => a.nullable && b.nullable
  | .alt a b => a.nullable || b.nullable
  | .star _ _ => true
  | .grp _ r => r.nullable
  | .bos => true
  | .eos => true
  | .look _ _ => true
  | .atomic r => r.nullable

/-- no loop has a nullable body -/
def Re.loopsOk : Re → Bool
  | .seq a b => a.loopsOk && b.loopsOk
  | .alt a b => a.loopsOk && b.loopsOk
  | .star _ r => !r.nullable && r.loopsOk
  | .grp _ r => r.loopsOk
  | .look _ r => r.loopsOk
  | .atomic r => r.loopsOk
  | _ => true

/-! ## pattern texts -/

/-- A compiled pattern: expression and names of its named groups. -/
structure Pattern where
  re : Re
  names : List (Str × Nat)
  deriving DecidableEq, Repr

/-- concatenation that merges adjacent literal texts -/
def Re.cat : Re → Re → Re
  | a, .eps => a
  | .lit x, .lit y => .lit (x ++ y)
  | .lit x, .seq (.lit y) r => .seq (.lit (x ++ y)) r
  | a, b => .seq a b

/-- parser state: next group number and the named groups so far -/
structure PSt where
  next : Nat
  names : List (Str × Nat)
  deriving DecidableEq, Repr

/-- value of a hexadecimal digit -/
def hexVal (c : Char) : Option Nat :=
  if '0' ≤ c && c ≤ '9' then some (c.toNat - 48)
  else if 'a' ≤ c && c ≤ 'f' then some (c.toNat - 87)
  else if 'A' ≤ c && c ≤ 'F' then some (c.toNat - 55)
  else none

/-- escape sequences (outside and inside classes): `none` = not supported -/
def parseEscape : Str → Option (CItem × Str)
  | 's' :: t => some (.space, t)
  | 'w' :: t => some (.word, t)
  | 't' :: t => some (.one '\t', t)
  | 'n' :: t => some (.one '\n', t)
  | 'x' :: a :: b :: t => match hexVal a, hexVal b with
    | some x, some y => some (.one (Char.ofNat (16 * x + y)), t)
    | _, _ => none
  | c :: t => if c.isAlphanum then none else some (.one c, t)
  | [] => none

/-- entries of a class up to the closing bracket -/
def parseClass : Nat → Str → Option (List CItem × Str)
  | 0, _ => none
  | n + 1, s =>
    -- one entry
    let first : Option (CItem × Str) := match s with
      | [] => none
      | ']' :: _ => none
      | '\\' :: t => parseEscape t
      | '[' :: _ => none
      | c :: t => some (.one c, t)
    match s with
    | ']' :: t => some ([], t)
    | _ => match first with
      | none => none
      | some (.one a, '-' :: ']' :: t) => some ([.one a, .one '-'], t)
      | some (.one a, '-' :: '\\' :: t) => match parseEscape t with
        | some (.one b, t') => (parseClass n t').map fun (is, r) => (.range a b :: is, r)
        | _ => none
      | some (.one a, '-' :: b :: t) => (parseClass n t).map fun (is, r) => (.range a b :: is, r)
      | some (i, t) => (parseClass n t).map fun (is, r) => (i :: is, r)

/-- an optional quantifier (`*`, `+`, `?`, each with a lazy `?` or possessive `+` suffix) behind an atom -/
def parseQuant (a : Re) : Str → Option (Re × Str)
  | '*' :: '?' :: t => some (.star false a, t)
  | '*' :: '+' :: t => some (.atomic (.star true a), t)
  | '*' :: t => some (.star true a, t)
  | '+' :: '?' :: t => some (.seq a (.star false a), t)
  | '+' :: '+' :: t => some (.atomic (.seq a (.star true a)), t)
  | '+' :: t => some (.seq a (.star true a), t)
  | '?' :: '?' :: t => some (.alt .eps a, t)
  | '?' :: '+' :: t => some (.atomic (.alt a .eps), t)
  | '?' :: t => some (.alt a .eps, t)
  | '{' :: _ => none
  | t => some (a, t)

/-- is the text at a quantifier character -/
def atQuant : Str → Bool
  | c :: _ => c == '*' || c == '+' || c == '?'
  | [] => false

/-- Alternatives (`alts`) and sequences of a pattern text.  `none` = syntax outside the supported subset or an error.
`{` outside classes is not supported (counted repeats and fuzzy matching do not occur in the code base). -/
def parseRe (alts : Bool) : Nat → PSt → Str → Option (Re × PSt × Str)
  | 0, _, _ => none
  | n + 1, st, s =>
    if alts then
      match parseRe false n st s with
      | some (a, st, '|' :: t) => (parseRe true n st t).map fun (b, st, r) => (.alt a b, st, r)
      | r => r
    else
      match s with
      | [] => some (.eps, st, [])
      | ')' :: _ => some (.eps, st, s)
      | '|' :: _ => some (.eps, st, s)
      | _ =>
        -- one atom
        let atom : Option (Re × PSt × Str) := match s with
          | '(' :: '?' :: ':' :: t => match parseRe true n st t with
            | some (r, st, ')' :: t) => some (r, st, t)
            | _ => none
          | '(' :: '?' :: '=' :: t => match parseRe true n st t with
            | some (r, st, ')' :: t) => some (.look false r, st, t)
            | _ => none
          | '(' :: '?' :: '!' :: t => match parseRe true n st t with
            | some (r, st, ')' :: t) => some (.look true r, st, t)
            | _ => none
          | '(' :: '?' :: 'P' :: '<' :: t =>
            let name := t.takeWhile (· != '>')
            match parseRe true n ⟨st.next + 1, st.names ++ [(name, st.next)]⟩ (t.drop (name.length + 1)) with
            | some (r, st', ')' :: t) => some (.grp st.next r, st', t)
            | _ => none
          | '(' :: '?' :: _ => none
          | '(' :: t => match parseRe true n ⟨st.next + 1, st.names⟩ t with
            | some (r, st', ')' :: t) => some (.grp st.next r, st', t)
            | _ => none
          | '[' :: '^' :: t => (parseClass n t).map fun (is, r) => (.cls true is, st, r)
          | '[' :: t => (parseClass n t).map fun (is, r) => (.cls false is, st, r)
          | '\\' :: t => match parseEscape t with
            | some (.one c, t) => some (.lit [c], st, t)
            | some (i, t) => some (.cls false [i], st, t)
            | none => none
          | '.' :: t => some (.any, st, t)
          | '^' :: t => if atQuant t then none else some (.bos, st, t)
          | '$' :: t => if atQuant t then none else some (.eos, st, t)
          | '{' :: _ => none
          | '*' :: _ => none
          | '+' :: _ => none
          | '?' :: _ => none
          | c :: t => some (.lit [c], st, t)
          | [] => none
        match atom with
        | none => none
        | some (a, st, t) => match parseQuant a t with
          | none => none
          | some (q, t) =>
            if atQuant t then none   -- multiple repeat
            else (parseRe false n st t).map fun (b, st, r) => (Re.cat q b, st, r)

/-- compile a pattern text -/
def compile (s : Str) : Option Pattern :=
  match parseRe true (2 * s.length + 2) ⟨1, []⟩ s with
  | some (r, st, []) => some ⟨r, st.names⟩
  | _ => none

/-- number of a named group -/
def Pattern.idx (p : Pattern) (name : Str) : Nat := (dget name p.names).getD 0

/-- `m.group("name")`. -/
def Pattern.group (p : Pattern) (m : Mt) (name : Str) : Option Str := m.group (p.idx name)

end Oelint

import Verif.Model.Inlinerep
import Verif.Model.RegexRpl
/-!
# Preprocessing of a file into chunks

`/repo/oelint_parser/parser.py:68-232`.  The line iterator is the list of the lines not read yet.
-/
namespace Oelint
variable [Uni]

/-- `INLINE_BLOCK`, `/repo/oelint_parser/parser.py:29` -/
def inlineBlock : Str := c!"!!!inlineblock!!!"

/-- the loop of `get_full_scope`, `/repo/oelint_parser/parser.py:82-89`: number of characters consumed -/
def scopeLen (sstart send : Char) : Int → Str → Nat
  | _, [] => 0
  | level, c :: t =>
    let level := if c == sstart then level + 1 else if c == send then level - 1 else level
    if level < 0 then 1 else 1 + scopeLen sstart send level t

/-- `get_full_scope`, `/repo/oelint_parser/parser.py:68-90` -/
def getFullScope (s : Str) (offset : Nat) (sstart send : Char) : Str :=
  s.take (scopeLen sstart send 0 (s.drop offset) + offset)

/-- `RegexRpl.search(__next_line_regex__, line)` -/
def isCont (l : Str) : Bool := (reSearch reNextLine.re l).isSome
/-- `RegexRpl.match(__func_start_regexp__, res)` -/
def isFuncStart (l : Str) : Bool := (reMatch reFuncStart.re l).isSome
/-- `RegexRpl.search(__regex_comments_pure, line)` -/
def isCommentLine (l : Str) : Bool := (reSearch reCommentsPure.re l).isSome
/-- `res.strip().startswith("def ")`, `/repo/oelint_parser/parser.py:150` -/
def isDefStart (l : Str) : Bool := startsWith c!"def " (stripP pySpace l)
/-- `RegexRpl.match(__valid_func_name_regex__, line)` -/
def isValidName (l : Str) : Bool := (reMatch reValidFuncName.re l).isSome

/-- `/repo/oelint_parser/parser.py:116-120`: read up to and including the first line that is not continued; running
out of lines raises `StopIteration` -/
def contLoop : List Str → Except PyErr (Str × List Str)
  | [] => .error .stopIteration
  | l :: ls => if isCont l then (contLoop ls).map (fun (r, ls') => (l ++ r, ls')) else .ok (l, ls)

/-- `/repo/oelint_parser/parser.py:125-135`, after the first `__next__`: the end of the input ends the function -/
def funcLoop : Int → List Str → Str × List Str
  | _, [] => ([], [])
  | level, l :: ls =>
    let level := level + countC '{' l - countC '}' l
    if level < 0 then (l, ls)
    else
      let (r, ls') := funcLoop level ls
      (l ++ r, ls')

/-- `/repo/oelint_parser/parser.py:122-135`: the first line is read outside of the `try` -/
def funcRead : List Str → Except PyErr (Str × List Str)
  | [] => .error .stopIteration
  | ls => .ok (funcLoop 0 ls)

/-- `/repo/oelint_parser/parser.py:137-149`: (read text, line handed back, rest) -/
def commentLoop : List Str → Str × Str × List Str
  | [] => ([], [], [])
  | l :: ls =>
    if isCommentLine l then
      let (r, nx, ls') := commentLoop ls
      (l ++ r, nx, ls')
    else ([], l, ls)

/-- `/repo/oelint_parser/parser.py:151-166` -/
def defLoop : List Str → Str × Str × List Str
  | [] => ([], [], [])
  | l :: ls =>
    if isValidName l then ([], l, ls)
    else if startsWith c!"def " l then ([], l, ls)
    else
      let (r, nx, ls') := defLoop ls
      (l ++ r, nx, ls')

/-- `iterate`, `/repo/oelint_parser/parser.py:112-169`: (text of the chunk, line handed back, remaining lines).
The third component of the Python result is `countC '\n'` of the first. -/
def iterate (buf : Str) (lines : List Str) : Except PyErr (Str × Str × List Str) :=
  if isCont buf then (contLoop lines).map (fun (r, ls) => (buf ++ r, [], ls))
  else if isFuncStart buf then (funcRead lines).map (fun (r, ls) => (buf ++ r, [], ls))
  else if isCommentLine buf then
    let (r, nx, ls) := commentLoop lines
    .ok (buf ++ r, nx, ls)
  else if isDefStart buf then
    let (r, nx, ls) := defLoop lines
    .ok (buf ++ r, nx, ls)
  else if buf.isEmpty then .ok (c!"\n", [], lines)
  else .ok (buf, [], lines)

/-- The loop `/repo/oelint_parser/parser.py:175-182` with an iteration limit (see `inlineLoop_done`: the limit used by
`inlineSub` is never reached). -/
def inlineLoop (neg : Bool) : Nat → Str → List (Str × Str) → Str × List (Str × Str)
  | 0, raw, blocks => (raw, blocks)
  | n + 1, raw, blocks =>
    match findSub c!"${@" raw with
    | none => (raw, blocks)
    | some i =>
      let repl := getFullScope (raw.drop i) 3 '{' '}'
      let r := (inlinerep repl neg).getD inlineBlock
      inlineLoop neg n (replaceAll repl r raw) (blocks ++ [(repl, r)])

/-- `/repo/oelint_parser/parser.py:173-182`: (`raw`, `inline_blocks`) -/
def inlineSub (neg : Bool) (raw : Str) : Str × List (Str × Str) := inlineLoop neg (countC '@' raw) raw []

/-- A preprocessed chunk, `/repo/oelint_parser/parser.py:183-186`. -/
structure Chunk where
  line : Int
  raw : Str
  realraw : Str
  inlineBlocks : List (Str × Str)
  cnt : Str
  deriving DecidableEq, Repr

/-- the character U+001B -/
def esc : Char := Char.ofNat 0x1b

/-- `cnt`, `/repo/oelint_parser/parser.py:186` -/
def cntOf (raw : Str) : Str := replaceAll c!"\\" [esc] (replaceAll c!"\n" [] raw)

/-- `/repo/oelint_parser/parser.py:171-187` for the text of one chunk -/
def mkChunk (lineOffset : Int) (num : Nat) (neg : Bool) (text : Str) : Chunk :=
  let (raw, blocks) := inlineSub neg text
  { line := num + lineOffset, raw, realraw := text, inlineBlocks := blocks, cnt := cntOf raw }

/-- `prepare_lines_subparser`, `/repo/oelint_parser/parser.py:93-187`: chunk, line handed back, its number of
newlines, remaining lines -/
def subparser (lineOffset : Int) (num : Nat) (neg : Bool) (line : Str) (lines : List Str) :
    Except PyErr (Chunk × Str × Nat × List Str) :=
  match iterate line lines with
  | .error e => .error e
  | .ok (text, nx, rest) => .ok (mkChunk lineOffset num neg text, nx, countC '\n' text, rest)

/-- The two nested loops of `prepare_lines`, `/repo/oelint_parser/parser.py:207-229`.  `buf` is the text the next call
of the subparser starts with: the line handed back if there is one (inner loop), else the next line (outer loop; there
`nextbuf` is empty because the inner loop has drained it).  Every call consumes a line, `fuel` bounds their number
(see `chunkLoop_fuel`). -/
def chunkLoop (lineOffset : Int) (neg : Bool) : Nat → Nat → Str → List Str → Except PyErr (List Chunk)
  | 0, _, _, _ => .error .diverges
  | fuel + 1, num, buf, lines =>
    match subparser lineOffset num neg buf lines with
    | .error e => .error e
    | .ok (c, nx, len, rest) =>
      if nx.isEmpty then
        match rest with
        | [] => .ok [c]
        | l :: ls => (chunkLoop lineOffset neg fuel (num + len) l ls).map (c :: ·)
      else (chunkLoop lineOffset neg fuel (num + len) nx rest).map (c :: ·)

/-- universal newline translation of `open()` in text mode -/
def univNewlines : Str → Str
  | [] => []
  | '\r' :: '\n' :: t => '\n' :: univNewlines t
  | c :: t => (if c == '\r' then '\n' else c) :: univNewlines t

/-- `readlines()` on text with translated newlines: lines keep their `'\n'` -/
def readlines : Str → List Str
  | [] => []
  | c :: t =>
    if c == '\n' then [c] :: readlines t
    else match readlines t with
      | [] => [[c]]
      | l :: ls => (c :: l) :: ls

/-- `prepare_lines` on the (newline-translated) text of a file, `/repo/oelint_parser/parser.py:202-229` -/
def chunksOf (lineOffset : Int) (neg : Bool) (text : Str) : Except PyErr (List Chunk) :=
  match readlines text with
  | [] => .ok []
  | l :: ls => chunkLoop lineOffset neg (ls.length + 1) 1 l ls

end Oelint

import Verif.Model.ExpandTerm
/-!
# `get_items` and `AddFile`

`/repo/oelint_parser/parser.py:235-470`, `/repo/oelint_parser/cls_stash.py:157-229,270-283`.
The two call each other: `getItems` takes `AddFile` as a parameter and `addFile` ties the knot with a recursion limit.
-/
namespace Oelint
variable [Uni]

/-- A method of the stash: it changes the state and returns or raises (the state changes made before an exception
stay). -/
def M (α : Type) := Stash → Except PyErr α × Stash

namespace M
variable {α β : Type}
/-- return a value -/
protected def pure (a : α) : M α := fun s => (.ok a, s)
/-- sequence -/
protected def bind (x : M α) (f : α → M β) : M β := fun s =>
  match x s with
  | (.ok a, s') => f a s'
  | (.error e, s') => (.error e, s')
instance : Monad M where
  pure := M.pure
  bind := M.bind
/-- raise -/
def raise (e : PyErr) : M α := fun s => (.error e, s)
/-- current state -/
def get : M Stash := fun s => (.ok s, s)
/-- change the state -/
def modify (f : Stash → Stash) : M Unit := fun s => (.ok (), f s)
/-- a pure computation that may raise -/
def lift (x : Except PyErr α) : M α := fun s => (x, s)
/-- a pure question about the current state -/
def ask (f : Stash → Except PyErr α) : M α := fun s => (f s, s)
end M

/-- keys of `_order`, `/repo/oelint_parser/parser.py:254-272` -/
inductive Kind where
  | comment | func | inherit | inheritGlob | export | exportNoval | python | include | includeAll | addtask | deltask
  | unset | flagassign | exportfunc | addpylib | addfragments | vars
  deriving DecidableEq, Repr

/-- `_order`, `/repo/oelint_parser/parser.py:254-272` -/
def parseOrder : List (Kind × Pattern) :=
  [ (.comment, reComments), (.func, reFunc), (.inherit, reInherit), (.inheritGlob, reInheritGlob),
    (.export, reExportWval), (.exportNoval, reExportWoval), (.python, rePython), (.include, reInclude),
    (.includeAll, reIncludeall), (.addtask, reAddtask), (.deltask, reDeltask), (.unset, reUnset),
    (.flagassign, reFlagass), (.exportfunc, reExportFunc), (.addpylib, reAddpylib), (.addfragments, reAddfragments),
    (.vars, reVar) ]

/-- `max([x.InFileLine for x in tmp])` if `any(tmp)`, `/repo/oelint_parser/parser.py:349-350` -/
def maxInFileLine (l : List Item) : Int :=
  match l.map (·.inFileLine) with
  | [] => 0
  | x :: xs => xs.foldl max x

/-- a fresh object identity -/
def freshUid : M Nat := fun s => (.ok s.nextUid, { s with nextUid := s.nextUid + 1 })

/-- the search over locations `/repo/oelint_parser/parser.py:336-342,363-369`; `''` when nothing is found -/
def findClass (W : World) (dir inh : Str) : List Str → Except PyErr Str
  | [] => .ok []
  | loc :: locs =>
    match findLocalOrLayer W (pathJoin loc inh) dir with
    | .error e => .error e
    | .ok p => if p.isEmpty then findClass W dir inh locs else .ok p

/-- type of `AddFile` as called from the parser: path, `lineOffset`, `forcedLink` -/
abbrev AddFn := Str → Int → Option Str → M (List Item)

/-- `if not inh_item.endswith(".bbclass"): inh_item += ".bbclass"`, `/repo/oelint_parser/parser.py:334-335` -/
def withBbclass (inh : Str) : Str := if endsWith c!".bbclass" inh then inh else inh ++ c!".bbclass"

/-- the loop over the inherited classes, `/repo/oelint_parser/parser.py:333-350,360-377`: found paths and the growth of
`includeOffset` -/
def inheritLoop (W : World) (add : AddFn) (file : Str) (lineno : Int) (inhname : Str) (locs : List Str) :
    List Str → List Str → Int → M (List Str × Int)
  | [], found, off => pure (found, off)
  | inh :: rest, found, off => do
    let path ← M.lift (findClass W (dirname file) (withBbclass inh) locs)
    if path.isEmpty then inheritLoop W add file lineno inhname locs rest found off
    else
      let ign ← M.ask (fun s => classIgnore s.consts)
      if ign.has inhname then inheritLoop W add file lineno inhname locs rest found off
      else
        let found := if found.contains path then found else found ++ [path]
        let tmp ← add path lineno (some file)
        inheritLoop W add file lineno inhname locs rest found (off + maxInFileLine tmp)

/-- names that `addtask` leaves to the variable pattern, `/repo/oelint_parser/parser.py:406` -/
def taskAsVar (func : Str) : Bool :=
  [c!"pkg_preinst", c!"pkg_postinst", c!"pkg_prerm", c!"pkg_postrm"].any (fun x => startsWith x func)

/-- The branch of one pattern that matched, `/repo/oelint_parser/parser.py:294-465`: `none` for `continue`, otherwise
the new item and the growth of `includeOffset`.
Simplified: `functions/known` is read whenever the pattern of functions matches, the code (`/repo/oelint_parser/cls_item.py:207-224`) reads it
only if the text before it decides nothing; the difference shows only if that constant cannot be read at all. -/
def handleKind (W : World) (add : AddFn) (file : Str) (lineno : Int) (p : Params) (k : Kind) (pat : Pattern) (m : Mt) :
    M (Option (Item × Int)) :=
  let g := fun n => (pat.group m n).getD []
  let simple := fun (pl : Payload) => do
    let uid ← freshUid
    pure (some (mkItem uid p pl, 0))
  match k with
  | .python => simple (.pythonBlock (g c!"funcname"))
  | .exportfunc => simple (.functionExports (g c!"func"))
  | .vars => do
    let uid ← freshUid
    pure (some (mkVariable uid p (g c!"varname") (g c!"varval") (g c!"varop"), 0))
  | .func => do
    let known ← M.ask (fun s => functionsKnown s.consts)
    let uid ← freshUid
    pure (some (mkFunction known.has uid p (pat.group m c!"func") (g c!"funcbody") (pat.group m c!"py")
      (pat.group m c!"fr"), 0))
  | .unset => simple (.unset (g c!"varname") (stripP (oneOf c!"[]") (g c!"flag")))
  | .comment => simple .comment
  | .inherit => do
    let inhname ← M.ask (fun s => expandTerm W s file (g c!"inhname"))
    let (found, off) ← inheritLoop W add file lineno inhname [c!"classes", c!"classes-recipe", c!"classes-global"]
      (splitNE ' ' inhname) [] 0
    let uid ← freshUid
    pure (some (mkItem uid p (.inherit (g c!"statement") (g c!"inhname") found), off))
  | .inheritGlob => do
    let inhname ← M.ask (fun s => expandTerm W s file (g c!"inhname"))
    let (found, off) ← inheritLoop W add file lineno inhname [c!"classes", c!"classes-global"]
      (splitNE ' ' inhname) [] 0
    let uid ← freshUid
    pure (some (mkItem uid p (.inherit c!"INHERIT" (g c!"inhname") found), off))
  | .export => simple (.export (stripP pySpace (g c!"name")) (g c!"value"))
  | .exportNoval => simple (.export (stripP pySpace (g c!"name")) [])
  | .flagassign => simple (.flagAssignment (g c!"name") (g c!"ident") (g c!"varval") (g c!"varop"))
  | .addtask =>
    if taskAsVar (g c!"func") then pure none
    else do
      let uid ← freshUid
      pure (some (mkTaskAdd uid p (g c!"func") (pat.group m c!"before") (pat.group m c!"after")
        (pat.group m c!"comment"), 0))
  | .deltask => do
    let uid ← freshUid
    pure (some (mkTaskDel uid p (g c!"func") (pat.group m c!"comment"), 0))
  | .include => do
    let name ← M.ask (fun s => expandTerm W s file (g c!"incname"))
    let path ← M.lift (findLocalOrLayer W name (dirname file))
    if path.isEmpty then simple (.include (g c!"incname") [] (g c!"statement"))
    else
      let ign ← M.ask (fun s => includeIgnore s.consts)
      if ign.has name then pure none
      else
        let tmp ← add path lineno (some file)
        let uid ← freshUid
        pure (some (mkItem uid p (.include (g c!"incname") path (g c!"statement")), maxInFileLine tmp))
  | .includeAll => simple (.includeAll (g c!"file"))
  | .addpylib => simple (.addPylib (g c!"path") (g c!"namespace"))
  | .addfragments => simple (.addFragements (g c!"path") (g c!"variable") (g c!"flagged"))

/-- the loop over the patterns, `/repo/oelint_parser/parser.py:291-467` -/
def classify (W : World) (add : AddFn) (file : Str) (lineno : Int) (p : Params) (cnt : Str) :
    List (Kind × Pattern) → M (Item × Int)
  | [] => do
    let uid ← freshUid
    pure (mkItem uid p .item, 0)
  | (k, pat) :: rest =>
    match reMatch pat.re cnt with
    | none => classify W add file lineno p cnt rest
    | some m => do
      match ← handleKind W add file lineno p k pat m with
      | some r => pure r
      | none => classify W add file lineno p cnt rest

/-- `parameter`, `/repo/oelint_parser/parser.py:282-290` -/
def chunkParams (file : Str) (lineOffset includeOffset : Int) (newStyle : Bool) (c : Chunk) : Params :=
  { infileline := c.line - lineOffset, inlineBlocks := c.inlineBlocks, line := c.line + includeOffset, newStyle,
    origin := file, rawtext := c.raw, realraw := c.realraw }

/-- the loop over the chunks, `/repo/oelint_parser/parser.py:280-468` -/
def itemsLoop (W : World) (add : AddFn) (file : Str) (lineOffset : Int) :
    Int → Bool → List Chunk → M (List Item)
  | _, _, [] => pure []
  | includeOffset, newStyle, c :: cs => do
    let (it, off) ← classify W add file c.line (chunkParams file lineOffset includeOffset newStyle c) c.cnt parseOrder
    let rest ← itemsLoop W add file lineOffset (includeOffset + off) (newStyle || it.isNewStyle) cs
    pure (it :: rest)

/-- `prepare_lines`, `/repo/oelint_parser/parser.py:190-232`: a missing file gives no chunks, other errors propagate -/
def prepareLines (W : World) (file : Str) (lineOffset : Int) (neg : Bool) : Except PyErr (List Chunk) :=
  match W.file file with
  | .text t => chunksOf lineOffset neg (univNewlines t)
  | .notFound => .ok []
  | .denied => .error .osError
  | .fails => .error .osError

/-- `get_items`, `/repo/oelint_parser/parser.py:235-470` -/
def getItems (W : World) (add : AddFn) (file : Str) (lineOffset : Int) (newStyle neg : Bool) : M (List Item) := do
  let file := if isAbs file then file else abspath W.cwd file
  let chunks ← M.lift (prepareLines W file lineOffset neg)
  itemsLoop W add file lineOffset 0 newStyle chunks

/-! ## AddFile -/

/-- `{'replacements': {key: [fn]}}`, `/repo/oelint_parser/cls_stash.py:280,283` -/
def replConst (key fn : Str) : KV := .cons c!"replacements" (.dict (.cons key (.list [fn]) .nil)) .nil

/-- the loops of `AddDistroMachineFromLayer`, `/repo/oelint_parser/cls_stash.py:278-283` -/
def addConfs (key : Str) : List Str → M Unit
  | [] => pure ()
  | conf :: rest => fun s =>
    match addConstants s.consts (replConst key (splitext (basename conf)).1) with
    | (db, none) => addConfs key rest { s with consts := db }
    | (db, some e) => (.error e, { s with consts := db })

/-- `AddDistroMachineFromLayer`, `/repo/oelint_parser/cls_stash.py:270-283` -/
def addDistroMachine (W : World) (path : Str) : M Unit := do
  let root ← M.lift (getLayerRoot W path)
  if root.isEmpty then pure ()
  else do
    addConfs c!"distros" (W.glob (pathJoin (pathJoin (pathJoin root c!"conf") c!"distro") c!"*.conf"))
    addConfs c!"machines" (W.glob (pathJoin (pathJoin (pathJoin root c!"conf") c!"machine") c!"*.conf"))

/-- `max((i.Line for i in l), default=0)`, `/repo/oelint_parser/cls_stash.py:201-202,208` -/
def maxLine (l : List Item) : Int :=
  match l.map (·.line) with
  | [] => 0
  | x :: xs => xs.foldl max x

/-- append a value to the list of a key (`self.__map[x].append(_file)`) -/
def mapAppend (m : List (Str × List Str)) (k v : Str) : List (Str × List Str) :=
  dset k ((dget k m).getD [] ++ [v]) m

/-- `RegexRpl.match(pattern, string)` for a pattern built at run time -/
def matchDyn (pat s : Str) : Except PyErr Bool :=
  match compile pat with
  | some p => .ok (reMatch p.re s).isSome
  | none => .error .regexError

/-- the pattern for a `.bbappend`, `/repo/oelint_parser/cls_stash.py:195-196` -/
def appendPattern (file : Str) : Str :=
  replaceAll c!"%" c!".*" (replaceAll c!".bbappend" c!".bb$" (basename file))

/-- the loop over the files already known, `/repo/oelint_parser/cls_stash.py:198-202`: returns `_maxline` -/
def linkAppend (file : Str) : List Str → Int → M Int
  | [], mx => pure mx
  | x :: xs, mx => fun s =>
    match matchDyn (appendPattern file) (basename x) with
    | .error e => (.error e, s)
    | .ok false => linkAppend file xs mx s
    | .ok true =>
      linkAppend file xs (max mx (maxLine (s.items.filter (fun i => i.origin == x))))
        { s with map := mapAppend s.map x file }

/-- the pattern for a `.bbappend` that was added before, `/repo/oelint_parser/cls_stash.py:212-213` -/
def appendPattern' (origin : Str) : Str :=
  replaceAll c!"%" c!".*" (replaceAll c!".bbappend" [] (basename origin))

/-- the loop over the items already in the stash, `/repo/oelint_parser/cls_stash.py:209-217` (`done` and `todo` split the
list of items) -/
def linkRecipe (file bn : Str) (mx : Int) : List Item → List Item → M Unit
  | done, [] => fun s => (.ok (), { s with items := done })
  | done, item :: rest => fun s =>
    if !endsWith c!".bbappend" item.origin then linkRecipe file bn mx (done ++ [item]) rest s
    else match matchDyn (appendPattern' item.origin) bn with
      | .error e => (.error e, { s with items := done ++ item :: rest })
      | .ok false => linkRecipe file bn mx (done ++ [item]) rest s
      | .ok true =>
        linkRecipe file bn mx (done ++ [{ item with line := max item.line (item.inFileLine + mx) }]) rest
          { s with map := mapAppend s.map file item.origin }

/-- `/repo/oelint_parser/cls_stash.py:186-191` -/
def enterMap (m : List (Str × List Str)) (file : Str) (forced : Option Str) : List (Str × List Str) :=
  let m := if dhas file m then m else dset file [] m
  match forced with
  | some f => if f.isEmpty then m else mapAppend m f file
  | none => m

/-- `/repo/oelint_parser/cls_stash.py:193-217`: cross link appends and recipes; returns `res` with the final `Line`s -/
def crossLink (file : Str) (res : List Item) : M (List Item) := do
  if endsWith c!".bbappend" file then
    let s ← M.get
    let mx ← linkAppend file (s.map.map (·.1)) 0
    pure (res.map (fun r => { r with line := r.line + mx }))
  else if endsWith c!".bb" file then
    let s ← M.get
    linkRecipe file (replaceAll c!".bb" [] (basename file)) (maxLine res) [] s.items
    pure res
  else pure res

/-- `/repo/oelint_parser/cls_stash.py:172-175`: is the call answered with `[]` at once? -/
def alreadySeen (s : Stash) (file : Str) : Bool :=
  (s.seenFiles.contains file && ![c!".inc", c!".bb", c!".conf", c!".bbclass"].contains (splitext file).2)
    || s.seenClasses.contains file

/-- `print("Parsing {file}".format(file=_file))` unless the stash is quiet, `/repo/oelint_parser/cls_stash.py:176-177` -/
def Stash.say (s : Stash) (file : Str) : Stash :=
  { s with printed := if s.quiet then s.printed else s.printed ++ [c!"Parsing " ++ file] }

/-- `/repo/oelint_parser/cls_stash.py:176-180` -/
def markSeen (s : Stash) (file : Str) : Stash :=
  { s.say file with
    seenFiles := if s.seenFiles.contains file then s.seenFiles else s.seenFiles ++ [file]
    seenClasses := if (splitext file).2 == c!".bbclass" then s.seenClasses ++ [file] else s.seenClasses }

/-- `/repo/oelint_parser/cls_stash.py:220-227` -/
def commitItems (W : World) (res : List Item) (s : Stash) : Stash :=
  { s with items := s.items ++ res, hashed := s.hashed ++ (res.map W.repr).flatten }

/-- `AddFile`, `/repo/oelint_parser/cls_stash.py:157-229`; running out of `fuel` is Python's `RecursionError`. -/
def addFile (W : World) : Nat → AddFn
  | 0, _, _, _ => M.raise .recursionError
  | fuel + 1, path, lineOffset, forced => do
    let file := abspath W.cwd path
    let s ← M.get
    if alreadySeen s file then pure []
    else do
      M.modify (fun s => markSeen s file)
      let res ← getItems W (addFile W fuel) file lineOffset s.newStyle s.negative
      M.modify (fun s => { s with map := enterMap s.map file forced })
      let res ← crossLink file res
      addDistroMachine W file
      M.modify (commitItems W res)
      pure res

end Oelint

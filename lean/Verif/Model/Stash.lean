import Verif.Model.Repr
import Verif.Model.Chunks
/-!
# The stash: state, file system, filters

`/repo/oelint_parser/cls_stash.py` without caching (every `functools.cache` is modelled in `Verif.Model.Cache`).
-/
namespace Oelint
variable [Uni]

/-- result of `open(path).read()` -/
inductive FileRes where
  /-- decoded text, before newline translation -/
  | text (s : Str)
  | notFound
  /-- `PermissionError` or `NotADirectoryError` -/
  | denied
  /-- any other exception (`IsADirectoryError`, `UnicodeDecodeError`, ...) -/
  | fails
  deriving DecidableEq, Repr

/-- What the code asks its environment.  Nothing is assumed about the answers, except that iterating over a set yields
its elements in some order and that the current directory is an absolute path. -/
structure World where
  /-- `os.getcwd()`, an absolute path -/
  cwd : Str
  cwd_abs : isAbs cwd = true
  /-- `open(path)` -/
  file : Str → FileRes
  /-- `os.path.exists` -/
  pathExists : Str → Bool
  /-- `os.path.isfile` -/
  isFile : Str → Bool
  /-- `os.path.isdir` -/
  isDir : Str → Bool
  /-- `glob.glob` -/
  glob : Str → List Str
  /-- iteration order of a set of items -/
  itemOrder : List Item → List Item
  itemOrder_perm : ∀ l, (itemOrder l).Perm l
  /-- iteration order of a set of strings -/
  strOrder : List Str → List Str
  strOrder_perm : ∀ l, (strOrder l).Perm l
  /-- `urlparse(s)`: scheme, netloc, path; `none` for `ValueError` -/
  urlparse : Str → Option (Str × Str × Str)
  /-- `str.isprintable` of a character beyond ASCII -/
  printable : Char → Bool
  /-- `hashlib.sha1(...).hexdigest()` of the bytes fed so far -/
  sha1 : Str → Str

/-- `str(item)`, `/repo/oelint_parser/cls_item.py:260-261` -/
def World.repr (W : World) (x : Item) : Str := x.repr W.printable W.strOrder

/-- `Stash.__init__`, `/repo/oelint_parser/cls_stash.py:122-139`, plus the process-wide `CONSTANTS` object and the
counter for object identities. `hashed` is what has been fed to the fingerprint, `printed` the lines `AddFile` has printed
(`/repo/oelint_parser/cls_stash.py:176-177`). -/
structure Stash where
  items : List Item
  seenFiles : List Str
  seenClasses : List Str
  map : List (Str × List Str)
  newStyle : Bool
  negative : Bool
  hashed : Str
  consts : J
  nextUid : Nat
  quiet : Bool := false
  printed : List Str := []

/-- `str(b)` for a bool -/
def pyBool (b : Bool) : Str := if b then c!"True" else c!"False"

/-- `Stash(quiet, new_style_override_syntax, negative_inline)`, `/repo/oelint_parser/cls_stash.py:122-139` -/
def Stash.init (newStyle negative : Bool) (consts : J) (nextUid : Nat) (quiet : Bool := false) : Stash :=
  { items := [], seenFiles := [], seenClasses := [], map := [], newStyle, negative,
    hashed := pyBool newStyle ++ c!":" ++ pyBool negative, consts, nextUid, quiet, printed := [] }

/-! ## filters -/

/-- `__is_linked_to`, `/repo/oelint_parser/cls_stash.py:345-347` -/
def isLinkedTo (s : Stash) (item : Item) (filename : Str) (nolink : Bool) : Bool :=
  (((dget filename s.map).getD []).contains item.origin && !nolink) || filename == item.origin

/-- `__get_items_by_file`, `/repo/oelint_parser/cls_stash.py:349-353` -/
def getItemsByFile (s : Stash) (items : List Item) (filename : Str) (nolink : Bool) : List Item :=
  if filename.isEmpty then items else items.filter (fun x => isLinkedTo s x filename nolink)

/-- `__get_items_by_classifier`, `/repo/oelint_parser/cls_stash.py:355-359` -/
def getItemsByClassifier (items : List Item) (classifier : List Str) : List Item :=
  if classifier.isEmpty then items else items.filter (fun x => classifier.contains x.payload.classifier)

/-- `_filter` of `__get_items_by_attribute`, `/repo/oelint_parser/cls_stash.py:366-372`. Values are restricted to
strings. -/
def attrFilter (x : Item) (attname attvalue : List Str) : Bool :=
  attname.any (fun name =>
    match dget name x.getAttributes with
    | none => false
    | some a => attvalue.isEmpty || attvalue.any (fun v => Attr.str v == a))

/-- `__get_items_by_attribute`, `/repo/oelint_parser/cls_stash.py:361-374` -/
def getItemsByAttribute (items : List Item) (attname attvalue : List Str) : List Item :=
  if attname.isEmpty then items else items.filter (fun x => attrFilter x attname attvalue)

/-- an argument `Union[Iterable[str], str] = None` -/
inductive Arg where
  | none
  | one (s : Str)
  | many (l : List Str)
  deriving DecidableEq, Repr

/-- `[x] if x else []` unless it is a list, set or tuple, `/repo/oelint_parser/cls_stash.py:410-415` -/
def Arg.norm : Arg → List Str
  | .none => []
  | .one s => if s.isEmpty then [] else [s]
  | .many l => l

/-- the filter arguments of `Reduce`, `/repo/oelint_parser/cls_stash.py:390-396` -/
structure Filter where
  filename : Option Str := none
  classifier : Arg := .none
  attname : Arg := .none
  attvalue : Arg := .none
  nolink : Bool := false

/-- `/repo/oelint_parser/cls_stash.py:416-424` -/
def applyFilter (s : Stash) (l : List Item) (f : Filter) : List Item :=
  let l := match f.filename with
    | some fn => if fn.isEmpty then l else getItemsByFile s l fn f.nolink
    | none => l
  let l := if f.classifier.norm.isEmpty then l else getItemsByClassifier l f.classifier.norm
  if f.attname.norm.isEmpty then l else getItemsByAttribute l f.attname.norm f.attvalue.norm

/-- `key=lambda x: x.Line` -/
def lineLe (a b : Item) : Bool := decide (a.line ≤ b.line)

/-- `Reduce`, `/repo/oelint_parser/cls_stash.py:390-425`. Equality of items is object identity; an object has one state,
so equality of the records (which contain the identity) is the same. -/
def reduceL (W : World) (s : Stash) (l : List Item) (f : Filter) : List Item :=
  sortBy lineLe (W.itemOrder (dedup (applyFilter s l f)))

/-- `GetItemsFor`, `/repo/oelint_parser/cls_stash.py:427-451` -/
def getItemsFor (W : World) (s : Stash) (f : Filter) : List Item := reduceL W s s.items f

/-- `GetLinksForFile`, `/repo/oelint_parser/cls_stash.py:376-388`: the set `frozenset(self.__list)` is iterated -/
def getLinksForFile (W : World) (s : Stash) (filename : Str) : List Str :=
  if filename.isEmpty then []
  else ((getItemsByFile s (W.itemOrder (dedup s.items)) filename false).filter
    (fun x => x.origin != filename)).map (·.origin)

/-- `GetItemsFor(filename=_file, classifier=Variable.CLASSIFIER, attribute=Variable.ATTR_VAR, attributeValue=name)` as
at `/repo/oelint_parser/cls_stash.py:583,755,819,848,879,909` -/
def varFilter (file name : Str) : Filter :=
  { filename := some file, classifier := .one c!"Variable", attname := .one c!"VarName", attvalue := .one name }

/-! ## names -/

/-- `GuessRecipeName`, `/repo/oelint_parser/cls_stash.py:683-694` -/
def guessRecipeName (file : Str) : Str := (splitC '_' (splitext (basename file)).1).headD []

/-- `GuessRecipeVersion`, `/repo/oelint_parser/cls_stash.py:712-724` -/
def guessRecipeVersion (file : Str) : Option Str := (splitC '_' (splitext (basename file)).1).tail.head?

/-- `GuessBaseRecipeName`, `/repo/oelint_parser/cls_stash.py:696-710` -/
def guessBaseRecipeName (file : Str) : Str :=
  let t := reSub reClassId.re (fun m => (m.group 2).getD []) (guessRecipeName file)
  let t := reSub reClassIdNative.re (fun m => (m.group 1).getD []) t
  reSub reClassIdCross.re (fun m => (m.group 1).getD []) t

/-! ## layers -/

/-- the loop of `GetLayerRoot`, `/repo/oelint_parser/cls_stash.py:605-611`; `none`: the iteration limit is reached -/
def layerRootLoop (W : World) : Nat → Str → Option Str
  | 0, _ => none
  | n + 1, cur =>
    if W.isDir cur then
      if cur == c!"/" then some []
      else
        let cur := dirname cur
        if W.pathExists (pathJoin cur c!"conf/layer.conf") then some cur else layerRootLoop W n cur
    else some []

/-- the start directory, `/repo/oelint_parser/cls_stash.py:604` -/
def layerStart (W : World) (name : Str) : Str := if W.isFile name then dirname name else name

/-- `GetLayerRoot`, `/repo/oelint_parser/cls_stash.py:594-611`. The limit is enough unless the loop runs forever
(see `layerRootLoop_diverges`). -/
def getLayerRoot (W : World) (name : Str) : Except PyErr Str :=
  match layerRootLoop W (name.length + 2) (layerStart W name) with
  | some r => .ok r
  | none => .error .diverges

/-- the loop of `FindLocalOrLayer`, `/repo/oelint_parser/cls_stash.py:627-636` -/
def findLoop (W : World) (name : Str) : Nat → Str → Option Str
  | 0, _ => none
  | n + 1, cur =>
    if W.isDir cur then
      if cur == c!"/" then some []
      else
        let cur := dirname cur
        if W.pathExists (pathJoin cur c!"conf/layer.conf") then
          if W.pathExists (pathJoin cur name) then some (pathJoin cur name) else some []
        else findLoop W name n cur
    else some []

/-- `FindLocalOrLayer`, `/repo/oelint_parser/cls_stash.py:613-636` -/
def findLocalOrLayer (W : World) (name localdir : Str) : Except PyErr Str :=
  if W.pathExists (pathJoin localdir name) then .ok (pathJoin localdir name)
  else match findLoop W name (localdir.length + 2) localdir with
    | some r => .ok r
    | none => .error .diverges

/-! ## SRC_URI -/

/-- `_replace_with_known_mirrors`, `/repo/oelint_parser/cls_stash.py:638-644`; a replacement that is not a string raises
`TypeError`, a `MirrorsKnown` that is not a dictionary `AttributeError` -/
def replaceMirrors : List (Str × J) → Str → Except PyErr Str
  | [], s => .ok s
  | (k, .str v) :: rest, s => replaceMirrors rest (replaceAll k v s)
  | _ :: _, _ => .error .typeError

/-- `_replace_with_known_mirrors` on the current constants -/
def withKnownMirrors (s : Stash) (inp : Str) : Except PyErr Str :=
  match mirrorsKnown s.consts with
  | .ok (.dict d) => replaceMirrors d.toList inp
  | .ok _ => .error .attributeError
  | .error e => .error e

/-- result of `GetScrComponents` -/
structure SrcComponents where
  scheme : Str
  src : Str
  options : List (Str × Str)
  deriving DecidableEq, Repr

/-- the dictionary comprehension `/repo/oelint_parser/cls_stash.py:667-668` (later keys overwrite) -/
def parseOptions (opts : List Str) : List (Str × Str) :=
  (opts.filter (fun x => x.contains '=')).foldl
    (fun d x => dset ((splitC '=' x).headD []) ((splitC '=' x).tail.headD []) d) []

/-- `GetScrComponents`, `/repo/oelint_parser/cls_stash.py:646-669` -/
def getScrComponents (W : World) (s : Stash) (string : Str) : Except PyErr SrcComponents :=
  match withKnownMirrors s string with
  | .error e => .error e
  | .ok raw =>
    match W.urlparse raw with
    | none => .ok { scheme := [], src := [], options := [] }
    | some (scheme, netloc, path) =>
      let tmp := if path.isEmpty then netloc else netloc ++ (c!"/" ++ lstripP (· == '/') path)
      .ok { scheme, src := (splitC ';' tmp).headD [],
            options := parseOptions (if raw.contains ';' then (splitC ';' raw).tail else []) }

/-- `SafeLineSplit`, `/repo/oelint_parser/cls_stash.py:671-681` -/
def stashSafeLineSplit (s : Str) : List Str := reSplit reStashSafelineSplit.re s

/-! ## inline blocks -/

/-- `_ReverseInlineBlock`, `/repo/oelint_parser/cls_stash.py:726-730` -/
def reverseInline (blocks : List (Str × Str)) (v : VarData) : Str :=
  blocks.foldl (fun res (b : Str × Str) => replaceFirst b.2 b.1 res) (varValueStripped v)

end Oelint

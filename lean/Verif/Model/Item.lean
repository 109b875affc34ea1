import Verif.Model.Patterns
import Verif.Model.Constants
/-!
# Items

`/repo/oelint_parser/cls_item.py`.  An item is a record with a payload per class.  `uid` stands for object identity.
-/
namespace Oelint
variable [Uni]

/-- fields of `Variable`, `/repo/oelint_parser/cls_item.py:288-293` -/
structure VarData where
  varName : Str
  subItem : Str
  subItems : List Str
  varValue : Str
  varOp : Str
  rawVarName : Str
  deriving DecidableEq, Repr

/-- fields of `Function`, `/repo/oelint_parser/cls_item.py:625-633` -/
structure FuncData where
  isPython : Bool
  isFakeroot : Bool
  funcName : Str
  subItem : Str
  subItems : List Str
  funcBody : Str
  funcBodyRaw : Str
  deriving DecidableEq, Repr

/-- The class of an item with the fields its constructor sets (`/repo/oelint_parser/cls_item.py:264-1346`). -/
inductive Payload where
  | item
  | variable (v : VarData)
  | comment
  | include (incName fileIncluded statement : Str)
  | export (name value : Str)
  | function (f : FuncData)
  | pythonBlock (funcName : Str)
  | flagAssignment (name flag value varop : Str)
  | functionExports (funcNames : Str)
  | taskAdd (funcName : Str) (before after : List Str) (comment : Str)
  | taskDel (funcName comment : Str)
  | missingFile (filename statement : Str)
  | addPylib (path namespace_ : Str)
  | addFragements (path variable_ flagged : Str)
  | includeAll (file : Str)
  | inherit (statement classes : Str) (filePaths : List Str)
  | unset (varName flag : Str)
  deriving DecidableEq, Repr

/-- `Item`, `/repo/oelint_parser/cls_item.py:43-50`. `includedFrom` is a set, kept without duplicates. -/
structure Item where
  uid : Nat
  line : Int
  raw : Str
  origin : Str
  inFileLine : Int
  includedFrom : List Str
  inlineBlocks : List (Str × Str)
  realRaw : Str
  delim : Char
  payload : Payload
  deriving DecidableEq, Repr

/-- the arguments common to all constructors (`parameter` of `/repo/oelint_parser/parser.py:282-290`) -/
structure Params where
  infileline : Int
  inlineBlocks : List (Str × Str)
  line : Int
  newStyle : Bool
  origin : Str
  rawtext : Str
  realraw : Str

/-- `Item.__init__`, `/repo/oelint_parser/cls_item.py:43-50`, for an object with the given identity, class and final
override delimiter (constructors of subclasses may change it, see `extractSub`) -/
def mkItemD (uid : Nat) (p : Params) (delim : Char) (pl : Payload) : Item :=
  { uid, line := p.line, raw := p.rawtext, origin := p.origin, inFileLine := p.infileline, includedFrom := [],
    inlineBlocks := p.inlineBlocks, realRaw := if p.realraw.isEmpty then p.rawtext else p.realraw, delim,
    payload := pl }

/-- `':' if new_style_override_syntax else '_'`, `/repo/oelint_parser/cls_item.py:50` -/
def initDelim (newStyle : Bool) : Char := if newStyle then ':' else '_'

/-- an item whose constructor does not touch the delimiter -/
def mkItem (uid : Nat) (p : Params) (pl : Payload) : Item := mkItemD uid p (initDelim p.newStyle) pl

/-- `IsNewStyleOverrideSyntax`, `/repo/oelint_parser/cls_item.py:127-134` -/
def Item.isNewStyle (i : Item) : Bool := i.delim == ':'

/-- `IsFromClass`, `/repo/oelint_parser/cls_item.py:109-116` -/
def Item.isFromClass (i : Item) : Bool := endsWith c!".bbclass" i.origin

/-- `IsFromAppend`, `/repo/oelint_parser/cls_item.py:235-241` -/
def Item.isFromAppend (i : Item) : Bool := endsWith c!".bbappend" i.origin

/-- `_safe_linesplit` / `safe_linesplit`, `/repo/oelint_parser/cls_item.py:153-166` -/
def safeLinesplit (s : Str) : List Str := (reSplit reSafelineSplit.re s).filter (fun x => !x.isEmpty)

/-- The loop body of `extract_sub`, `/repo/oelint_parser/cls_item.py:190-202`: is piece `i` (after cutting at the first
dash) an override, given the first piece? -/
def isOverridePiece (first i : Str) : Bool :=
  let pre := if i.contains '-' then (splitC '-' i).headD [] else i
  ((reMatch reId.re pre).isSome && first != c!"pkg") || pre == c!"${PN}"

/-- `i + tmp`, `/repo/oelint_parser/cls_item.py:191-198` -/
def pieceText (i : Str) : Str :=
  if i.contains '-' then (splitC '-' i).headD [] ++ (c!"-" ++ joinS c!"-" (splitC '-' i).tail) else i

/-- the loop of `extract_sub`, `/repo/oelint_parser/cls_item.py:190-202`: (`_var`, `_suffix`) -/
def extractLoop (first : Str) : List Str → List Str → List Str → List Str × List Str
  | [], var, suf => (var, suf)
  | i :: rest, var, suf =>
    if isOverridePiece first i then extractLoop first rest var (suf ++ [pieceText i])
    else extractLoop first rest (var ++ [pieceText i]) suf

/-- `if ":" in name: self.__OverrideDelimiter = ":"`, `/repo/oelint_parser/cls_item.py:185-186,216-217` -/
def delimFor (delim : Char) (name : Str) : Char := if name.contains ':' then ':' else delim

/-- `extract_sub`, `/repo/oelint_parser/cls_item.py:176-205`: new delimiter, name, modifiers -/
def extractSub (delim0 : Char) (name : Str) : Char × Str × Str :=
  let delim := delimFor delim0 name
  let chunks := splitC delim name
  let first := chunks.headD []
  let (var, suf) := extractLoop first chunks.tail [first] []
  (delim, joinS [delim] (var.filter (fun x => !x.isEmpty)), joinS [delim] (suf.filter (fun x => !x.isEmpty)))

/-- `_marker`, `/repo/oelint_parser/cls_item.py:221-222` -/
def funcMarkers : List Str :=
  [c!"append", c!"prepend", c!"class-native", c!"class-cross", c!"class-target", c!"remove"]

/-- `chunks.index(i)` for an element that is present -/
def indexOf (i : Str) : List Str → Nat
  | [] => 0
  | x :: xs => if x == i then 0 else indexOf i xs + 1

/-- the loop of `extract_sub_func`, `/repo/oelint_parser/cls_item.py:225-230`. `known` is
`CONSTANTS.FunctionsKnown`; the suffix starts at the *first* chunk equal to the one that stopped the loop. -/
def extractFuncLoop (known : Str → Bool) (delim : Char) (chunks : List Str) :
    List Str → List Str → List Str × List Str
  | [], var => (var, [])
  | i :: rest, var =>
    if funcMarkers.contains i || known (joinS [delim] var) then (var, chunks.drop (indexOf i chunks))
    else extractFuncLoop known delim chunks rest (var ++ [i])

/-- `extract_sub_func`, `/repo/oelint_parser/cls_item.py:207-233` -/
def extractSubFunc (known : Str → Bool) (delim0 : Char) (name : Str) : Char × Str × Str :=
  let delim := delimFor delim0 name
  let chunks := splitC delim name
  if name == c!"__anonymous" then (delim, name, [])
  else
    let (var, suf) := extractFuncLoop known delim chunks chunks.tail [chunks.headD []]
    (delim, joinS [delim] (var.filter (fun x => !x.isEmpty)), joinS [delim] (suf.filter (fun x => !x.isEmpty)))

/-- the list `[x for x in s.split(d) if x]`, e.g. `/repo/oelint_parser/cls_item.py:289-290,629-630,909,948-949` -/
def splitNE (d : Char) (s : Str) : List Str := (splitC d s).filter (fun x => !x.isEmpty)

/-- `Variable.__init__`, `/repo/oelint_parser/cls_item.py:274-293` -/
def mkVariable (uid : Nat) (p : Params) (name value operator : Str) : Item :=
  let (delim, vn, si) := extractSub (initDelim p.newStyle) name
  mkItemD uid p delim (.variable
    { varName := vn, subItem := si, subItems := splitNE delim si, varValue := value, varOp := operator,
      rawVarName := vn })

/-- longest common prefix -/
def lcp : Str → Str → Str
  | a :: s, b :: t => if a == b then a :: lcp s t else []
  | _, _ => []

/-- `textwrap.dedent` (CPython up to 3.13): blank lines become empty, the common leading blanks of the others go -/
def dedent (s : Str) : Str :=
  let blank := fun c : Char => c == ' ' || c == '\t'
  let lines := (splitC '\n' s).map (fun l => if l.all blank then [] else l)
  let indents := (lines.filter (fun l => !l.isEmpty)).map (fun l => l.takeWhile blank)
  let margin := match indents with
    | [] => []
    | i :: is => is.foldl lcp i
  joinS c!"\n" (lines.map (fun l => if margin.isPrefixOf l then l.drop margin.length else l))

/-- `Function.__init__`, `/repo/oelint_parser/cls_item.py:608-633`; `python`/`fakeroot` are match groups.
`Raw.find("{") + 1` is 0 when there is no brace. -/
def mkFunction (known : Str → Bool) (uid : Nat) (p : Params) (name : Option Str) (body : Str)
    (python fakeroot : Option Str) : Item :=
  let (delim, fn, si) := extractSubFunc known (initDelim p.newStyle) (stripP pySpace (name.getD []))
  let start := match findSub c!"{" p.rawtext with
    | some i => i + 1
    | none => 0
  mkItemD uid p delim (.function
    { isPython := python.isSome, isFakeroot := fakeroot.isSome, funcName := fn, subItem := si,
      subItems := splitNE delim si, funcBody := body,
      funcBodyRaw := dedent (rstripP (oneOf c!"}") (rstripP pySpace (p.rawtext.drop start))) })

/-- `TaskAdd.__init__`, `/repo/oelint_parser/cls_item.py:930-950` -/
def mkTaskAdd (uid : Nat) (p : Params) (name : Str) (before after comment : Option Str) : Item :=
  mkItem uid p (.taskAdd name (splitNE ' ' (before.getD [])) (splitNE ' ' (after.getD [])) (comment.getD []))

/-- `TaskDel.__init__`, `/repo/oelint_parser/cls_item.py:1004-1016` -/
def mkTaskDel (uid : Nat) (p : Params) (name : Str) (comment : Option Str) : Item :=
  mkItem uid p (.taskDel name (comment.getD []))

/-- `MissingFile.__init__`, `/repo/oelint_parser/cls_item.py:1052-1064` -/
def mkMissingFile (uid : Nat) (p : Params) (filename statement : Str) : Item :=
  mkItem uid { p with rawtext := [], realraw := [] } (.missingFile filename statement)

/-! ## Variable -/

/-- `VarNameComplete`, `/repo/oelint_parser/cls_item.py:344-351` -/
def varNameComplete (delim : Char) (v : VarData) : Str := joinS [delim] (v.varName :: v.subItems)

/-- `['prepend', 'append', 'remove']`, `/repo/oelint_parser/cls_item.py:360,465` -/
def modifierNames : List Str := [c!"prepend", c!"append", c!"remove"]

/-- `VarNameCompleteNoModifiers`, `/repo/oelint_parser/cls_item.py:353-360` -/
def varNameCompleteNoModifiers (delim : Char) (v : VarData) : Str :=
  joinS [delim] (v.varName :: v.subItems.filter (fun x => !modifierNames.contains x))

/-- `VarValueStripped`, `/repo/oelint_parser/cls_item.py:371-378` -/
def varValueStripped (v : VarData) : Str :=
  rstripP (· == '"') (lstripP (· == '"') (stripP pySpace v.varValue))

/-- `["+=", "=+", "=.", ".="]`, `/repo/oelint_parser/cls_item.py:386,395` -/
def appendOps : List Str := [c!"+=", c!"=+", c!"=.", c!".="]

/-- `Variable.IsAppend`, `/repo/oelint_parser/cls_item.py:380-386` -/
def varIsAppend (v : VarData) : Bool :=
  appendOps.contains (stripP pySpace v.varOp) || v.subItems.contains c!"append" || v.subItems.contains c!"prepend"

/-- `Variable.AppendOperation`, `/repo/oelint_parser/cls_item.py:388-403` -/
def appendOperation (v : VarData) : List Str :=
  (if [c!"+=", c!".=", c!"=+", c!"=."].contains (stripP pySpace v.varOp) then [v.varOp] else [])
    ++ (if v.subItems.contains c!"append" then [c!"append"] else [])
    ++ (if v.subItems.contains c!"prepend" then [c!"prepend"] else [])
    ++ (if v.subItems.contains c!"remove" then [c!"remove"] else [])

/-- `Variable.get_items`, `/repo/oelint_parser/cls_item.py:405-418` -/
def varGetItems (v : VarData) (override : Str) (versioned : Bool) : List Str :=
  let o := stripP (oneOf c!"\"") override
  let x := if o.isEmpty then stripP (oneOf c!"\"") v.varValue else o
  safeLinesplit (if versioned then reSub reVersioned.re (fun _ => []) x else x)

/-- `Variable.IsMultiLine`, `/repo/oelint_parser/cls_item.py:420-426` (the first test is for a backslash followed by
`x1b`) -/
def isMultiLine (raw : Str) : Bool := hasSub c!"\\x1b" raw || hasSub c!"\\\n" raw

/-- `GetDistroEntry`, `/repo/oelint_parser/cls_item.py:428-435,721-728`; `known` is membership in
`CONSTANTS.DistrosKnown` -/
def getDistroEntry (known : Str → Bool) (subItems : List Str) : Str := (subItems.filter known).headD []

/-- the exclusions of `Variable.GetMachineEntry`, `/repo/oelint_parser/cls_item.py:444` -/
def varNotMachine : List Str :=
  [c!"append", c!"prepend", c!"class-native", c!"class-nativesdk", c!"class-cross", c!"class-target", c!"remove",
   c!"machine"]

/-- the exclusions of `Function.GetMachineEntry`, `/repo/oelint_parser/cls_item.py:737` -/
def funcNotMachine : List Str :=
  [c!"append", c!"prepend", c!"class-native", c!"class-cross", c!"class-target", c!"remove", c!"machine"]

/-- a `for x in self.SubItems: if p(x): return x` loop followed by `return ""` -/
def firstWhere (p : Str → Bool) : List Str → Str
  | [] => []
  | x :: xs => if p x then x else firstWhere p xs

/-- `Variable.GetMachineEntry`, `/repo/oelint_parser/cls_item.py:437-446` -/
def varMachineEntry (v : VarData) : Str := firstWhere (fun x => !varNotMachine.contains x) v.subItems

/-- `Function.GetMachineEntry`, `/repo/oelint_parser/cls_item.py:730-739` -/
def funcMachineEntry (f : FuncData) : Str := firstWhere (fun x => !funcNotMachine.contains x) f.subItems

/-- the classes of `GetClassOverride`, `/repo/oelint_parser/cls_item.py:455` -/
def classOverrides : List Str := [c!"class-native", c!"class-nativesdk", c!"class-cross", c!"class-target"]

/-- `Variable.GetClassOverride`, `/repo/oelint_parser/cls_item.py:448-457` -/
def getClassOverride (v : VarData) : Str := firstWhere (fun x => classOverrides.contains x) v.subItems

/-- `Variable.IsImmediateModify`, `/repo/oelint_parser/cls_item.py:459-465` -/
def isImmediateModify (v : VarData) : Bool := !v.subItems.any (fun x => modifierNames.contains x)

/-! ## Function -/

/-- `FuncNameComplete`, `/repo/oelint_parser/cls_item.py:662-669` -/
def funcNameComplete (delim : Char) (f : FuncData) : Str := joinS [delim] (f.funcName :: f.subItems)

/-- `FuncBodyStripped`, `/repo/oelint_parser/cls_item.py:702-710` -/
def funcBodyStripped (f : FuncData) : Str :=
  stripP pySpace (replaceAll c!"\n" [] (replaceAll c!"}" [] (replaceAll c!"{" [] f.funcBody)))

/-- `Function.IsAppend`, `/repo/oelint_parser/cls_item.py:741-747` -/
def funcIsAppend (f : FuncData) : Bool := f.subItems.any (fun x => [c!"append", c!"prepend"].contains x)

/-! ## other classes -/

/-- `FunctionExports.get_items`, `/repo/oelint_parser/cls_item.py:903-909` -/
def exportsItems (funcNames : Str) : List Str := splitNE ' ' funcNames

/-- `FunctionExports.get_items_unaliased`, `/repo/oelint_parser/cls_item.py:911-918` -/
def exportsUnaliased (origin funcNames : Str) : List Str :=
  let name := (splitext (basename origin)).1
  (exportsItems funcNames).map (fun x => name ++ c!"-" ++ x)

/-- `get_items` of every class (no arguments), `/repo/oelint_parser/cls_item.py:168-174,405-418,479-485,540-546,592-598,
749-755,784-790,868-874,903-909,988-994,1036-1042,1084-1085,1127-1133,1188-1194,1223-1229,1290-1296,1340-1346` -/
def Item.getItems (i : Item) : List Str :=
  match i.payload with
  | .item => safeLinesplit i.raw
  | .variable v => varGetItems v [] false
  | .comment => splitC '\n' i.raw
  | .include n _ s => [n, s]
  | .export n v => [n, v]
  | .function f => splitC '\n' f.funcBodyRaw
  | .pythonBlock _ => splitC '\n' i.raw
  | .flagAssignment n f v o => [n, f, o, stripP (· == '"') v]
  | .functionExports n => exportsItems n
  | .taskAdd n b a _ => [n] ++ b ++ a
  | .taskDel n _ => [n]
  | .missingFile f s => [f, s]
  | .addPylib p n => [p, n]
  | .addFragements p v f => [p, v, f]
  | .includeAll f => [f]
  | .inherit _ c _ => safeLinesplit c
  | .unset n f => [n, f]

/-- `CLASSIFIER` of each class -/
def Payload.classifier : Payload → Str
  | .item => c!"Item"
  | .variable _ => c!"Variable"
  | .comment => c!"Comment"
  | .include .. => c!"Include"
  | .export .. => c!"Export"
  | .function _ => c!"Function"
  | .pythonBlock _ => c!"PythonBlock"
  | .flagAssignment .. => c!"FlagAssignment"
  | .functionExports _ => c!"FunctionExports"
  | .taskAdd .. => c!"TaskAdd"
  | .taskDel .. => c!"TaskDel"
  | .missingFile .. => c!"MissingFile"
  | .addPylib .. => c!"AddPylib"
  | .addFragements .. => c!"AddFragements"
  | .includeAll _ => c!"IncludeAll"
  | .inherit .. => c!"Inherit"
  | .unset .. => c!"Unset"

/-- an attribute value -/
inductive Attr where
  | str (s : Str)
  | int (i : Int)
  | bool (b : Bool)
  | strs (l : List Str)
  | strset (l : List Str)
  | pairs (l : List (Str × Str))
  deriving DecidableEq, Repr

/-- the properties that every `Item` has (`/repo/oelint_parser/cls_item.py:52-151`) -/
def baseAttributes (i : Item) : List (Str × Attr) :=
  [ (c!"Line", .int i.line), (c!"Raw", .str i.raw), (c!"Origin", .str i.origin),
    (c!"InFileLine", .int i.inFileLine), (c!"RealRaw", .str i.realRaw), (c!"IsFromClass", .bool i.isFromClass),
    (c!"OverrideDelimiter", .str [i.delim]), (c!"IsNewStyleOverrideSyntax", .bool i.isNewStyle),
    (c!"InlineBlocks", .pairs i.inlineBlocks), (c!"IncludedFrom", .strset i.includedFrom) ]

/-- the properties of the subclasses (the `@property` declarations of `/repo/oelint_parser/cls_item.py:295-1338`) -/
def ownAttributes (i : Item) : List (Str × Attr) :=
  match i.payload with
  | .item => []
  | .variable v =>
    [ (c!"VarName", .str v.varName), (c!"SubItem", .str v.subItem), (c!"SubItems", .strs v.subItems),
      (c!"VarValue", .str v.varValue), (c!"VarOp", .str v.varOp),
      (c!"VarNameComplete", .str (varNameComplete i.delim v)),
      (c!"VarNameCompleteNoModifiers", .str (varNameCompleteNoModifiers i.delim v)),
      (c!"RawVarName", .str v.rawVarName), (c!"VarValueStripped", .str (varValueStripped v)) ]
  | .comment => []
  | .include n f s => [ (c!"IncName", .str n), (c!"Statement", .str s), (c!"FileIncluded", .str f) ]
  | .export n v => [ (c!"Name", .str n), (c!"Value", .str v) ]
  | .function f =>
    [ (c!"IsPython", .bool f.isPython), (c!"IsFakeroot", .bool f.isFakeroot), (c!"FuncName", .str f.funcName),
      (c!"FuncNameComplete", .str (funcNameComplete i.delim f)), (c!"SubItem", .str f.subItem),
      (c!"SubItems", .strs f.subItems), (c!"FuncBody", .str f.funcBody),
      (c!"FuncBodyStripped", .str (funcBodyStripped f)), (c!"FuncBodyRaw", .str f.funcBodyRaw) ]
  | .pythonBlock n => [ (c!"FuncName", .str n) ]
  | .flagAssignment n f v o =>
    [ (c!"VarName", .str n), (c!"Flag", .str f), (c!"VarOp", .str o), (c!"Value", .str v),
      (c!"ValueStripped", .str (stripP (· == '"') v)) ]
  | .functionExports n => [ (c!"FuncNames", .str n) ]
  | .taskAdd n b a c =>
    [ (c!"FuncName", .str n), (c!"Before", .strs b), (c!"After", .strs a), (c!"Comment", .str c) ]
  | .taskDel n c => [ (c!"FuncName", .str n), (c!"Comment", .str c) ]
  | .missingFile f s => [ (c!"Filename", .str f), (c!"Statement", .str s) ]
  | .addPylib p n => [ (c!"Path", .str p), (c!"Namespace", .str n) ]
  | .addFragements p v f => [ (c!"Path", .str p), (c!"Variable", .str v), (c!"Flagged", .str f) ]
  | .includeAll f => [ (c!"File", .str f) ]
  | .inherit s c p => [ (c!"Class", .str c), (c!"Statement", .str s), (c!"FilePaths", .strset p) ]
  | .unset n f => [ (c!"VarName", .str n), (c!"Flag", .str f) ]

/-- `GetAttributes`, `/repo/oelint_parser/cls_item.py:243-258`, in the order of `object.__dir__`: the properties of the class of the item, then
those of `Item`, each in the order of definition -/
def Item.getAttributes (i : Item) : List (Str × Attr) := ownAttributes i ++ baseAttributes i

/-- the `ATTR_*` constants of each class, inherited ones included
(`/repo/oelint_parser/cls_item.py:18-22,266-269,492-494,553-554,604-605,761,796-800,880,924-927,1000-1001,1048-1049,
1092-1093,1140-1142,1201,1236-1237,1302-1303`); `ATTR_SUB` of the base class names `SubItem` -/
def Payload.attrConstants (p : Payload) : List (Str × Str) :=
  let base := [ (c!"ATTR_LINE", c!"Line"), (c!"ATTR_RAW", c!"Raw"), (c!"ATTR_ORIGIN", c!"Origin"),
                (c!"ATTR_SUB", c!"SubItem") ]
  base ++ match p with
  | .item | .comment => []
  | .variable _ => [ (c!"ATTR_VAR", c!"VarName"), (c!"ATTR_VARVAL", c!"VarValue"), (c!"ATTR_VARRAW", c!"RawVarName"),
                     (c!"ATTR_VARVALSTRIPPED", c!"VarValueStripped") ]
  | .include .. => [ (c!"ATTR_INCNAME", c!"IncName"), (c!"ATTR_STATEMENT", c!"Statement"),
                     (c!"ATTR_FILEINCLUDED", c!"FileIncluded") ]
  | .export .. => [ (c!"ATTR_NAME", c!"Name"), (c!"ATTR_STATEMENT", c!"Value") ]
  | .function _ => [ (c!"ATTR_FUNCNAME", c!"FuncName"), (c!"ATTR_FUNCBODY", c!"FuncBody") ]
  | .pythonBlock _ => [ (c!"ATTR_FUNCNAME", c!"FuncName") ]
  | .flagAssignment .. => [ (c!"ATTR_NAME", c!"VarName"), (c!"ATTR_FLAG", c!"Flag"), (c!"ATTR_VARVAL", c!"Value"),
                            (c!"ATTR_VARVAL_STRIPPED", c!"ValueStripped"), (c!"ATTR_VAROP", c!"VarOp") ]
  | .functionExports _ => [ (c!"ATTR_FUNCNAME", c!"FuncName") ]
  | .taskAdd .. => [ (c!"ATTR_FUNCNAME", c!"FuncName"), (c!"ATTR_BEFORE", c!"Before"), (c!"ATTR_AFTER", c!"After"),
                     (c!"ATTR_COMMENT", c!"Comment") ]
  | .taskDel .. => [ (c!"ATTR_FUNCNAME", c!"FuncName"), (c!"ATTR_COMMENT", c!"Comment") ]
  | .missingFile .. => [ (c!"ATTR_FILENAME", c!"Filename"), (c!"ATTR_STATEMENT", c!"Statement") ]
  | .addPylib .. => [ (c!"ATTR_PATH", c!"Path"), (c!"ATTR_NAMESPACE", c!"Namespace") ]
  | .addFragements .. => [ (c!"ATTR_PATH", c!"Path"), (c!"ATTR_VARIABLE", c!"Variable"),
                           (c!"ATTR_FLAGGED", c!"Flagged") ]
  | .includeAll _ => [ (c!"ATTR_FILE", c!"File") ]
  | .inherit .. => [ (c!"ATTR_STATEMENT", c!"Statement"), (c!"ATTR_CLASS", c!"Class") ]
  | .unset .. => [ (c!"ATTR_VARNAME", c!"VarName"), (c!"ATTR_FLAG", c!"Flag") ]

end Oelint

import Verif.Model.StashOps
/-!
# `Stash` with its caches

`/repo/oelint_parser/cls_stash.py` again, now with the `functools.cache` decorators (lines 302-361, 376, 571, 594, 613, 646, 807, 837,
860, 884, 898, 919) and `_clear_cached` (141-155).  All operations run on a stash together with the remembered results.

* A `functools.cache` is one dictionary per decorated function, keyed by the arguments; here the dictionaries of all functions are
  one, and the function is part of the key.  Exceptions are not remembered.
* Arguments that are objects are looked up by identity.  `Item.ident` is the part of an item that no operation of the stash changes
  (it contains the identity number), so keys and remembered lists hold `ident`s.
* `SafeLineSplit`, `GuessRecipeName`, `GuessBaseRecipeName` and `GuessRecipeVersion` (671, 683, 696, 712) depend on their arguments
  only; their caches are left out.  `GetLayerRoot` and `FindLocalOrLayer` (594, 613) depend on the file system, which the `World`
  of one call fixes; two calls may be made in two worlds (C101).
* Simplified: the cache is per class and keyed by the stash; here there is one stash.  Results are values here; that a
  caller who changes a returned list or set changes the remembered one is `Spec.CStash.change` (C87).
-/
namespace Oelint
variable [Uni]

/-- what stays the same of an item object while `Line` and `IncludedFrom` are changed by the stash
(`/repo/oelint_parser/cls_stash.py:205,217,297`) -/
def Item.ident (x : Item) : Item := { x with line := 0, includedFrom := [] }

/-- the decorated functions and their arguments -/
inductive CKey where
  /-- `__is_linked_to`, `/repo/oelint_parser/cls_stash.py:345-347` -/
  | linked (x : Item) (file : Str) (nolink : Bool)
  /-- `__get_items_by_file`, `/repo/oelint_parser/cls_stash.py:349-353` -/
  | byFile (l : List Item) (file : Str) (nolink : Bool)
  /-- `__get_items_by_classifier`, `/repo/oelint_parser/cls_stash.py:355-359` -/
  | byClassifier (l : List Item) (cs : List Str)
  /-- `__get_items_by_attribute`, `/repo/oelint_parser/cls_stash.py:361-374` -/
  | byAttribute (l : List Item) (names vals : List Str)
  /-- `GetRecipes`, `/repo/oelint_parser/cls_stash.py:302-309` -/
  | recipes
  /-- `GetLoneAppends`, `/repo/oelint_parser/cls_stash.py:311-325` -/
  | loneAppends
  /-- `GetConfFiles`, `/repo/oelint_parser/cls_stash.py:327-334` -/
  | confFiles
  /-- `GetBBClasses`, `/repo/oelint_parser/cls_stash.py:336-343` -/
  | bbClasses
  /-- `GetLinksForFile`, `/repo/oelint_parser/cls_stash.py:376-388` -/
  | links (file : Str)
  /-- `GetFiles`, `/repo/oelint_parser/cls_stash.py:571-592` -/
  | files (file pattern : Str)
  /-- `GetScrComponents`, `/repo/oelint_parser/cls_stash.py:646-669` -/
  | scr (s : Str)
  /-- `GetValidPackageNames`, `/repo/oelint_parser/cls_stash.py:807-835` -/
  | packageNames (file : Str) (strippn : Bool)
  /-- `GetValidNamedResources`, `/repo/oelint_parser/cls_stash.py:837-858` -/
  | namedResources (file : Str)
  /-- `IsImage`, `/repo/oelint_parser/cls_stash.py:860-882` -/
  | isImage (file : Str)
  /-- `IsPackageGroup`, `/repo/oelint_parser/cls_stash.py:884-896` -/
  | isPackageGroup (file : Str)
  /-- `GetPackagesDynamic`, `/repo/oelint_parser/cls_stash.py:898-917` -/
  | packagesDynamic (file : Str)
  /-- `IsDynamicPackage`, `/repo/oelint_parser/cls_stash.py:919-935` -/
  | isDynamicPackage (file name : Str)
  /-- `GetLayerRoot`, `/repo/oelint_parser/cls_stash.py:594-611` -/
  | layerRoot (name : Str)
  /-- `FindLocalOrLayer`, `/repo/oelint_parser/cls_stash.py:613-636` -/
  | found (name dir : Str)
  deriving DecidableEq

/-- a remembered result -/
inductive CVal where
  | bool (b : Bool)
  | items (l : List Item)
  | strs (l : List Str)
  | comps (c : SrcComponents)
  | str (s : Str)
  deriving DecidableEq

/-- which caches `_clear_cached` empties, `/repo/oelint_parser/cls_stash.py:141-155` -/
def CKey.cleared : CKey → Bool
  | .bbClasses | .scr _ | .packagesDynamic _ | .isDynamicPackage .. | .layerRoot _ | .found .. => false
  | _ => true

/-- a stash and its caches -/
structure CStash where
  base : Stash
  tab : List (CKey × CVal)

/-- `_clear_cached`, `/repo/oelint_parser/cls_stash.py:141-155` -/
def CStash.clear (c : CStash) : CStash := { c with tab := c.tab.filter (fun e => !e.1.cleared) }

/-- a method of the stash with caches -/
def CM (α : Type) := CStash → Except PyErr α × CStash

namespace CM
variable {α β : Type}
/-- return a value -/
protected def pure (a : α) : CM α := fun c => (.ok a, c)
/-- sequence -/
protected def bind (x : CM α) (f : α → CM β) : CM β := fun c =>
  match x c with
  | (.ok a, c') => f a c'
  | (.error e, c') => (.error e, c')
instance : Monad CM where
  pure := CM.pure
  bind := CM.bind
/-- a pure computation that may raise -/
def lift (x : Except PyErr α) : CM α := fun c => (x, c)
/-- an uncached question about the current state -/
def ask (f : Stash → Except PyErr α) : CM α := fun c => (f c.base, c)
/-- something that touches no cache -/
def base (x : M α) : CM α := fun c => ((x c.base).1, { c with base := (x c.base).2 })
/-- `self._clear_cached()` -/
def clear : CM Unit := fun c => (.ok (), c.clear)
end CM

/-- a call of a function decorated with `functools.cache` -/
def memo (k : CKey) (x : CM CVal) : CM CVal := fun c =>
  match c.tab.lookup k with
  | some v => (.ok v, c)
  | none =>
    match x c with
    | (.ok v, c') => (.ok v, { c' with tab := (k, v) :: c'.tab })
    | (.error e, c') => (.error e, c')

/-- the remembered value as a bool -/
def CVal.toBool : CVal → Bool
  | .bool b => b
  | _ => false
/-- the remembered value as a list of strings -/
def CVal.toStrs : CVal → List Str
  | .strs l => l
  | _ => []
/-- the remembered value as components -/
def CVal.toComps : CVal → SrcComponents
  | .comps c => c
  | _ => { scheme := [], src := [], options := [] }
/-- the remembered value as a string -/
def CVal.toStr : CVal → Str
  | .str s => s
  | _ => []
/-- the remembered objects among those the function was called with -/
def CVal.among (v : CVal) (args : List Item) : List Item :=
  match v with
  | .items r => args.filter (fun x => r.contains x.ident)
  | _ => []

/-- `for x in l` with a call in the body -/
def cMap {α β : Type} (f : α → CM β) : List α → CM (List β)
  | [] => pure []
  | x :: xs => do
    let y ← f x
    let ys ← cMap f xs
    pure (y :: ys)

/-! ## filters -/

/-- `__is_linked_to`, `/repo/oelint_parser/cls_stash.py:345-347` -/
def cLinked (file : Str) (nolink : Bool) (x : Item) : CM Bool := do
  let v ← memo (.linked x.ident file nolink) (CM.ask (fun s => .ok (.bool (isLinkedTo s x file nolink))))
  pure v.toBool

/-- `[x for x in items if self.__is_linked_to(x, filename, nolink=nolink)]`, `/repo/oelint_parser/cls_stash.py:353` -/
def cLinkedFilter (file : Str) (nolink : Bool) : List Item → CM (List Item)
  | [] => pure []
  | x :: xs => do
    let b ← cLinked file nolink x
    let r ← cLinkedFilter file nolink xs
    pure (if b then x :: r else r)

/-- `__get_items_by_file`, `/repo/oelint_parser/cls_stash.py:349-353`, for a non-empty file name -/
def cByFile (l : List Item) (file : Str) (nolink : Bool) : CM (List Item) := do
  let v ← memo (.byFile (l.map Item.ident) file nolink) do
    let r ← cLinkedFilter file nolink l
    pure (.items (r.map Item.ident))
  pure (v.among l)

/-- `__get_items_by_classifier`, `/repo/oelint_parser/cls_stash.py:355-359` -/
def cByClassifier (l : List Item) (cs : List Str) : CM (List Item) := do
  let v ← memo (.byClassifier (l.map Item.ident) cs) (pure (.items ((getItemsByClassifier l cs).map Item.ident)))
  pure (v.among l)

/-- `__get_items_by_attribute`, `/repo/oelint_parser/cls_stash.py:361-374` -/
def cByAttribute (l : List Item) (names vals : List Str) : CM (List Item) := do
  let v ← memo (.byAttribute (l.map Item.ident) names vals) (pure (.items ((getItemsByAttribute l names vals).map Item.ident)))
  pure (v.among l)

/-- `/repo/oelint_parser/cls_stash.py:416-418` -/
def cStepFile (f : Filter) (l : List Item) : CM (List Item) :=
  match f.filename with
  | some fn => if fn.isEmpty then pure l else cByFile l fn f.nolink
  | none => pure l

/-- `/repo/oelint_parser/cls_stash.py:419-421` -/
def cStepClassifier (f : Filter) (l : List Item) : CM (List Item) :=
  if f.classifier.norm.isEmpty then pure l else cByClassifier l f.classifier.norm

/-- `/repo/oelint_parser/cls_stash.py:422-424` -/
def cStepAttribute (f : Filter) (l : List Item) : CM (List Item) :=
  if f.attname.norm.isEmpty then pure l else cByAttribute l f.attname.norm f.attvalue.norm

/-- the filters of `Reduce`, `/repo/oelint_parser/cls_stash.py:416-424` -/
def cApplyFilter (l : List Item) (f : Filter) : CM (List Item) := do
  let l ← cStepFile f l
  let l ← cStepClassifier f l
  cStepAttribute f l

/-- `Reduce`, `/repo/oelint_parser/cls_stash.py:390-425` -/
def cReduce (W : World) (l : List Item) (f : Filter) : CM (List Item) := do
  let r ← cApplyFilter l f
  pure (sortBy lineLe (W.itemOrder (dedup r)))

/-- `GetItemsFor`, `/repo/oelint_parser/cls_stash.py:390-451` -/
def cItemsFor (W : World) (f : Filter) : CM (List Item) := do
  let l ← CM.ask (fun s => .ok s.items)
  cReduce W l f

/-! ## ExpandTerm -/

/-- `sourceOf` when the assignments are at hand, `/repo/oelint_parser/cls_stash.py:757-791` -/
def sourceFrom (l : List (Item × VarData)) (baseset : J) (file name quote : Str) : Except PyErr Source :=
  match l with
  | (x, v) :: _ => .ok (.text (assignmentText x v))
  | [] =>
    if baseset.has name then
      match baseset with
      | .dict d => match d.get name with
        | some (.str t) => .ok (.text t)
        | _ => .error .typeError
      | _ => .error .typeError
    else if name == c!"PN" then .ok (.lit (guessRecipeName file))
    else if name == c!"BPN" then .ok (.lit (guessBaseRecipeName file))
    else if name == c!"PV" then .ok (.lit (match guessRecipeVersion file with
      | some v => if v.isEmpty then c!"1.0" else v
      | none => c!"1.0"))
    else if name == c!"FILE" then .ok (.lit (quote ++ file ++ quote))
    else if name == c!"THISDIR" then .ok (.lit (quote ++ dirname file ++ quote))
    else .ok .keep

/-- `_expand`, `/repo/oelint_parser/cls_stash.py:752-792` -/
def cExpandOne (W : World) (baseset : J) (rec : Str → Seen → CM (Str × Seen)) (file : Str) (spare : List Str) (quote : Str)
    (m : Mt) (res : Str) (seen : Seen) : CM (Str × Seen) :=
  let name := (m.group 1).getD []
  if spare.contains name then pure (res, seen)
  else do
    let l ← cItemsFor W (varFilter file name)
    match sourceFrom (l.filterMap asAssignment) baseset file name quote with
    | .error e => CM.lift (.error e)
    | .ok .keep => pure (res, seen)
    | .ok (.lit t) => pure (replaceAll m.text t res, seen)
    | .ok (.text t) =>
      match dget name seen with
      | some r => pure (replaceAll m.text r res, seen)
      | none => do
        let rs ← rec t (dset name [] seen)
        pure (replaceAll m.text rs.1 res, dset name rs.1 rs.2)

/-- the loops `/repo/oelint_parser/cls_stash.py:793-796` -/
def cExpandMany (W : World) (baseset : J) (rec : Str → Seen → CM (Str × Seen)) (file : Str) (spare : List Str) (quote : Str) :
    List Mt → Str → Seen → CM (Str × Seen)
  | [], res, seen => pure (res, seen)
  | m :: ms, res, seen => do
    let rs ← cExpandOne W baseset rec file spare quote m res seen
    cExpandMany W baseset rec file spare quote ms rs.1 rs.2

/-- the loop `/repo/oelint_parser/cls_stash.py:797-804` -/
def cReadFiles (W : World) (rec : Str → Seen → CM (Str × Seen)) : List Mt → Str → Seen → CM (Str × Seen)
  | [], res, seen => pure (res, seen)
  | m :: ms, _, seen => do
    let ps ← rec ((reOeUtilsReadFile.group m c!"file").getD []) seen
    let seen' := if seen.isEmpty then seen else ps.2
    match W.file (stripP (oneOf c!"'\"") ps.1) with
    | .text t => cReadFiles W rec ms (univNewlines t) seen'
    | .notFound => cReadFiles W rec ms [] seen'
    | .denied => cReadFiles W rec ms [] seen'
    | .fails => CM.lift (.error .osError)

/-- `ExpandTerm(_file, value, spare, seen)`, `/repo/oelint_parser/cls_stash.py:745-805` -/
def cExpandTermF (W : World) : Nat → Str → List Str → Str → Seen → CM (Str × Seen)
  | 0, _, _, _, _ => CM.lift (.error .recursionError)
  | fuel + 1, file, spare, value, seen => do
    let baseset ← CM.ask (fun s => setsBase s.consts)
    let rec0 := fun v sn => cExpandTermF W fuel file [] v sn
    let recS := fun v sn => cExpandTermF W fuel file spare v sn
    let r1 ← cExpandMany W baseset rec0 file spare [] (reFinditer reVariablePattern.re value) value seen
    let r2 ← cExpandMany W baseset rec0 file spare c!"\"" (reFinditer reVariablePattern2.re value) r1.1 r1.2
    cReadFiles W recS (reFinditer reOeUtilsReadFile.re value) r2.1 r2.2

/-- `ExpandTerm(_file, value, spare)`, `/repo/oelint_parser/cls_stash.py:732-805` -/
def cExpandTermS (W : World) (file : Str) (spare : List Str) (value : Str) : CM Str := do
  let n ← CM.ask (fun s => .ok (expandBound s value))
  let r ← cExpandTermF W n file spare value []
  pure r.1

/-- `ExpandTerm(_file, value)` -/
def cExpandTerm (W : World) (file value : Str) : CM Str := cExpandTermS W file [] value

/-! ## the other questions -/

/-- last loop of `ExpandVar`, `/repo/oelint_parser/cls_stash.py:562-568` -/
def cExplode (W : World) (file : Str) : ExpDict → List (Str × List Str) → CM (List (Str × List Str))
  | [], acc => pure acc
  | (k, v) :: rest, acc => do
    let key ← cExpandTerm W file k
    let val ← cExpandTerm W file (v.getD [])
    cExplode W file rest (dset key ((dget key acc).getD [] ++ safeLinesplit val) acc)

/-- `ExpandVar`, `/repo/oelint_parser/cls_stash.py:453-569` -/
def cExpandVar (W : World) (filename : Option Str) (att val : Arg) (nolink : Bool) : CM (List (Str × List Str)) := do
  let a ← cItemsFor W { filename, classifier := .one c!"Variable", attname := att, attvalue := val, nolink }
  let b ← cItemsFor W { filename, classifier := .one c!"Unset" }
  let res := a ++ b
  let file? := match filename with
    | some f => some f
    | none => res.head?.map (·.origin)
  match file? with
  | none => pure []
  | some file => do
    let d ← CM.ask (fun s => expInit s file)
    let sorted := sortBy lineLe res
    cExplode W file (passRemove sorted (passAppend sorted (passImmediate sorted d))) []

/-- `GetRecipes`, `/repo/oelint_parser/cls_stash.py:302-309` -/
def cRecipes : CM (List Str) := do
  let v ← memo .recipes (CM.ask (fun s => .ok (.strs (getRecipes s))))
  pure v.toStrs

/-- `GetLoneAppends`, `/repo/oelint_parser/cls_stash.py:311-325` -/
def cLoneAppends : CM (List Str) := do
  let v ← memo .loneAppends (CM.ask (fun s => .ok (.strs (getLoneAppends s))))
  pure v.toStrs

/-- `GetConfFiles`, `/repo/oelint_parser/cls_stash.py:327-334` -/
def cConfFiles (W : World) : CM (List Str) := do
  let v ← memo .confFiles (CM.ask (fun s => .ok (.strs (getConfFiles W s))))
  pure v.toStrs

/-- `GetBBClasses`, `/repo/oelint_parser/cls_stash.py:336-343` -/
def cBBClasses : CM (List Str) := do
  let v ← memo .bbClasses (CM.ask (fun s => .ok (.strs (getBBClasses s))))
  pure v.toStrs

/-- `GetLinksForFile`, `/repo/oelint_parser/cls_stash.py:376-388`. It calls `__get_items_by_file` with a set; nobody else does, and
both caches are emptied together, so that call never finds a remembered result. -/
def cLinksForFile (W : World) (file : Str) : CM (List Str) := do
  let v ← memo (.links file) (
    if file.isEmpty then pure (.strs [])
    else do
      let l ← CM.ask (fun s => .ok (W.itemOrder (dedup s.items)))
      let r ← cLinkedFilter file false l
      pure (.strs ((r.filter (fun x => x.origin != file)).map (·.origin))))
  pure v.toStrs

/-- `GetFiles`, `/repo/oelint_parser/cls_stash.py:571-592` -/
def cFiles (W : World) (file pattern : Str) : CM (List Str) := do
  let v ← memo (.files file pattern) (do
    let uris ← cItemsFor W (varFilter file c!"SRC_URI")
    let path := fun (x : Item) => dirname x.origin ++ c!"/*/" ++ pattern
    let more ← cMap (fun i => do
      let l ← cItemsFor W { filename := some i.origin }
      pure (l.map path)) uris
    let paths := uris.map path ++ more.flatten
    pure (.strs (sortBy strLe (dedup ((dedup paths).map W.glob).flatten))))
  pure v.toStrs

/-- `GetScrComponents`, `/repo/oelint_parser/cls_stash.py:646-669` -/
def cScrComponents (W : World) (string : Str) : CM SrcComponents := do
  let v ← memo (.scr string) (CM.ask (fun s => (getScrComponents W s string).map .comps))
  pure v.toComps

/-- the loop over the variables, `/repo/oelint_parser/cls_stash.py:828-834` -/
def cPackageLoop (W : World) (file pn : Str) (strippn : Bool) : List VarData → List Str → CM (List Str)
  | [], res => pure res
  | v :: vs, res => do
    let t ← cExpandTermS W file [c!"PN"] (varValueStripped v)
    let ws := (stashSafeLineSplit t).filter (fun x => !x.isEmpty)
    cPackageLoop W file pn strippn vs
      (ws.foldl (fun r pkg => sadd r (replaceAll c!"${PN}" (if strippn then [] else pn) pkg)) res)

/-- `GetValidPackageNames`, `/repo/oelint_parser/cls_stash.py:807-835` -/
def cPackageNames (W : World) (file : Str) (strippn : Bool) : CM (List Str) := do
  let v ← memo (.packageNames file strippn) (do
    let a ← cItemsFor W (varFilter file c!"PACKAGES")
    let b ← cItemsFor W (varFilter file c!"PACKAGE_BEFORE_PN")
    let comp := varsOf (a ++ b)
    let r ← cPackageLoop W file c!"${PN}" strippn comp ((stdPackages c!"${PN}").foldl sadd [])
    let r ← cPackageLoop W file (guessRecipeName file) strippn comp ((stdPackages (guessRecipeName file)).foldl sadd r)
    pure (.strs r))
  pure v.toStrs

/-- the loops `/repo/oelint_parser/cls_stash.py:852-857` -/
def cNamedLoop (W : World) (pn : Str) : List Str → List Str → CM (List Str)
  | [], res => pure res
  | w :: ws, res => do
    let url ← cScrComponents W w
    match dget c!"name" url.options with
    | some n => cNamedLoop W pn ws (sadd res (replaceAll c!"${PN}" pn n))
    | none => cNamedLoop W pn ws res

/-- `GetValidNamedResources`, `/repo/oelint_parser/cls_stash.py:837-858` -/
def cNamedResources (W : World) (file : Str) : CM (List Str) := do
  let v ← memo (.namedResources file) (do
    let a ← cItemsFor W (varFilter file c!"SRC_URI")
    let words := ((varsOf a).map (fun v => (stashSafeLineSplit (varValueStripped v)).filter (fun x => !x.isEmpty))).flatten
    let r ← cNamedLoop W (guessRecipeName file) words [guessRecipeName file]
    pure (.strs r))
  pure v.toStrs

/-- `IsImage`, `/repo/oelint_parser/cls_stash.py:860-882`; as in `isImage` the constants are read first -/
def cIsImage (W : World) (file : Str) : CM Bool := do
  let v ← memo (.isImage file) (do
    let classes ← CM.ask (fun s => imagesClasses s.consts)
    let vars ← CM.ask (fun s => imagesVariables s.consts)
    let inh ← cItemsFor W (inheritFilter file)
    let found ← cMap (fun v => cItemsFor W (varFilter file v)) vars.elems
    pure (.bool (inh.any (fun i => i.getItems.any classes.has) || found.any (fun l => !l.isEmpty))))
  pure v.toBool

/-- `IsPackageGroup`, `/repo/oelint_parser/cls_stash.py:884-896` -/
def cIsPackageGroup (W : World) (file : Str) : CM Bool := do
  let v ← memo (.isPackageGroup file) (do
    let inh ← cItemsFor W (inheritFilter file)
    pure (.bool (inh.any (fun i => i.getItems.contains c!"packagegroup"))))
  pure v.toBool

/-- the loop of `GetPackagesDynamic`, `/repo/oelint_parser/cls_stash.py:913-915` -/
def cDynLoop (W : World) (file : Str) : List VarData → List Str → CM (List Str)
  | [], res => pure res
  | v :: vs, res => do
    let t ← cExpandTerm W file (varValueStripped v)
    cDynLoop W file vs ((stashSafeLineSplit t).foldl sadd res)

/-- `GetPackagesDynamic`, `/repo/oelint_parser/cls_stash.py:898-917` -/
def cPackagesDynamic (W : World) (file : Str) : CM (List Str) := do
  let v ← memo (.packagesDynamic file) (do
    let l ← cItemsFor W (varFilter file c!"PACKAGES_DYNAMIC")
    let r ← cDynLoop W file (varsOf l) []
    pure (.strs r))
  pure v.toStrs

/-- `IsDynamicPackage`, `/repo/oelint_parser/cls_stash.py:919-935` -/
def cIsDynamicPackage (W : World) (file name : Str) : CM Bool := do
  let v ← memo (.isDynamicPackage file name) (do
    let expanded ← cExpandTerm W file name
    let pats ← cPackagesDynamic W file
    let r ← CM.lift (anyMatch expanded (W.strOrder pats))
    pure (.bool r))
  pure v.toBool

/-! ## places of files -/

/-- `GetLayerRoot`, `/repo/oelint_parser/cls_stash.py:594-611` -/
def cLayerRoot (W : World) (name : Str) : CM Str := do
  let v ← memo (.layerRoot name) (CM.lift ((getLayerRoot W name).map .str))
  pure v.toStr

/-- `FindLocalOrLayer`, `/repo/oelint_parser/cls_stash.py:613-636` -/
def cFindLocalOrLayer (W : World) (name dir : Str) : CM Str := do
  let v ← memo (.found name dir) (CM.lift ((findLocalOrLayer W name dir).map .str))
  pure v.toStr

/-- the search over locations `/repo/oelint_parser/parser.py:336-342,363-369`; `''` when nothing is found -/
def cFindClass (W : World) (dir inh : Str) : List Str → CM Str
  | [] => pure []
  | loc :: locs => do
    let p ← cFindLocalOrLayer W (pathJoin loc inh) dir
    if p.isEmpty then cFindClass W dir inh locs else pure p

/-- `AddDistroMachineFromLayer` when the root is known, `/repo/oelint_parser/cls_stash.py:277-283` -/
def addLayerConfs (W : World) (root : Str) : M Unit :=
  if root.isEmpty then pure ()
  else do
    addConfs c!"distros" (W.glob (pathJoin (pathJoin (pathJoin root c!"conf") c!"distro") c!"*.conf"))
    addConfs c!"machines" (W.glob (pathJoin (pathJoin (pathJoin root c!"conf") c!"machine") c!"*.conf"))

/-- `AddDistroMachineFromLayer`, `/repo/oelint_parser/cls_stash.py:270-283` -/
def cAddDistroMachine (W : World) (path : Str) : CM Unit := do
  let root ← cLayerRoot W path
  CM.base (addLayerConfs W root)

/-! ## AddFile -/

/-- type of `AddFile` with caches -/
abbrev CAddFn := Str → Int → Option Str → CM (List Item)

/-- `/repo/oelint_parser/parser.py:333-350,360-377` -/
def cInheritLoop (W : World) (add : CAddFn) (file : Str) (lineno : Int) (inhname : Str) (locs : List Str) :
    List Str → List Str → Int → CM (List Str × Int)
  | [], found, off => pure (found, off)
  | inh :: rest, found, off => do
    let path ← cFindClass W (dirname file) (withBbclass inh) locs
    if path.isEmpty then cInheritLoop W add file lineno inhname locs rest found off
    else
      let ign ← CM.ask (fun s => classIgnore s.consts)
      if ign.has inhname then cInheritLoop W add file lineno inhname locs rest found off
      else
        let found := if found.contains path then found else found ++ [path]
        let tmp ← add path lineno (some file)
        cInheritLoop W add file lineno inhname locs rest found (off + maxInFileLine tmp)

/-- `/repo/oelint_parser/parser.py:294-465`; only `inherit`, `INHERIT` and `include` ask the stash -/
def cHandleKind (W : World) (add : CAddFn) (file : Str) (lineno : Int) (p : Params) (k : Kind) (pat : Pattern) (m : Mt) :
    CM (Option (Item × Int)) :=
  let g := fun n => (pat.group m n).getD []
  match k with
  | .inherit => do
    let inhname ← cExpandTerm W file (g c!"inhname")
    let (found, off) ← cInheritLoop W add file lineno inhname [c!"classes", c!"classes-recipe", c!"classes-global"]
      (splitNE ' ' inhname) [] 0
    let uid ← CM.base freshUid
    pure (some (mkItem uid p (.inherit (g c!"statement") (g c!"inhname") found), off))
  | .inheritGlob => do
    let inhname ← cExpandTerm W file (g c!"inhname")
    let (found, off) ← cInheritLoop W add file lineno inhname [c!"classes", c!"classes-global"]
      (splitNE ' ' inhname) [] 0
    let uid ← CM.base freshUid
    pure (some (mkItem uid p (.inherit c!"INHERIT" (g c!"inhname") found), off))
  | .include => do
    let name ← cExpandTerm W file (g c!"incname")
    let path ← cFindLocalOrLayer W name (dirname file)
    if path.isEmpty then do
      let uid ← CM.base freshUid
      pure (some (mkItem uid p (.include (g c!"incname") [] (g c!"statement")), 0))
    else
      let ign ← CM.ask (fun s => includeIgnore s.consts)
      if ign.has name then pure none
      else
        let tmp ← add path lineno (some file)
        let uid ← CM.base freshUid
        pure (some (mkItem uid p (.include (g c!"incname") path (g c!"statement")), maxInFileLine tmp))
  | k => CM.base (handleKind W (fun _ _ _ => M.raise .recursionError) file lineno p k pat m)

/-- `/repo/oelint_parser/parser.py:291-467` -/
def cClassify (W : World) (add : CAddFn) (file : Str) (lineno : Int) (p : Params) (cnt : Str) :
    List (Kind × Pattern) → CM (Item × Int)
  | [] => do
    let uid ← CM.base freshUid
    pure (mkItem uid p .item, 0)
  | (k, pat) :: rest =>
    match reMatch pat.re cnt with
    | none => cClassify W add file lineno p cnt rest
    | some m => do
      match ← cHandleKind W add file lineno p k pat m with
      | some r => pure r
      | none => cClassify W add file lineno p cnt rest

/-- `/repo/oelint_parser/parser.py:280-468` -/
def cItemsLoop (W : World) (add : CAddFn) (file : Str) (lineOffset : Int) : Int → Bool → List Chunk → CM (List Item)
  | _, _, [] => pure []
  | includeOffset, newStyle, c :: cs => do
    let (it, off) ← cClassify W add file c.line (chunkParams file lineOffset includeOffset newStyle c) c.cnt parseOrder
    let rest ← cItemsLoop W add file lineOffset (includeOffset + off) (newStyle || it.isNewStyle) cs
    pure (it :: rest)

/-- `get_items`, `/repo/oelint_parser/parser.py:235-470` -/
def cGetItems (W : World) (add : CAddFn) (file : Str) (lineOffset : Int) (newStyle neg : Bool) : CM (List Item) := do
  let file := if isAbs file then file else abspath W.cwd file
  let chunks ← CM.lift (prepareLines W file lineOffset neg)
  cItemsLoop W add file lineOffset 0 newStyle chunks

/-- `AddFile`, `/repo/oelint_parser/cls_stash.py:157-229` -/
def cAddFile (W : World) : Nat → CAddFn
  | 0, _, _, _ => CM.lift (.error .recursionError)
  | fuel + 1, path, lineOffset, forced => do
    let file := abspath W.cwd path
    let s ← CM.ask (fun s => .ok s)
    if alreadySeen s file then pure []
    else do
      CM.base (M.modify (fun s => markSeen s file))
      let res ← cGetItems W (cAddFile W fuel) file lineOffset s.newStyle s.negative
      CM.base (M.modify (fun s => { s with map := enterMap s.map file forced }))
      let res ← CM.base (crossLink file res)
      cAddDistroMachine W file
      CM.base (M.modify (commitItems W res))
      CM.clear
      pure res

/-! ## Append, Remove, Finalize -/

/-- `Append`, `/repo/oelint_parser/cls_stash.py:240-253` -/
def cAppend (l : List Item) : CM Unit := do
  CM.base (M.modify (fun s => appendItems s l))
  CM.clear

/-- `Remove`, `/repo/oelint_parser/cls_stash.py:255-268`: an exception leaves the caches as they are -/
def cRemove (l : List Item) : CM Unit := do
  CM.base (removeItems l)
  CM.clear

/-- `/repo/oelint_parser/cls_stash.py:289-293` -/
def closeM (W : World) : M (List (Str × List Str)) := fun s =>
  match closeLoop W (s.map.map (·.1)) s.map with
  | (.error e, m) => (.error e, { s with map := m })
  | (.ok (), m) => (.ok m, { s with map := m })

/-- `/repo/oelint_parser/cls_stash.py:295-297` -/
def cIncludedLoop (W : World) : List (Str × List Str) → CM Unit
  | [] => pure ()
  | (k, v) :: rest => do
    let l ← cItemsFor W { filename := some k }
    CM.base (M.modify (fun s => { s with items := s.items.map (fun x => if l.contains x then addIncluded v x else x) }))
    cIncludedLoop W rest

/-- `Finalize`, `/repo/oelint_parser/cls_stash.py:285-300`: the caches are emptied at the end only -/
def cFinalize (W : World) : CM Unit := do
  let m ← CM.base (closeM W)
  cIncludedLoop W m
  CM.clear

end Oelint

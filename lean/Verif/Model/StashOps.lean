import Verif.Model.Parser
/-!
# The other methods of `Stash`

`/repo/oelint_parser/cls_stash.py:231-343,453-592,807-935`, without caching.
-/
namespace Oelint
variable [Uni]

/-- `FingerPrint`, `/repo/oelint_parser/cls_stash.py:231-238` -/
def fingerPrint (W : World) (s : Stash) : Str := W.sha1 s.hashed

/-- `Append`, `/repo/oelint_parser/cls_stash.py:240-253`; a single item is a list of one -/
def appendItems (s : Stash) (l : List Item) : Stash := { s with items := s.items ++ l }

/-- `list.remove` for one item: the first occurrence goes, `ValueError` when there is none -/
def removeOne (x : Item) : List Item → Option (List Item)
  | [] => none
  | y :: ys => if y = x then some ys else (removeOne x ys).map (y :: ·)

/-- `Remove`, `/repo/oelint_parser/cls_stash.py:255-268`; items removed before the exception stay removed -/
def removeItems : List Item → M Unit
  | [] => pure ()
  | x :: xs => fun s =>
    match removeOne x s.items with
    | none => (.error .valueError, s)
    | some l => removeItems xs { s with items := l }

/-! ## Finalize -/

/-- `for item in self.__map[k][:]: self.__map[k] += self.__map[item]`, `/repo/oelint_parser/cls_stash.py:290-291` -/
def linkLoop (k : Str) : List Str → List (Str × List Str) → Except PyErr Unit × List (Str × List Str)
  | [], m => (.ok (), m)
  | item :: rest, m =>
    match dget item m with
    | none => (.error .keyError, m)
    | some l => linkLoop k rest (dset k ((dget k m).getD [] ++ l) m)

/-- `/repo/oelint_parser/cls_stash.py:289-293`: one pass over the keys in insertion order; `list(set(..))` has an
arbitrary order -/
def closeLoop (W : World) : List Str → List (Str × List Str) → Except PyErr Unit × List (Str × List Str)
  | [], m => (.ok (), m)
  | k :: ks, m =>
    match linkLoop k ((dget k m).getD []) m with
    | (.error e, m') => (.error e, m')
    | (.ok (), m') => closeLoop W ks (dset k (W.strOrder (dedup ((dget k m').getD [] ++ [k]))) m')

/-- `IncludedFrom = v`, `/repo/oelint_parser/cls_item.py:149-151`: the setter adds to the set -/
def addIncluded (v : List Str) (x : Item) : Item :=
  { x with includedFrom := x.includedFrom ++ (dedup v).filter (fun f => !x.includedFrom.contains f) }

/-- `/repo/oelint_parser/cls_stash.py:295-297`: the objects in the result of `GetItemsFor(k)` are those in the stash -/
def includedLoop (W : World) : List (Str × List Str) → Stash → Stash
  | [], s => s
  | (k, v) :: rest, s =>
    let l := getItemsFor W s { filename := some k }
    includedLoop W rest { s with items := s.items.map (fun x => if l.contains x then addIncluded v x else x) }

/-- `Finalize`, `/repo/oelint_parser/cls_stash.py:285-300`, starting from empty caches -/
def finalize (W : World) : M Unit := fun s =>
  match closeLoop W (s.map.map (·.1)) s.map with
  | (.error e, m) => (.error e, { s with map := m })
  | (.ok (), m) => (.ok (), includedLoop W m { s with map := m })

/-! ## file lists -/

/-- `GetRecipes`, `/repo/oelint_parser/cls_stash.py:302-309` -/
def getRecipes (s : Stash) : List Str := sortBy strLe (dedup ((s.map.map (·.1)).filter (endsWith c!".bb")))

/-- `GetLoneAppends`, `/repo/oelint_parser/cls_stash.py:311-325` -/
def getLoneAppends (s : Stash) : List Str :=
  let appends := (s.items.map (·.origin)).filter (endsWith c!".bbappend")
  let linked := ((s.map.filter (fun kv => endsWith c!".bb" kv.1)).map (·.2)).flatten.filter (endsWith c!".bbappend")
  sortBy strLe (dedup (appends.filter (fun x => !linked.contains x)))

/-- `GetConfFiles`, `/repo/oelint_parser/cls_stash.py:327-334`: an unsorted `list({..})` -/
def getConfFiles (W : World) (s : Stash) : List Str :=
  W.strOrder (dedup ((s.items.map (·.origin)).filter (endsWith c!".conf")))

/-- `GetBBClasses`, `/repo/oelint_parser/cls_stash.py:336-343` -/
def getBBClasses (s : Stash) : List Str :=
  sortBy strLe (dedup ((s.items.map (·.origin)).filter (endsWith c!".bbclass")))

/-- `GetFiles`, `/repo/oelint_parser/cls_stash.py:571-592` -/
def getFiles (W : World) (s : Stash) (file pattern : Str) : List Str :=
  let uris := getItemsFor W s (varFilter file c!"SRC_URI")
  let path := fun (x : Item) => dirname x.origin ++ c!"/*/" ++ pattern
  let paths := uris.map path ++
    (uris.map (fun i => (getItemsFor W s { filename := some i.origin }).map path)).flatten
  sortBy strLe (dedup ((dedup paths).map W.glob).flatten)

/-! ## ExpandVar -/

/-- the dictionary `_exp`; `None` is `none` -/
abbrev ExpDict := List (Str × Option Str)

/-- `{**_exp, **CONSTANTS.SetsBase}`, `/repo/oelint_parser/cls_stash.py:488`. Simplified: a base set value that is not a
string raises here already. -/
def mergeBase : List (Str × J) → ExpDict → Except PyErr ExpDict
  | [], d => .ok d
  | (k, .str v) :: rest, d => mergeBase rest (dset k (some v) d)
  | _ :: _, _ => .error .typeError

/-- `/repo/oelint_parser/cls_stash.py:483-488` -/
def expInit (s : Stash) (file : Str) : Except PyErr ExpDict :=
  let d : ExpDict :=
    [ (c!"PN", some (guessRecipeName file)),
      (c!"PV", some (match guessRecipeVersion file with
        | some v => if v.isEmpty then c!"1.0" else v
        | none => c!"1.0")),
      (c!"BPN", some (guessBaseRecipeName file)) ]
  match setsBase s.consts with
  | .error e => .error e
  | .ok (.dict b) => mergeBase b.toList d
  | .ok _ => .error .typeError

/-- the immediate operators on the current value of one variable, `/repo/oelint_parser/cls_stash.py:502-525` -/
def immediateOp (x : Item) (v : VarData) (cur : Option Str) : Option Str :=
  let val := varValueStripped v
  if hasSub inlineBlock val then some (reverseInline x.inlineBlocks v)
  else if v.varOp == c!" = " || v.varOp == c!" := " then some val
  else if v.varOp == c!" ?= " && cur.isNone then some val
  else if v.varOp == c!" ??= " && cur.isNone then some val
  else if v.varOp == c!" += " then some (cur.getD [] ++ (c!" " ++ val))
  else if v.varOp == c!" =+ " then some (val ++ c!" " ++ cur.getD [])
  else if v.varOp == c!" .= " then some (cur.getD [] ++ val)
  else if v.varOp == c!" =. " then some (val ++ cur.getD [])
  else cur

/-- first loop, `/repo/oelint_parser/cls_stash.py:489-525`; only variables and unsets can occur -/
def passImmediate : List Item → ExpDict → ExpDict
  | [], d => d
  | x :: rest, d =>
    match x.payload with
    | .unset name flag =>
      if !flag.isEmpty then passImmediate rest d
      else passImmediate rest (if dhas name d then ddel name d else d)
    | .variable v =>
      if !isImmediateModify v then passImmediate rest d
      else
        let name := varNameCompleteNoModifiers x.delim v
        let d := if dhas name d then d else dset name none d
        passImmediate rest (dset name (immediateOp x v ((dget name d).getD none)) d)
    | _ => passImmediate rest d

/-- second loop, `/repo/oelint_parser/cls_stash.py:527-546` -/
def passAppend : List Item → ExpDict → ExpDict
  | [], d => d
  | x :: rest, d =>
    match x.payload with
    | .variable v =>
      if isImmediateModify v then passAppend rest d
      else
        let name := varNameCompleteNoModifiers x.delim v
        let val := varValueStripped v
        match dget name d with
        | none => passAppend rest (dset name (some val) d)
        | some cur =>
          if v.subItems.contains c!"append" then passAppend rest (dset name (some (cur.getD [] ++ val)) d)
          else if v.subItems.contains c!"prepend" then passAppend rest (dset name (some (val ++ cur.getD [])) d)
          else passAppend rest d
    | _ => passAppend rest d

/-- third loop, `/repo/oelint_parser/cls_stash.py:548-560` -/
def passRemove : List Item → ExpDict → ExpDict
  | [], d => d
  | x :: rest, d =>
    match x.payload with
    | .variable v =>
      if isImmediateModify v then passRemove rest d
      else
        let name := varNameCompleteNoModifiers x.delim v
        let d := if dhas name d then d else dset name none d
        if v.subItems.contains c!"remove" then
          passRemove rest (dset name (some (replaceAll (varValueStripped v) [] (((dget name d).getD none).getD []))) d)
        else passRemove rest d
    | _ => passRemove rest d

/-- last loop, `/repo/oelint_parser/cls_stash.py:562-568` -/
def explode (W : World) (s : Stash) (file : Str) : ExpDict → List (Str × List Str) →
    Except PyErr (List (Str × List Str))
  | [], acc => .ok acc
  | (k, v) :: rest, acc =>
    match expandTerm W s file k with
    | .error e => .error e
    | .ok key =>
      match expandTerm W s file (v.getD []) with
      | .error e => .error e
      | .ok val => explode W s file rest (dset key ((dget key acc).getD [] ++ safeLinesplit val) acc)

/-- the items `ExpandVar` works on, `/repo/oelint_parser/cls_stash.py:469-476,489` (sorted) -/
def expandVarItems (W : World) (s : Stash) (filename : Option Str) (att val : Arg) (nolink : Bool) : List Item :=
  getItemsFor W s { filename, classifier := .one c!"Variable", attname := att, attvalue := val, nolink }
    ++ getItemsFor W s { filename, classifier := .one c!"Unset" }

/-- `ExpandVar`, `/repo/oelint_parser/cls_stash.py:453-569` -/
def expandVar (W : World) (s : Stash) (filename : Option Str) (att val : Arg) (nolink : Bool) :
    Except PyErr (List (Str × List Str)) :=
  let res := expandVarItems W s filename att val nolink
  let file? := match filename with
    | some f => some f
    | none => res.head?.map (·.origin)
  match file? with
  | none => .ok []
  | some file =>
    match expInit s file with
    | .error e => .error e
    | .ok d =>
      let sorted := sortBy lineLe res
      explode W s file (passRemove sorted (passAppend sorted (passImmediate sorted d))) []

/-! ## packages, images -/

/-- add to a set -/
def sadd (s : List Str) (x : Str) : List Str := if s.contains x then s else s ++ [x]

/-- the standard sub-packages, `/repo/oelint_parser/cls_stash.py:824-827` -/
def stdPackages (pn : Str) : List Str :=
  pn :: (pn ++ c!"-ptest") ::
    [c!"src", c!"dbg", c!"staticdev", c!"dev", c!"doc", c!"locale"].map (fun x => pn ++ c!"-" ++ x)

/-- the words of one variable after expansion, `/repo/oelint_parser/cls_stash.py:829` -/
def packageWords (W : World) (s : Stash) (file : Str) (v : VarData) : Except PyErr (List Str) :=
  match expandTermS W s file [c!"PN"] (varValueStripped v) with
  | .error e => .error e
  | .ok t => .ok ((stashSafeLineSplit t).filter (fun x => !x.isEmpty))

/-- the loop over the variables, `/repo/oelint_parser/cls_stash.py:828-834` -/
def packageLoop (W : World) (s : Stash) (file pn : Str) (strippn : Bool) : List VarData → List Str →
    Except PyErr (List Str)
  | [], res => .ok res
  | v :: vs, res =>
    match packageWords W s file v with
    | .error e => .error e
    | .ok ws =>
      packageLoop W s file pn strippn vs
        (ws.foldl (fun r pkg => sadd r (replaceAll c!"${PN}" (if strippn then [] else pn) pkg)) res)

/-- the variable payloads of a list of items -/
def varsOf (l : List Item) : List VarData :=
  l.filterMap (fun x => match x.payload with | .variable v => some v | _ => none)

/-- `GetValidPackageNames`, `/repo/oelint_parser/cls_stash.py:807-835` (a set) -/
def getValidPackageNames (W : World) (s : Stash) (file : Str) (strippn : Bool) : Except PyErr (List Str) :=
  let comp := varsOf (getItemsFor W s (varFilter file c!"PACKAGES")
    ++ getItemsFor W s (varFilter file c!"PACKAGE_BEFORE_PN"))
  let pn := guessRecipeName file
  match packageLoop W s file c!"${PN}" strippn comp ((stdPackages c!"${PN}").foldl sadd []) with
  | .error e => .error e
  | .ok r => packageLoop W s file pn strippn comp ((stdPackages pn).foldl sadd r)

/-- the loops `/repo/oelint_parser/cls_stash.py:852-857` -/
def namedLoop (W : World) (s : Stash) (pn : Str) : List Str → List Str → Except PyErr (List Str)
  | [], res => .ok res
  | w :: ws, res =>
    match getScrComponents W s w with
    | .error e => .error e
    | .ok url =>
      match dget c!"name" url.options with
      | some n => namedLoop W s pn ws (sadd res (replaceAll c!"${PN}" pn n))
      | none => namedLoop W s pn ws res

/-- `GetValidNamedResources`, `/repo/oelint_parser/cls_stash.py:837-858` -/
def getValidNamedResources (W : World) (s : Stash) (file : Str) : Except PyErr (List Str) :=
  let comp := varsOf (getItemsFor W s (varFilter file c!"SRC_URI"))
  let words := (comp.map (fun v => (stashSafeLineSplit (varValueStripped v)).filter (fun x => !x.isEmpty))).flatten
  namedLoop W s (guessRecipeName file) words [guessRecipeName file]

/-- `GetItemsFor(filename=_file, classifier=Inherit.CLASSIFIER)`, `/repo/oelint_parser/cls_stash.py:872,894` -/
def inheritFilter (file : Str) : Filter := { filename := some file, classifier := .one c!"Inherit" }

/-- `IsImage`, `/repo/oelint_parser/cls_stash.py:860-882` -/
def isImage (W : World) (s : Stash) (file : Str) : Except PyErr Bool :=
  match imagesClasses s.consts, imagesVariables s.consts with
  | .ok classes, .ok vars =>
    .ok ((getItemsFor W s (inheritFilter file)).any (fun i => i.getItems.any classes.has)
      || vars.elems.any (fun v => !(getItemsFor W s (varFilter file v)).isEmpty))
  | .error e, _ => .error e
  | _, .error e => .error e

/-- `IsPackageGroup`, `/repo/oelint_parser/cls_stash.py:884-896` -/
def isPackageGroup (W : World) (s : Stash) (file : Str) : Bool :=
  (getItemsFor W s (inheritFilter file)).any (fun i => i.getItems.contains c!"packagegroup")

/-- the loop of `GetPackagesDynamic`, `/repo/oelint_parser/cls_stash.py:913-915` -/
def dynLoop (W : World) (s : Stash) (file : Str) : List VarData → List Str → Except PyErr (List Str)
  | [], res => .ok res
  | v :: vs, res =>
    match expandTerm W s file (varValueStripped v) with
    | .error e => .error e
    | .ok t => dynLoop W s file vs ((stashSafeLineSplit t).foldl sadd res)

/-- `GetPackagesDynamic`, `/repo/oelint_parser/cls_stash.py:898-917` (a set) -/
def getPackagesDynamic (W : World) (s : Stash) (file : Str) : Except PyErr (List Str) :=
  dynLoop W s file (varsOf (getItemsFor W s (varFilter file c!"PACKAGES_DYNAMIC"))) []

/-- the loop of `IsDynamicPackage`, `/repo/oelint_parser/cls_stash.py:931-935` -/
def anyMatch (name : Str) : List Str → Except PyErr Bool
  | [] => .ok false
  | p :: ps =>
    match matchDyn p name with
    | .error e => .error e
    | .ok true => .ok true
    | .ok false => anyMatch name ps

/-- `IsDynamicPackage`, `/repo/oelint_parser/cls_stash.py:919-935`; the set of patterns is iterated in its order -/
def isDynamicPackage (W : World) (s : Stash) (file name : Str) : Except PyErr Bool :=
  match expandTerm W s file name with
  | .error e => .error e
  | .ok expanded =>
    match getPackagesDynamic W s file with
    | .error e => .error e
    | .ok pats => anyMatch expanded (W.strOrder pats)

/-! ## StashList -/

/-- `Stash.StashList`, `/repo/oelint_parser/cls_stash.py:30-42` -/
structure StashList where
  data : List Item

/-- `StashList.append`, `/repo/oelint_parser/cls_stash.py:59-69` (a single item is a list of one) -/
def StashList.append (l : StashList) (xs : List Item) : StashList := { data := l.data ++ xs }

/-- `StashList.insert`, `/repo/oelint_parser/cls_stash.py:50-57`: Python index semantics -/
def StashList.insert (l : StashList) (index : Int) (x : Item) : StashList :=
  let n : Int := l.data.length
  let i : Int := if index < 0 then max 0 (index + n) else min index n
  { data := l.data.take i.toNat ++ x :: l.data.drop i.toNat }

/-- `StashList.extend`, `/repo/oelint_parser/cls_stash.py:71-78`: `type(Stash.StashList)` is the metaclass, of which no
list is an instance -/
def StashList.extend (l : StashList) (_other : StashList) : StashList := l

/-- `list.remove` repeated, `/repo/oelint_parser/cls_stash.py:80-90` -/
def StashList.remove : List Item → StashList → Except PyErr Unit × StashList
  | [], l => (.ok (), l)
  | x :: xs, l =>
    match removeOne x l.data with
    | none => (.error .valueError, l)
    | some d => StashList.remove xs { data := d }

/-- `StashList.__iadd__`, `/repo/oelint_parser/cls_stash.py:47-48`: changes the data and *returns* the plain list, so the
variable on the left of `+=` is a plain list afterwards -/
def StashList.iadd (l : StashList) (xs : List Item) : List Item × StashList := (l.data ++ xs, { data := l.data ++ xs })

/-- `StashList.__setitem__`, `/repo/oelint_parser/cls_stash.py:44-45`, for an index in range -/
def StashList.setItem (l : StashList) (i : Nat) (x : Item) : StashList := { data := l.data.set i x }

/-- `StashList.reduce`, `/repo/oelint_parser/cls_stash.py:92-120` -/
def StashList.reduce (W : World) (s : Stash) (l : StashList) (f : Filter) : StashList :=
  { data := reduceL W s l.data f }

end Oelint

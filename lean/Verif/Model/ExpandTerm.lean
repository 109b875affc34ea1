import Verif.Model.Stash
/-!
# `ExpandTerm`

`/repo/oelint_parser/cls_stash.py:732-805`.  The recursion is limited by `fuel`; `expandTerm` supplies a bound that is
never exhausted (`expandTerm_fuel`).
-/
namespace Oelint
variable [Uni]

/-- the dictionary `seen` -/
abbrev Seen := List (Str × Str)

/-- `if not x.AppendOperation()`, `/repo/oelint_parser/cls_stash.py:756` -/
def asAssignment (x : Item) : Option (Item × VarData) :=
  match x.payload with
  | .variable v => if (appendOperation v).isEmpty then some (x, v) else none
  | _ => none

/-- the variables that `_expand` considers for a name, `/repo/oelint_parser/cls_stash.py:755-756` -/
def assignments (W : World) (s : Stash) (file name : Str) : List (Item × VarData) :=
  (getItemsFor W s (varFilter file name)).filterMap asAssignment

/-- `/repo/oelint_parser/cls_stash.py:762-765`: the text to expand for an assignment -/
def assignmentText (x : Item) (v : VarData) : Str :=
  if hasSub inlineBlock (varValueStripped v) then reverseInline x.inlineBlocks v else varValueStripped v

/-- `/repo/oelint_parser/cls_stash.py:757-764`: where does the value of a name come from? -/
inductive Source where
  /-- expand this text (`_comp[0]` or the base set) -/
  | text (t : Str)
  /-- literal replacement -/
  | lit (t : Str)
  /-- leave as it is -/
  | keep
  deriving DecidableEq, Repr

/-- the selection cascade of `_expand`, `/repo/oelint_parser/cls_stash.py:757,769,780,782,784,787,789`. A base set entry
that is not a string makes the recursive call raise `TypeError`. -/
def sourceOf (W : World) (s : Stash) (baseset : J) (file name quote : Str) : Except PyErr Source :=
  match assignments W s file name with
  | (x, v) :: _ => .ok (.text (assignmentText x v))
  | [] =>
    if baseset.has name then
      match baseset with
      | .dict d => match d.get name with
        | some (.str t) => .ok (.text t)
        | _ => .error .typeError
      | _ => .error .typeError
    else if name == c!"PN" then .ok (.lit (guessRecipeName file))
    else if name == c!"BPN" then .ok (.lit (guessBaseRecipeName file))
    else if name == c!"PV" then .ok (.lit (match guessRecipeVersion file with
      | some v => if v.isEmpty then c!"1.0" else v
      | none => c!"1.0"))
    else if name == c!"FILE" then .ok (.lit (quote ++ file ++ quote))
    else if name == c!"THISDIR" then .ok (.lit (quote ++ dirname file ++ quote))
    else .ok .keep

/-- `_expand`, `/repo/oelint_parser/cls_stash.py:752-792`, with the recursive call as a parameter -/
def expandOne (W : World) (s : Stash) (baseset : J) (rec : Str → Seen → Except PyErr (Str × Seen))
    (file : Str) (spare : List Str) (quote : Str) (m : Mt) (res : Str) (seen : Seen) : Except PyErr (Str × Seen) :=
  let name := (m.group 1).getD []
  if spare.contains name then .ok (res, seen)
  else match sourceOf W s baseset file name quote with
    | .error e => .error e
    | .ok .keep => .ok (res, seen)
    | .ok (.lit t) => .ok (replaceAll m.text t res, seen)
    | .ok (.text t) =>
      match dget name seen with
      | some r => .ok (replaceAll m.text r res, seen)
      | none =>
        match rec t (dset name [] seen) with
        | .error e => .error e
        | .ok (r, seen) => .ok (replaceAll m.text r res, dset name r seen)

/-- the loops `/repo/oelint_parser/cls_stash.py:793-796` -/
def expandMany (W : World) (s : Stash) (baseset : J) (rec : Str → Seen → Except PyErr (Str × Seen))
    (file : Str) (spare : List Str) (quote : Str) : List Mt → Str → Seen → Except PyErr (Str × Seen)
  | [], res, seen => .ok (res, seen)
  | m :: ms, res, seen =>
    match expandOne W s baseset rec file spare quote m res seen with
    | .error e => .error e
    | .ok (res, seen) => expandMany W s baseset rec file spare quote ms res seen

/-- the loop `/repo/oelint_parser/cls_stash.py:797-804`. `seen=seen` with an empty dictionary starts a fresh one
(`seen = seen or {}`), so its contents are lost afterwards. -/
def readFiles (W : World) (rec : Str → Seen → Except PyErr (Str × Seen)) :
    List Mt → Str → Seen → Except PyErr (Str × Seen)
  | [], res, seen => .ok (res, seen)
  | m :: ms, _, seen =>
    match rec ((reOeUtilsReadFile.group m c!"file").getD []) seen with
    | .error e => .error e
    | .ok (path, seen') =>
      let seen' := if seen.isEmpty then seen else seen'
      match W.file (stripP (oneOf c!"'\"") path) with
      | .text t => readFiles W rec ms (univNewlines t) seen'
      | .notFound => readFiles W rec ms [] seen'
      | .denied => readFiles W rec ms [] seen'
      | .fails => .error .osError

/-- `ExpandTerm(_file, value, spare, seen)`, `/repo/oelint_parser/cls_stash.py:745-805`, without `objref`; the recursive
calls at 766 and 774 do not pass `spare`, the one at 799 does. Also returns the updated `seen`. -/
def expandTermF (W : World) (s : Stash) : Nat → Str → List Str → Str → Seen → Except PyErr (Str × Seen)
  | 0, _, _, _, _ => .error .recursionError
  | fuel + 1, file, spare, value, seen =>
    match setsBase s.consts with
    | .error e => .error e
    | .ok baseset =>
      let rec0 := fun v sn => expandTermF W s fuel file [] v sn
      let recS := fun v sn => expandTermF W s fuel file spare v sn
      match expandMany W s baseset rec0 file spare [] (reFinditer reVariablePattern.re value) value seen with
      | .error e => .error e
      | .ok (res, seen) =>
        match expandMany W s baseset rec0 file spare c!"\"" (reFinditer reVariablePattern2.re value) res seen with
        | .error e => .error e
        | .ok (res, seen) => readFiles W recS (reFinditer reOeUtilsReadFile.re value) res seen

/-- the names that can be entered into `seen`: variables of the stash, keys of the base set (and the empty name) -/
def knownNames (s : Stash) : List Str :=
  [] :: s.items.filterMap (fun x => match x.payload with | .variable v => some v.varName | _ => none)
    ++ (match setsBase s.consts with | .ok (.dict d) => d.keys | _ => [])

/-- the texts a nested expansion can start with -/
def knownTexts (s : Stash) : List Str :=
  s.items.filterMap (fun x => match x.payload with | .variable v => some (assignmentText x v) | _ => none)
    ++ (match setsBase s.consts with
        | .ok (.dict d) => d.toList.filterMap (fun kv => match kv.2 with | .str t => some t | _ => none)
        | _ => [])

/-- a bound on the recursion depth -/
def expandBound (s : Stash) (value : Str) : Nat :=
  ((knownNames s).length + 1) * (value.length + ((knownTexts s).map List.length).foldl max 0 + 2) + 1

/-- `ExpandTerm(_file, value, spare)`, `/repo/oelint_parser/cls_stash.py:732-805` -/
def expandTermS (W : World) (s : Stash) (file : Str) (spare : List Str) (value : Str) : Except PyErr Str :=
  (expandTermF W s (expandBound s value) file spare value []).map (·.1)

/-- `ExpandTerm(_file, value)` -/
def expandTerm (W : World) (s : Stash) (file value : Str) : Except PyErr Str := expandTermS W s file [] value

/-- `ExpandTerm(_file, value, spare, objref=...)`, `/repo/oelint_parser/cls_stash.py:748-749` -/
def expandTermObj (W : World) (s : Stash) (file : Str) (spare : List Str) (value : Str) (x : Item) (v : VarData) : Except PyErr Str :=
  expandTermS W s file spare (if hasSub inlineBlock value then reverseInline x.inlineBlocks v else value)

end Oelint

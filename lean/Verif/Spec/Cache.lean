import Verif.Model.Cache
import Verif.Spec.History
/-! Histories of updates and questions (C34, C35). -/
namespace Oelint.Spec
variable [Uni]

/-- the questions a user can ask a stash -/
inductive Question where
  /-- `GetItemsFor` -/
  | itemsFor (f : Filter)
  /-- `Reduce` (and `StashList.reduce`) -/
  | reduce (l : List Item) (f : Filter)
  /-- `ExpandTerm` -/
  | expandTerm (file value : Str) (spare : List Str)
  /-- `ExpandVar` -/
  | expandVar (file : Option Str) (att val : Arg) (nolink : Bool)
  /-- `GetRecipes` -/
  | recipes
  /-- `GetLoneAppends` -/
  | loneAppends
  /-- `GetConfFiles` -/
  | confFiles
  /-- `GetBBClasses` -/
  | bbClasses
  /-- `GetLinksForFile` -/
  | links (file : Str)
  /-- `GetFiles` -/
  | files (file pattern : Str)
  /-- `GetScrComponents` -/
  | scrComponents (s : Str)
  /-- `GetValidPackageNames` -/
  | packageNames (file : Str) (strippn : Bool)
  /-- `GetValidNamedResources` -/
  | namedResources (file : Str)
  /-- `IsImage` -/
  | isImage (file : Str)
  /-- `IsPackageGroup` -/
  | isPackageGroup (file : Str)
  /-- `GetPackagesDynamic` -/
  | packagesDynamic (file : Str)
  /-- `IsDynamicPackage` -/
  | isDynamicPackage (file name : Str)

/-- an answer -/
inductive Answer where
  | items (l : List Item)
  | text (s : Str)
  | vars (l : List (Str × List Str))
  | names (l : List Str)
  | comps (c : SrcComponents)
  | bool (b : Bool)
  deriving DecidableEq

/-- the answer a fresh computation on the stash gives -/
def Question.fresh (W : World) (s : Stash) : Question → Except PyErr Answer
  | .itemsFor f => .ok (.items (getItemsFor W s f))
  | .reduce l f => .ok (.items (reduceL W s l f))
  | .expandTerm f v sp => (Oelint.expandTermS W s f sp v).map .text
  | .expandVar f a v n => (Oelint.expandVar W s f a v n).map .vars
  | .recipes => .ok (.names (getRecipes s))
  | .loneAppends => .ok (.names (getLoneAppends s))
  | .confFiles => .ok (.names (getConfFiles W s))
  | .bbClasses => .ok (.names (getBBClasses s))
  | .links f => .ok (.names (getLinksForFile W s f))
  | .files f p => .ok (.names (getFiles W s f p))
  | .scrComponents t => (getScrComponents W s t).map .comps
  | .packageNames f b => (getValidPackageNames W s f b).map .names
  | .namedResources f => (getValidNamedResources W s f).map .names
  | .isImage f => (Oelint.isImage W s f).map .bool
  | .isPackageGroup f => .ok (.bool (Oelint.isPackageGroup W s f))
  | .packagesDynamic f => (getPackagesDynamic W s f).map .names
  | .isDynamicPackage f n => (Oelint.isDynamicPackage W s f n).map .bool

/-- asking the stash with its caches -/
def Question.ask (W : World) : Question → CM Answer
  | .itemsFor f => do return .items (← cItemsFor W f)
  | .reduce l f => do return .items (← cReduce W l f)
  | .expandTerm f v sp => do return .text (← cExpandTermS W f sp v)
  | .expandVar f a v n => do return .vars (← cExpandVar W f a v n)
  | .recipes => do return .names (← cRecipes)
  | .loneAppends => do return .names (← cLoneAppends)
  | .confFiles => do return .names (← cConfFiles W)
  | .bbClasses => do return .names (← cBBClasses)
  | .links f => do return .names (← cLinksForFile W f)
  | .files f p => do return .names (← cFiles W f p)
  | .scrComponents t => do return .comps (← cScrComponents W t)
  | .packageNames f b => do return .names (← cPackageNames W f b)
  | .namedResources f => do return .names (← cNamedResources W f)
  | .isImage f => do return .bool (← cIsImage W f)
  | .isPackageGroup f => do return .bool (← cIsPackageGroup W f)
  | .packagesDynamic f => do return .names (← cPackagesDynamic W f)
  | .isDynamicPackage f n => do return .bool (← cIsDynamicPackage W f n)

/-- the questions whose caches are never emptied although their answers depend on what is in the stash -/
def Question.neverCleared : Question → Bool
  | .bbClasses | .packagesDynamic _ | .isDynamicPackage .. => true
  | _ => false

/-- a call on the stash with its caches; what it returns (`[]` for those that return nothing); `depth` is the recursion limit -/
def Call.perform (W : World) (depth : Nat) : Call → CM (List Item)
  | .addFile p o f => cAddFile W depth p o f
  | .append l => do cAppend l; return []
  | .remove l => do cRemove l; return []
  | .finalize => do cFinalize W; return []

/-- what a user does with a stash -/
inductive Act where
  | call (depth : Nat) (c : Call)
  | ask (q : Question)

/-- a stash nobody has asked or told anything -/
def CStash.init (newStyle negative : Bool) (consts : J) (nextUid : Nat) : CStash :=
  { base := Stash.init newStyle negative consts nextUid, tab := [] }

/-- an exception that `AddFile` raises only while it reads files (cannot be opened, is not text, too deep nesting, …), not while it enters
what it has read into the stash -/
def PyErr.early : PyErr → Bool
  | .regexError | .typeError | .diverges => false
  | _ => true

/-- `c` comes about by successful calls, calls of `AddFile` that failed while reading files, and any questions -/
inductive Lived (W : World) : CStash → CStash → Prop
  | nil {c} : Lived W c c
  | call {c0 c c' : CStash} {depth : Nat} {k : Call} {r : List Item} (h : Lived W c0 c)
      (hk : k.perform W depth c = (.ok r, c')) : Lived W c0 c'
  | failed {c0 c c' : CStash} {depth : Nat} {path : Str} {off : Int} {forced : Option Str} {e : PyErr} (h : Lived W c0 c)
      (hk : (Call.addFile path off forced).perform W depth c = (.error e, c')) (he : PyErr.early e = true) : Lived W c0 c'
  | ask {c0 c : CStash} (h : Lived W c0 c) (q : Question) : Lived W c0 (q.ask W c).2

/-- what the stash remembers about the places of files is what the disk says -/
def PlacesRight (W : World) (c : CStash) : Prop :=
  (∀ n v, (CKey.layerRoot n, v) ∈ c.tab → ∃ r, v = .str r ∧ getLayerRoot W n = .ok r) ∧
  (∀ n d v, (CKey.found n d, v) ∈ c.tab → ∃ r, v = .str r ∧ findLocalOrLayer W n d = .ok r)

/-- do one thing after the other until a call raises; what the calls return -/
def play (W : World) : List Act → CM (List (List Item))
  | [] => pure []
  | .call d k :: rest => do
    let r ← k.perform W d
    let rs ← play W rest
    pure (r :: rs)
  | .ask q :: rest => fun c => play W rest (q.ask W c).2

/-- leave out the questions -/
def callsOnly : List Act → List Act
  | [] => []
  | .call d k :: rest => .call d k :: callsOnly rest
  | .ask _ :: rest => callsOnly rest

/-- a call that is certain to empty the caches; `AddFile` of an append or a class may be skipped -/
def Call.empties (W : World) : Call → Bool
  | .addFile p _ _ => [c!".bb", c!".inc", c!".conf"].contains (splitext (abspath W.cwd p)).2
  | _ => true

/-- between a question and a later `Finalize` there is always a call that empties the caches -/
def EmptiedBeforeFinalize (W : World) (l : List Act) : Prop :=
  ∀ pre q mid d post, l = pre ++ .ask q :: (mid ++ .call d .finalize :: post) → ∃ d' k, Act.call d' k ∈ mid ∧ k.empties W = true

end Oelint.Spec

import Verif.Spec.Returned
/-! A disk that changes while a stash is used (C101). -/
namespace Oelint.Spec
variable [Uni]

/-- the worlds differ in nothing but what is on the disk -/
structure SameButDisk (W W' : World) : Prop where
  cwd : W'.cwd = W.cwd
  itemOrder : W'.itemOrder = W.itemOrder
  strOrder : W'.strOrder = W.strOrder
  urlparse : W'.urlparse = W.urlparse
  printable : W'.printable = W.printable
  sha1 : W'.sha1 = W.sha1

/-- neither the question nor what it asks in turn looks at the disk: all but `GetFiles` and those that expand texts (`inline` code may
read files) -/
def Question.offline : Question → Bool
  | .files .. | .expandTerm .. | .expandVar .. | .packageNames .. | .packagesDynamic _ | .isDynamicPackage .. => false
  | _ => true

/-- neither a question that looks at the disk nor `AddFile` -/
def Act.offline : Act → Bool
  | .ask q => q.offline
  | .call _ (.addFile ..) => false
  | .call _ _ => true

/-- the questions whose answers are remembered and depend on the disk -/
def Question.remembersDisk : Question → Bool
  | .files .. | .packageNames .. => true
  | _ => false

/-- the same files and directories are on the disk; what is in them may differ -/
structure SameTree (W W' : World) : Prop where
  disk : SameButDisk W W'
  pathExists : W'.pathExists = W.pathExists
  isFile : W'.isFile = W.isFile
  isDir : W'.isDir = W.isDir

/-- `c` comes about by successful calls, calls of `AddFile` that failed while reading files, and any questions, while the disk changes in between: at each call the stash remembers no
place of a file that is wrong by then -/
inductive LivedOver (W : World) : CStash → CStash → Prop
  | nil {c} : LivedOver W c c
  | call {c0 c c' : CStash} {W' : World} {depth : Nat} {k : Call} {r : List Item} (h : LivedOver W c0 c) (hw : SameButDisk W W')
      (hp : PlacesRight W' c) (hk : k.perform W' depth c = (.ok r, c')) : LivedOver W c0 c'
  | failed {c0 c c' : CStash} {W' : World} {depth : Nat} {path : Str} {off : Int} {forced : Option Str} {e : PyErr} (h : LivedOver W c0 c)
      (hw : SameButDisk W W') (hp : PlacesRight W' c) (hk : (Call.addFile path off forced).perform W' depth c = (.error e, c'))
      (he : PyErr.early e = true) : LivedOver W c0 c'
  | ask {c0 c : CStash} {W' : World} (h : LivedOver W c0 c) (hw : SameButDisk W W') (q : Question) : LivedOver W c0 (q.ask W' c).2

/-- one act after the other, each with the disk of its time -/
def observeOver : List (World × Act) → CStash → List Reply
  | [], _ => []
  | (W, .ask q) :: rest, c => .answer (q.ask W c).1 :: observeOver rest (q.ask W c).2
  | (W, .call d k) :: rest, c => .result (k.perform W d c).1 :: observeOver rest (k.perform W d c).2

end Oelint.Spec

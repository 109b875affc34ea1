import Verif.Model.Parser
/-! Looking for files in layers (C12, C59). -/
namespace Oelint.Spec
variable [Uni]

/-- `r` is the nearest directory above `d` that contains `conf/layer.conf`; everything on the way up is a directory -/
inductive LayerOf (W : World) : Str → Str → Prop
  | here {d : Str} (hd : W.isDir d = true) (hr : d ≠ c!"/")
      (h : W.pathExists (pathJoin (dirname d) c!"conf/layer.conf") = true) : LayerOf W d (dirname d)
  | up {d r : Str} (hd : W.isDir d = true) (hr : d ≠ c!"/")
      (h : W.pathExists (pathJoin (dirname d) c!"conf/layer.conf") = false) (hu : LayerOf W (dirname d) r) : LayerOf W d r

/-- the directory `k` levels above `d` -/
def upDir : Nat → Str → Str
  | 0, d => d
  | k + 1, d => upDir k (dirname d)

/-- `p` is the file `name` next to files in `dir`, or else in the layer of `dir` -/
def Finds (W : World) (dir name p : Str) : Prop :=
  (W.pathExists (pathJoin dir name) = true ∧ p = pathJoin dir name) ∨
  (W.pathExists (pathJoin dir name) = false ∧ ∃ r, LayerOf W dir r ∧ W.pathExists (pathJoin r name) = true ∧ p = pathJoin r name)

/-- `p` is the class file `name` in the first of the given directories that has it -/
inductive FindsClass (W : World) (dir name : Str) : List Str → Str → Prop
  | here {loc p locs} (h : Finds W dir (pathJoin loc name) p) (hp : p ≠ []) : FindsClass W dir name (loc :: locs) p
  | next {loc p locs} (h : ∀ q, Finds W dir (pathJoin loc name) q → q = []) (hn : FindsClass W dir name locs p) :
      FindsClass W dir name (loc :: locs) p

/-- the file name of a class: `.bbclass` is added if missing -/
def ClassFile (word name : Str) : Prop :=
  (c!".bbclass" <:+ word ∧ name = word) ∨ (¬ c!".bbclass" <:+ word ∧ name = word ++ c!".bbclass")

end Oelint.Spec

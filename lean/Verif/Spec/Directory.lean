import Verif.Spec.Returned
/-! Paths and the working directory (C94), files that are not needed (C95). -/
namespace Oelint.Spec
variable [Uni]

/-- a name of a file or a directory -/
def FileName (n : Str) : Prop := n ≠ [] ∧ n ≠ c!"." ∧ n ≠ c!".." ∧ '/' ∉ n

/-- the absolute path that leads over the given names -/
def full : List Str → Str
  | [] => c!"/"
  | n :: ns => ((n :: ns).map (fun x => '/' :: x)).flatten

/-- the components written with slashes between them -/
def written : List Str → Str
  | [] => []
  | [c] => c
  | c :: cs => c ++ '/' :: written cs

/-- one step: nothing and `.` stay, `..` goes up, a name goes down -/
def walk (ns : List Str) (c : Str) : List Str :=
  if c = [] ∨ c = c!"." then ns else if c = c!".." then ns.dropLast else ns ++ [c]

/-- the same machine seen from another working directory: absolute paths mean the same -/
structure SameMachine (W W' : World) : Prop where
  file : ∀ p, isAbs p = true → W'.file p = W.file p
  pathExists : ∀ p, isAbs p = true → W'.pathExists p = W.pathExists p
  isFile : ∀ p, isAbs p = true → W'.isFile p = W.isFile p
  isDir : ∀ p, isAbs p = true → W'.isDir p = W.isDir p
  glob : ∀ p, isAbs p = true → W'.glob p = W.glob p
  itemOrder : W'.itemOrder = W.itemOrder
  strOrder : W'.strOrder = W.strOrder
  urlparse : W'.urlparse = W.urlparse
  printable : W'.printable = W.printable
  sha1 : W'.sha1 = W.sha1

/-- nothing that can be opened with a relative path differs (such a path is opened for `oe.utils.read_file` only) -/
def SameRelative (W W' : World) : Prop := ∀ p, isAbs p = false → W'.file p = W.file p

/-- nothing was raised -/
def Reply.fine : Reply → Prop
  | .answer r => ∃ a, r = .ok a
  | .result r => ∃ a, r = .ok a

/-- the worlds differ only in the contents of files that cannot be opened in the first one -/
structure OnlyUnreadable (W W' : World) : Prop where
  file : ∀ p, W'.file p = W.file p ∨ W.file p = .fails
  cwd : W'.cwd = W.cwd
  pathExists : W'.pathExists = W.pathExists
  isFile : W'.isFile = W.isFile
  isDir : W'.isDir = W.isDir
  glob : W'.glob = W.glob
  itemOrder : W'.itemOrder = W.itemOrder
  strOrder : W'.strOrder = W.strOrder
  urlparse : W'.urlparse = W.urlparse
  printable : W'.printable = W.printable
  sha1 : W'.sha1 = W.sha1

/-- the acts name files by absolute paths; `GetFiles` is not asked -/
def Act.absolute : Act → Prop
  | .call _ (.addFile p _ _) => isAbs p = true
  | .call _ _ => True
  | .ask (.files _ _) => False
  | .ask _ => True

end Oelint.Spec

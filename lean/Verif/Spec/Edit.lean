import Verif.Spec.Context
import Verif.Spec.Chunks
/-! Editing a file: what the items say before and after (C102). -/
namespace Oelint.Spec
variable [Uni]

/-- what an item says, without `Line` and without its identity, if it stood `d` lines further below -/
def shifted (d : Int) (x : Item) : Item := { content x with inFileLine := x.inFileLine + d }

/-- the same world, in which files have other contents (nothing appears or disappears) -/
def rewritten (W : World) (g : Str → FileRes) : World := { W with file := g }

/-- nothing is left to be expanded in the names of the files that the file `f` includes and of the classes it inherits -/
def PlainFile (W : World) (f : Str) : Prop := ∀ n, WritesInclude W f n ∨ WritesInherit W f n → '$' ∉ n ∧ '(' ∉ n

/-- number of line ends of some statements -/
def lineEnds (gs : List (List Str)) : Nat := (gs.map (fun g => g.flatten.count '\n')).sum

/-- one of the items is written with the new override syntax -/
def SomeNew (r : List Item) : Prop := ∃ x ∈ r, x.delim = ':'

/-- The lines `m` are one statement, whatever stands around them: one line, or continued lines, or a function that is closed at its end.
The first line starts with a letter or a digit, every line ends in its only newline. -/
def Statement (m : List Str) : Prop :=
  (ContGroup m ∨ (FuncGroup m [] ∧ 0 < excess m.tail) ∨ SingleGroup m) ∧
  (∀ l ∈ m.head?, NameStart l ∧ ¬ CommentLine l) ∧ ∀ l ∈ m, ∃ a, l = a ++ ['\n'] ∧ '\n' ∉ a

end Oelint.Spec

import Verif.Spec.Constants
import Verif.Spec.Appends
import Verif.Spec.Chunks
import Verif.Spec.Loading
/-! When adding a file succeeds (C07). -/
namespace Oelint.Spec
variable [Uni]

/-- the constants the parser uses have the documented types: the sections are dictionaries, the base set maps names to
texts, the known distros and machines are lists (each of them may be missing) -/
structure UsableConstants (db : J) : Prop where
  dict : IsDict db
  sections : ∀ k ∈ [c!"functions", c!"ignore", c!"sets", c!"replacements"], ∀ x, valueAt [k] db = some x → IsDict x
  base : ∀ x, valueAt [c!"sets", c!"base"] db = some x → ∃ d, x = .dict d ∧ ∀ n y, d.get n = some y → ∃ t, y = .str t
  lists : ∀ k ∈ [c!"distros", c!"machines"], ∀ x, valueAt [c!"replacements", k] db = some x → ∃ l, x = .list l

/-- the name of the file can be used to look for recipes: if it is a `.bbappend`, its stem has no character with a meaning in
regular expressions -/
def UsableName (f : Str) : Prop := c!".bbappend" <:+ f → ∃ stem, IsFile f stem c!".bbappend" ∧ PlainAppend stem

/-- the last line of a text is complete: neither continued nor a function header -/
def Complete (t : Str) : Prop := ∀ ls, IsLines (univNewlines t) ls → ∀ l ∈ ls.getLast?, ¬ Continued l ∧ ¬ FuncHeader l

/-- the file is missing, or a text that is complete -/
def UsableFile (W : World) (f : Str) : Prop := W.file f = .notFound ∨ ∃ t, W.file f = .text t ∧ Complete t

end Oelint.Spec

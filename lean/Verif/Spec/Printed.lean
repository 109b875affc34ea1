import Verif.Spec.Two
import Verif.Spec.Loading
/-! The progress output of a stash (C99). -/
namespace Oelint.Spec
variable [Uni]

/-- the line that is printed for a file -/
def announcement (f : Str) : Str := c!"Parsing " ++ f

/-- the stash made with another `quiet`; what has been printed may differ as well -/
def withQuiet (c : CStash) (q : Bool) (out : List Str) : CStash := { c with base := { c.base with quiet := q, printed := out } }

end Oelint.Spec

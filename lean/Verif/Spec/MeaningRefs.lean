import Verif.Spec.Meaning
import Verif.Spec.Expand
/-! What the references of a recipe become, read from its text alone (C117). -/
namespace Oelint.Spec
variable [Uni]

/-- the declaration gives the text that references to `n` stand for. (Not what bitbake does: overrides other than `append`, `prepend`, `remove` are not looked at, see C114.) -/
def Decl.gives (n : Str) (d : Decl) : Bool := d.base == n && !d.late && !([c!"+=", c!".=", c!"=+", c!"=."].contains d.op)

/-- the text that references to `n` stand for: the first declaration that gives one, else the entry of the constants -/
def stands (b : KV) (ds : List Decl) (n : Str) : Option Str :=
  match ds.find? (Decl.gives n), b.get n with
  | some d, _ => some d.text
  | none, some (.str t) => some t
  | none, _ => none

/-- `o` is the text `t` with all references replaced, from left to right -/
inductive Filled (b : KV) (ds : List Decl) (file : Str) : Str → Str → Prop
  | nil : Filled b ds file [] []
  | char {c : Char} {r o : Str} : c ≠ '$' → Filled b ds file r o → Filled b ds file (c :: r) (c :: o)
  | dollar {c : Char} {r o : Str} : c ≠ '$' → c ≠ '{' → Filled b ds file (c :: r) o → Filled b ds file ('$' :: c :: r) ('$' :: o)
  | text {n t v r o : Str} : Name n → stands b ds n = some t → NoCalls t → Filled b ds file t v → Filled b ds file r o →
      Filled b ds file (refText n ++ r) (v ++ o)
  | name {n t r o : Str} : Name n → stands b ds n = none → FromFileName file n t → '$' ∉ t → Filled b ds file r o → Filled b ds file (refText n ++ r) (t ++ o)
  | unknown {n r o : Str} : Name n → stands b ds n = none → n ∉ [c!"PN", c!"BPN", c!"PV", c!"FILE", c!"THISDIR"] → Filled b ds file r o →
      Filled b ds file (refText n ++ r) (refText n ++ o)

/-- no declaration depends on itself: what a name stands for refers to names of smaller rank -/
def Ranked (b : KV) (ds : List Decl) (rank : Str → Nat) : Prop :=
  ∀ n t, stands b ds n = some t → NoCalls t ∧ ∃ ns, Written t ns ∧ ∀ m ∈ ns, rank m < rank n

end Oelint.Spec

import Verif.Model.StashOps
import Verif.Spec.Queries
/-! Specifications for the expansion of references (C49, C50, C51). -/
namespace Oelint.Spec
variable [Uni]

/-- `${n}` -/
def refText (n : Str) : Str := c!"${" ++ n ++ c!"}"

/-- the text contains the reference `${n}`; a name is not empty, is on one line and ends at the first `}` -/
def Refers (value n : Str) : Prop := refText n <:+: value ∧ n ≠ [] ∧ '\n' ∉ n ∧ '}' ∉ n.tail

/-- the text contains a call `d.getVar('n')` or `d.getVar('n', True)` (with any quotes) -/
def CallsGetVar (value n : Str) : Prop :=
  ∃ q q' : Char, ∃ args : Str, (∀ c ∈ args, c ∈ c!"TrueFals," ∨ reSpace c = true) ∧
    c!"getVar(" ++ q :: (n ++ q' :: (args ++ c!")")) <:+: value ∧ n ≠ []

/-- the text calls `oe.utils.read_file` -/
def ReadsFile (value : Str) : Prop := c!"oe.utils.read_file(" <:+: value

/-- the item assigns the variable `n` and is from the file or a file linked to it (`append`, `prepend` and `remove` do
not assign) -/
def Assigns (s : Stash) (file n : Str) (x : Item) : Prop :=
  x ∈ s.items ∧ (file ≠ [] → LinkedTo s file false x) ∧
    ∃ v, x.payload = .variable v ∧ v.varName = n ∧ appendOperation v = []

/-- nothing is known about the name -/
def Unknown (s : Stash) (file n : Str) : Prop :=
  (∀ x, ¬ Assigns s file n x) ∧ (∀ b, setsBase s.consts = .ok b → b.has n = false) ∧
    n ∉ [c!"PN", c!"BPN", c!"PV", c!"FILE", c!"THISDIR"]

/-- a name that can be written between `${` and `}` -/
structure Name (n : Str) : Prop where
  ne : n ≠ []
  noDollar : '$' ∉ n
  noBrace : '}' ∉ n
  noNewline : '\n' ∉ n

/-- the text calls neither `getVar` nor `oe.utils.read_file` -/
structure NoCalls (value : Str) : Prop where
  noGetVar : ¬ c!"getVar(" <:+: value
  noReadFile : ¬ ReadsFile value

/-- the value of a name that follows from the file name alone -/
inductive FromFileName (file : Str) : Str → Str → Prop
  | pn : FromFileName file c!"PN" (guessRecipeName file)
  | bpn : FromFileName file c!"BPN" (guessBaseRecipeName file)
  | pv {v : Str} : guessRecipeVersion file = some v → v ≠ [] → FromFileName file c!"PV" v
  | pvDefault : guessRecipeVersion file = none ∨ guessRecipeVersion file = some [] → FromFileName file c!"PV" c!"1.0"
  | file : FromFileName file c!"FILE" file
  | thisdir : FromFileName file c!"THISDIR" (dirname file)

/-- the first item (in the order of `GetItemsFor`) that assigns the name -/
def FirstAssignment (W : World) (s : Stash) (file n : Str) (x : Item) : Prop :=
  ∃ pre post, getItemsFor W s (varFilter file n) = pre ++ x :: post ∧ Assigns s file n x ∧
    ∀ y ∈ pre, ¬ Assigns s file n y

/-- the text that a name stands for: its first assignment, else the base set -/
inductive Defined (W : World) (s : Stash) (file : Str) : Str → Str → Prop
  | assigned {n : Str} {x : Item} {v : VarData} : FirstAssignment W s file n x → x.payload = .variable v →
      Defined W s file n (assignmentText x v)
  | base {n t : Str} {d : KV} : (∀ x, ¬ Assigns s file n x) → setsBase s.consts = .ok (.dict d) → d.get n = some (.str t) →
      Defined W s file n t

/-- the name is neither assigned nor in the base set -/
def Undefined (s : Stash) (file n : Str) : Prop :=
  (∀ x, ¬ Assigns s file n x) ∧ ∀ b, setsBase s.consts = .ok b → b.has n = false

/-- full expansion of a text, from left to right: a reference is replaced by the full expansion of what it stands for.
(No rule applies to `${` that starts no reference, to `$$` and to `$` at the end.) -/
inductive Expands (W : World) (s : Stash) (file : Str) : List Str → Str → Str → Prop
  | nil {spare : List Str} : Expands W s file spare [] []
  | char {spare : List Str} {c : Char} {r o : Str} : c ≠ '$' → Expands W s file spare r o →
      Expands W s file spare (c :: r) (c :: o)
  | dollar {spare : List Str} {c : Char} {r o : Str} : c ≠ '$' → c ≠ '{' → Expands W s file spare (c :: r) o →
      Expands W s file spare ('$' :: c :: r) ('$' :: o)
  | spared {spare : List Str} {n r o : Str} : Name n → n ∈ spare → Expands W s file spare r o →
      Expands W s file spare (refText n ++ r) (refText n ++ o)
  | unknown {spare : List Str} {n r o : Str} : Name n → n ∉ spare → Unknown s file n → Expands W s file spare r o →
      Expands W s file spare (refText n ++ r) (refText n ++ o)
  | name {spare : List Str} {n t r o : Str} : Name n → n ∉ spare → Undefined s file n → FromFileName file n t → '$' ∉ t →
      Expands W s file spare r o → Expands W s file spare (refText n ++ r) (t ++ o)
  | defined {spare : List Str} {n t v r o : Str} : Name n → n ∉ spare → Defined W s file n t → NoCalls t →
      Expands W s file [] t v → Expands W s file spare r o → Expands W s file spare (refText n ++ r) (v ++ o)

/-- a text in which every `${` starts a reference, with the names it refers to -/
inductive Written : Str → List Str → Prop
  | nil : Written [] []
  | char {c : Char} {r : Str} {ns : List Str} : c ≠ '$' → Written r ns → Written (c :: r) ns
  | dollar {c : Char} {r : Str} {ns : List Str} : c ≠ '$' → c ≠ '{' → Written (c :: r) ns → Written ('$' :: c :: r) ns
  | ref {n r : Str} {ns : List Str} : Name n → Written r ns → Written (refText n ++ r) (n :: ns)

/-- definitions that do not depend on themselves: what a name stands for refers to names of smaller rank only -/
def Acyclic (W : World) (s : Stash) (file : Str) (rank : Str → Nat) : Prop :=
  ∀ n t, Defined W s file n t → NoCalls t ∧ ∃ ns, Written t ns ∧ ∀ m ∈ ns, rank m < rank n

end Oelint.Spec

import Mathlib.Data.List.Forall2
import Verif.Spec.Statements
import Verif.Spec.Inline
/-! Specifications for the other single statements (C67-C74): how each of them is written. They use nothing of the model but the
type of texts and `reSpace` (`\s`). -/
namespace Oelint.Spec

/-- the characters of flags -/
def FlagChar (c : Char) : Prop :=
  ('A' ≤ c ∧ c ≤ 'Z') ∨ ('0' ≤ c ∧ c ≤ '9') ∨ ('a' ≤ c ∧ c ≤ 'z') ∨ c ∈ c!"_-./@"

instance (c : Char) : Decidable (FlagChar c) := by unfold FlagChar; infer_instance

/-- `line` assigns `val` to the flag `flag` of `name` with the operator `op` with blanks `ws1`, `ws2` around it -/
structure FlagLine (line name flag ws1 op ws2 val : Str) : Prop where
  eq : line = name ++ ('[' :: (flag ++ (']' :: (ws1 ++ (op ++ (ws2 ++ val))))))
  name : AssignName name
  flag : flag ≠ [] ∧ ∀ c ∈ flag, FlagChar c
  op : op ∈ operators
  blanks1 : Blanks ws1
  blanks2 : Blanks ws2
  val : '\n' ∉ val ∧ ∀ c ∈ val.head?, reSpace c = false ∧ (ws2 = [] → c ≠ '+' ∧ c ≠ '.')

/-- blanks between words -/
def Gap (s : Str) : Prop := s ≠ [] ∧ ∀ c ∈ s, c = ' ' ∨ c = '\t'

/-- the characters of names of included files -/
def IncChar (c : Char) : Prop :=
  ('A' ≤ c ∧ c ≤ 'z') ∨ ('0' ≤ c ∧ c ≤ '9') ∨ c ∈ c!"-./${}"

instance (c : Char) : Decidable (IncChar c) := by unfold IncChar; infer_instance

/-- a value in which no `=` is followed by a quote -/
def PlainValue (val : Str) : Prop :=
  '\n' ∉ val ∧ ∀ a bl b, val = a ++ '=' :: (bl ++ '"' :: b) → ∃ c ∈ bl, reSpace c = false

/-- the characters of names of functions -/
def FuncChar (c : Char) : Prop :=
  ('A' ≤ c ∧ c ≤ 'Z') ∨ ('0' ≤ c ∧ c ≤ '9') ∨ ('a' ≤ c ∧ c ≤ 'z') ∨ c ∈ c!"_.-+{}:$"

instance (c : Char) : Decidable (FuncChar c) := by unfold FuncChar; infer_instance

/-- blanks and tabs -/
def Tabs (s : Str) : Prop := ∀ c ∈ s, c = ' ' ∨ c = '\t'

/-- the words `python` and `fakeroot` in front of a function; the flags tell which of them occur -/
inductive FuncFlags : Str → Bool → Bool → Prop
  | none : FuncFlags [] false false
  | python {ws t : Str} {py fr : Bool} : Tabs ws → FuncFlags t py fr → FuncFlags (c!"python" ++ (ws ++ t)) true fr
  | fakeroot {ws t : Str} {py fr : Bool} : Tabs ws → FuncFlags t py fr → FuncFlags (c!"fakeroot" ++ (ws ++ t)) py true

/-- `text` defines the function `name` with the given body; `tail` is what is left of the line behind the closing brace -/
structure FuncText (text flags name ws1 ws2 ws3 body tail : Str) (py fr : Bool) : Prop where
  eq : text = flags ++ (name ++ (ws1 ++ ('(' :: (ws2 ++ (')' :: (ws3 ++ ('{' :: (body ++ ('}' :: tail)))))))))
  flags : FuncFlags flags py fr
  chars : ∀ c ∈ name, FuncChar c
  noflag : ¬ c!"python" <+: name ∧ ¬ c!"fakeroot" <+: name
  anon : name = [] → ws1 = []
  blanks : Tabs ws1 ∧ Tabs ws2 ∧ Tabs ws3
  tail : '}' ∉ tail

/-- the characters of names of python functions, in small letters -/
def DefChar (c : Char) : Prop := ('a' ≤ c ∧ c ≤ 'z') ∨ ('0' ≤ c ∧ c ≤ '9') ∨ c = '_' ∨ c = '-'

instance (c : Char) : Decidable (DefChar c) := by unfold DefChar; infer_instance

/-- a text as the parser reads it: the lines joined, with the character ESC for each backslash -/
def joined (raw : Str) : Str := (raw.filter (fun c => c != '\n')).map (fun c => if c = '\\' then '\x1b' else c)

/-- a line of blanks and tabs -/
def BlankLine (l : Str) : Prop := Tabs l

/-- `out` is `s` without its indentation: lines of blanks become empty, the other lines lose the longest run of blanks they have
in common -/
def Dedented (s out : Str) : Prop :=
  ∃ ls os margin, Pieces '\n' s ls ∧ Pieces '\n' out os ∧ Tabs margin ∧
    List.Forall₂ (fun l o => (BlankLine l → o = []) ∧ (¬ BlankLine l → l = margin ++ o)) ls os ∧
    ∀ m, Tabs m → (∃ l ∈ ls, ¬ BlankLine l) → (∀ l ∈ ls, ¬ BlankLine l → m <+: l) → m.length ≤ margin.length

end Oelint.Spec

import Verif.Model.StashOps
/-! Specifications for queries (C32, C33, C36, C37, C46, C62). -/
namespace Oelint.Spec
variable [Uni]

/-- the strings given as a filter argument: nothing for `None` and `""` -/
def given : Arg → List Str
  | .none => []
  | .one s => if s = [] then [] else [s]
  | .many l => l

/-- the item is from the file, or (unless `nolink`) from a file the file is linked to -/
def LinkedTo (s : Stash) (file : Str) (nolink : Bool) (x : Item) : Prop :=
  x.origin = file ∨ (nolink = false ∧ ∃ fs, dget file s.map = some fs ∧ x.origin ∈ fs)

/-- the item satisfies every filter that is given -/
structure Selected (s : Stash) (f : Filter) (x : Item) : Prop where
  file : ∀ fn, f.filename = some fn → fn ≠ [] → LinkedTo s fn f.nolink x
  classifier : given f.classifier ≠ [] → x.payload.classifier ∈ given f.classifier
  attr : given f.attname ≠ [] →
    ∃ name ∈ given f.attname, ∃ a, dget name x.getAttributes = some a ∧
      (given f.attvalue = [] ∨ ∃ v ∈ given f.attvalue, a = .str v)

/-- `l` is in the order of the code points -/
def Ordered (l : List Str) : Prop := l.Pairwise (fun a b => a ≤ b)

/-- the names of a constant: a list, or the keys of a dictionary -/
inductive NamesIn : J → List Str → Prop
  | list {l : List Str} : NamesIn (.list l) l
  | dict (d : KV) : NamesIn (.dict d) d.keys

end Oelint.Spec

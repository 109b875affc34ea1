import Verif.Model.Setters
import Verif.Spec.Returned
/-! What assigning an attribute of an item changes (C93). -/
namespace Oelint.Spec
variable [Uni]

/-- the attribute that is assigned -/
def Setter.attr : Setter → Str
  | .line _ => c!"Line"
  | .raw _ => c!"Raw"
  | .realRaw _ => c!"RealRaw"
  | .includedFrom _ => c!"IncludedFrom"
  | .varValue _ => c!"VarValue"
  | .funcBody _ => c!"FuncBody"

/-- the value that is assigned -/
def Setter.value : Setter → Attr
  | .line n => .int n
  | .raw t => .str t
  | .realRaw t => .str t
  | .includedFrom l => .strset l
  | .varValue t => .str t
  | .funcBody t => .str t

/-- the attributes that are computed from the assigned one -/
def derived : List (Str × Str) := [(c!"VarValue", c!"VarValueStripped"), (c!"FuncBody", c!"FuncBodyStripped")]

/-- the attributes that can be assigned -/
def settable : List Str := [c!"Line", c!"Raw", c!"RealRaw", c!"IncludedFrom", c!"VarValue", c!"FuncBody"]

/-- an attribute whose value changes when one of `attrs` is assigned -/
def follows (attrs : List Str) (n : Str) : Bool :=
  (settable.contains n && attrs.contains n) || derived.any (fun d => attrs.contains d.1 && d.2 == n)

/-- a filter that compares such an attribute with a text; `Line` is a number and `IncludedFrom` a set, both are never equal to a text -/
def compares (attrs names vals : List Str) : Bool :=
  !vals.isEmpty && names.any (fun n => follows attrs n && n != c!"Line" && n != c!"IncludedFrom")

/-- a question whose remembered answer may be wrong after assignments to `attrs` -/
def Question.outdated (attrs : List Str) : Question → Bool
  | .itemsFor f => compares attrs f.attname.norm f.attvalue.norm
  | .reduce _ f => compares attrs f.attname.norm f.attvalue.norm
  | .expandVar _ a v _ => compares attrs a.norm v.norm
  | .packageNames .. | .namedResources _ => attrs.contains c!"VarValue" || attrs.contains c!"Line"
  | q => q.neverCleared

/-- the iteration order of a set of items depends on which objects they are, not on their attributes -/
def OrderByIdentity (W : World) : Prop :=
  ∀ (l : List Item) (g : Item → Item), (∀ x ∈ l, (g x).uid = x.uid) → W.itemOrder (l.map g) = (W.itemOrder l).map g

/-- `c` comes about by successful calls, calls of `AddFile` that failed while reading files, any questions, and assignments to the attributes `attrs` of items that have them; the items in the
stash are different objects -/
inductive LivedAssign (W : World) (attrs : List Str) : CStash → CStash → Prop
  | nil {c} : LivedAssign W attrs c c
  | call {c0 c c' : CStash} {depth : Nat} {k : Call} {r : List Item} (h : LivedAssign W attrs c0 c)
      (hk : k.perform W depth c = (.ok r, c')) : LivedAssign W attrs c0 c'
  | failed {c0 c c' : CStash} {depth : Nat} {path : Str} {off : Int} {forced : Option Str} {e : PyErr} (h : LivedAssign W attrs c0 c)
      (hk : (Call.addFile path off forced).perform W depth c = (.error e, c')) (he : PyErr.early e = true) : LivedAssign W attrs c0 c'
  | ask {c0 c : CStash} (h : LivedAssign W attrs c0 c) (q : Question) : LivedAssign W attrs c0 (q.ask W c).2
  | assign {c0 c : CStash} (h : LivedAssign W attrs c0 c) (u : Nat) (a : Setter) (ha : Setter.attr a ∈ attrs)
      (hd : (c.base.items.map (·.uid)).Nodup) (hx : ∀ x ∈ c.base.items, x.uid = u → (dget (Setter.attr a) x.getAttributes).isSome = true) :
      LivedAssign W attrs c0 (c.assign u a)

end Oelint.Spec

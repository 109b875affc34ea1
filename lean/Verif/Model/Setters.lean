import Verif.Model.Cache
/-!
# Assigning attributes of items

The properties with a setter: `Line`, `Raw`, `RealRaw`, `IncludedFrom`, `VarValue`, `FuncBody`
(`/repo/oelint_parser/cls_item.py:61-63,74-76,105-107,149-151,331-333,698-700`).  An item is an object, so an assignment is seen
wherever the object is: in the stash, among the arguments of remembered results and in remembered results.  `uid` says which object it is.
Not modelled: assigning an attribute the class of the item has no setter for.
-/
namespace Oelint
variable [Uni]

/-- an assignment `item.ATTRIBUTE = value` -/
inductive Setter where
  /-- `/repo/oelint_parser/cls_item.py:61-63` -/
  | line (n : Int)
  /-- `/repo/oelint_parser/cls_item.py:74-76` -/
  | raw (t : Str)
  /-- `/repo/oelint_parser/cls_item.py:105-107` -/
  | realRaw (t : Str)
  /-- `/repo/oelint_parser/cls_item.py:149-151` -/
  | includedFrom (l : List Str)
  /-- `/repo/oelint_parser/cls_item.py:331-333`, of `Variable` -/
  | varValue (t : Str)
  /-- `/repo/oelint_parser/cls_item.py:698-700`, of `Function` -/
  | funcBody (t : Str)

/-- the setters, `/repo/oelint_parser/cls_item.py:63,76,107,151,333,700` -/
def Item.assign (a : Setter) (x : Item) : Item :=
  match a with
  | .line n => { x with line := n }
  | .raw t => { x with raw := t }
  | .realRaw t => { x with realRaw := t }
  | .includedFrom l => addIncluded l x
  | .varValue t =>
    match x.payload with
    | .variable v => { x with payload := .variable { v with varValue := t } }
    | _ => x
  | .funcBody t =>
    match x.payload with
    | .function f => { x with payload := .function { f with funcBody := t } }
    | _ => x

/-- an item after an assignment to the object with the identity `u`, `/repo/oelint_parser/cls_item.py:63,76,107,151,333,700` -/
def assignTo (u : Nat) (a : Setter) (x : Item) : Item := if x.uid = u then x.assign a else x

/-- the stash after the assignment; the list of items (`/repo/oelint_parser/cls_stash.py:132`) holds the objects -/
def Stash.assign (u : Nat) (a : Setter) (s : Stash) : Stash := { s with items := s.items.map (assignTo u a) }

/-- the arguments of a remembered call after the assignment: tuples of the same objects
(`/repo/oelint_parser/cls_stash.py:345-374,416-424`) -/
def CKey.assign (u : Nat) (a : Setter) : CKey → CKey
  | .linked x f n => .linked (assignTo u a x).ident f n
  | .byFile l f n => .byFile (l.map (fun x => (assignTo u a x).ident)) f n
  | .byClassifier l cs => .byClassifier (l.map (fun x => (assignTo u a x).ident)) cs
  | .byAttribute l ns vs => .byAttribute (l.map (fun x => (assignTo u a x).ident)) ns vs
  | k => k

/-- a remembered result after the assignment: a list of the same objects (`/repo/oelint_parser/cls_stash.py:345-374`) -/
def CVal.assign (u : Nat) (a : Setter) : CVal → CVal
  | .items l => .items (l.map (fun x => (assignTo u a x).ident))
  | v => v

/-- the stash and its caches after the assignment; the setters empty no cache (`/repo/oelint_parser/cls_item.py:63,76,107,151,333,700`) -/
def CStash.assign (u : Nat) (a : Setter) (c : CStash) : CStash :=
  { base := c.base.assign u a, tab := c.tab.map (fun e => (e.1.assign u a, e.2.assign u a)) }

end Oelint

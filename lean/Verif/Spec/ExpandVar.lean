import Verif.Spec.Expand
import Verif.Spec.Statements
/-! Specifications for the values `ExpandVar` gives (C52, C53, C54, C55). The value of a variable is described as bitbake defines
it, from the statements about the variable in the order of their lines. -/
namespace Oelint.Spec
variable [Uni]

/-- what can happen to a variable at once -/
inductive Event where
  | assign (op value : Str)
  | unset
  deriving DecidableEq, Repr

/-- a variable in bitbake: the value, and the default that `??=` gave -/
structure Cell where
  value : Option Str
  weak : Option Str

/-- one statement -/
def Cell.step (c : Cell) : Event → Cell
  | .unset => ⟨none, none⟩
  | .assign op v =>
    if op = c!"=" ∨ op = c!":=" then { c with value := some v }
    else if op = c!"?=" then { c with value := some (c.value.getD v) }
    else if op = c!"??=" then { c with weak := some v }
    else if op = c!"+=" then { c with value := some (c.value.getD [] ++ c!" " ++ v) }
    else if op = c!"=+" then { c with value := some (v ++ c!" " ++ c.value.getD []) }
    else if op = c!".=" then { c with value := some (c.value.getD [] ++ v) }
    else if op = c!"=." then { c with value := some (v ++ c.value.getD []) }
    else c

/-- statements in their order -/
def Cell.run (c : Cell) (es : List Event) : Cell := es.foldl Cell.step c

/-- the value: the default counts only if there is no other -/
def Cell.get (c : Cell) : Option Str := c.value.or c.weak

/-- no statement but `=`, `:=` and `unset` follows a `??=` that gives the variable its first value -/
def WeakLast (c : Cell) (es : List Event) : Prop :=
  ∀ pre v post, es = pre ++ .assign c!"??=" v :: post → (c.run pre).value = none →
    ∀ e ∈ post.head?, e = .unset ∨ ∃ w, e = .assign c!"=" w ∨ e = .assign c!":=" w

/-- `append`, `prepend` or `remove` is an override of the variable -/
def Modifies (v : VarData) : Prop := c!"append" ∈ v.subItems ∨ c!"prepend" ∈ v.subItems ∨ c!"remove" ∈ v.subItems

instance (v : VarData) : Decidable (Modifies v) := by unfold Modifies; infer_instance

/-- what the item does to the variable `n` at once; names are compared without `append`, `prepend`, `remove` -/
def eventOf (n : Str) (x : Item) : Option Event :=
  match x.payload with
  | .unset m flag => if m = n ∧ flag = [] then some .unset else none
  | .variable v =>
    if ¬ Modifies v ∧ varNameCompleteNoModifiers x.delim v = n then some (.assign (stripP pySpace v.varOp) (varValueStripped v))
    else none
  | _ => none

/-- the statements that act at once -/
def events (n : Str) (its : List Item) : List Event := its.filterMap (eventOf n)

/-- the statement for `n` with `append`, `prepend` or `remove` -/
def modOf (n : Str) (x : Item) : Option VarData :=
  match x.payload with
  | .variable v => if Modifies v ∧ varNameCompleteNoModifiers x.delim v = n then some v else none
  | _ => none

/-- the statements that act later -/
def mods (n : Str) (its : List Item) : List VarData := its.filterMap (modOf n)

/-- the texts to append, prepend, remove, in the order of the statements -/
def appends (ms : List VarData) : List Str := (ms.filter (fun v => c!"append" ∈ v.subItems)).map varValueStripped
/-- see `appends` -/
def prepends (ms : List VarData) : List Str :=
  (ms.filter (fun v => c!"append" ∉ v.subItems ∧ c!"prepend" ∈ v.subItems)).map varValueStripped
/-- see `appends` -/
def removes (ms : List VarData) : List Str := (ms.filter (fun v => c!"remove" ∈ v.subItems)).map varValueStripped

/-- the text with everything that is prepended and appended -/
def extended (base : Str) (ms : List VarData) : Str := (prepends ms).reverse.flatten ++ base ++ (appends ms).flatten

/-- the statements of the file and its links that `ExpandVar` looks at, in the order of `Line` -/
structure InOrder (s : Stash) (file : Str) (att val : Arg) (nolink : Bool) (its : List Item) : Prop where
  mem : ∀ x, x ∈ its ↔ x ∈ s.items ∧
    (Selected s { filename := some file, classifier := .one c!"Variable", attname := att, attvalue := val, nolink } x ∨
      Selected s { filename := some file, classifier := .one c!"Unset" } x)
  sorted : its.Pairwise (fun a b => a.line ≤ b.line)
  nodup : its.Nodup

/-- the value a variable starts with: the base set, else what the name of the file says -/
inductive Base (s : Stash) (file n : Str) : Option Str → Prop
  | base {b : KV} {t : Str} : setsBase s.consts = .ok (.dict b) → b.get n = some (.str t) → Base s file n (some t)
  | name {b : KV} {t : Str} : setsBase s.consts = .ok (.dict b) → b.get n = none → n ∈ [c!"PN", c!"PV", c!"BPN"] →
      FromFileName file n t → Base s file n (some t)
  | none {b : KV} : setsBase s.consts = .ok (.dict b) → b.get n = none → n ∉ [c!"PN", c!"PV", c!"BPN"] → Base s file n none

/-- the assignments to `n` are written with one blank on each side of the operator -/
def OneBlank (n : Str) (its : List Item) : Prop :=
  ∀ x ∈ its, ∀ v, x.payload = .variable v → ¬ Modifies v → varNameCompleteNoModifiers x.delim v = n →
    ∃ op ∈ operators, v.varOp = c!" " ++ op ++ c!" "

/-- the placeholder for inline python -/
def inlinePlaceholder : Str := c!"!!!inlineblock!!!"

/-- no value assigned to `n` contains the placeholder for inline python -/
def NoInline (n : Str) (its : List Item) : Prop :=
  ∀ e ∈ events n its, ∀ op t, e = .assign op t → ¬ inlinePlaceholder <:+: t

/-- the names that the result can have: of the variables, of the base set, and the three from the name of the file -/
def ResultName (s : Stash) (its : List Item) (k : Str) : Prop :=
  (∃ x ∈ its, ∃ v, x.payload = .variable v ∧ varNameCompleteNoModifiers x.delim v = k) ∨
  (∃ b, setsBase s.consts = .ok (.dict b) ∧ k ∈ b.keys) ∨ k ∈ [c!"PN", c!"PV", c!"BPN"]

/-- none of the names contains a reference -/
def PlainNames (s : Stash) (its : List Item) : Prop := ∀ k, ResultName s its k → '$' ∉ k ∧ '(' ∉ k

/-- the variable has a value or at least statements -/
def Present (base : Option Str) (es : List Event) (ms : List VarData) : Prop :=
  ms ≠ [] ∨ (∃ op v, es.getLast? = some (.assign op v)) ∨ (es = [] ∧ base ≠ none)

/-- the result has for `n` the items of the expansion of `text` -/
def Gives (W : World) (s : Stash) (file : Str) (r : List (Str × List Str)) (n text : Str) : Prop :=
  ∃ t, expandTerm W s file text = .ok t ∧ dget n r = some (safeLinesplit t)

/-- the variable has a value before the modifiers act, or the first of them appends or prepends -/
def KnownFirst (base : Option Str) (es : List Event) (ms : List VarData) : Prop :=
  Present base es [] ∨ ∀ v ∈ ms.head?, c!"append" ∈ v.subItems ∨ c!"prepend" ∈ v.subItems

/-- the text without the removed texts, one after the other -/
def without (t : Str) (rs : List Str) : Str := rs.foldl (fun t w => replaceAll w [] t) t

end Oelint.Spec

import Verif.Spec.ExpandVar
import Mathlib.Data.List.Forall2
/-! What `ExpandVar` gives exactly, where it does not follow bitbake included (C98). -/
namespace Oelint.Spec
variable [Uni]

/-- the statements that `ExpandVar` looks at, in the order of `Line` -/
structure Considered (s : Stash) (filename : Option Str) (att val : Arg) (nolink : Bool) (its : List Item) : Prop where
  mem : ∀ x, x ∈ its ↔ x ∈ s.items ∧
    (Selected s { filename, classifier := .one c!"Variable", attname := att, attvalue := val, nolink } x ∨
      Selected s { filename, classifier := .one c!"Unset" } x)
  sorted : its.Pairwise (fun a b => a.line ≤ b.line)
  nodup : its.Nodup

/-- `??=` is taken for `?=` -/
def asRead (op : Str) : Str := if op = c!"??=" then c!"?=" else op

/-- the value after an assignment: the text itself if it has inline python; nothing changes if the operator is
not written with one blank on each side; else what bitbake does, `??=` being taken for `?=` -/
inductive After (x : Item) (v : VarData) (cur : Option Str) : Option Str → Prop
  | inline : inlinePlaceholder <:+: varValueStripped v → After x v cur (some (reverseInline x.inlineBlocks v))
  | other : ¬ inlinePlaceholder <:+: varValueStripped v → (∀ op ∈ operators, v.varOp ≠ c!" " ++ op ++ c!" ") → After x v cur cur
  | op {op : Str} : ¬ inlinePlaceholder <:+: varValueStripped v → op ∈ operators → v.varOp = c!" " ++ op ++ c!" " →
      After x v cur ((⟨cur, none⟩ : Cell).step (.assign (asRead op) (varValueStripped v))).value

/-- the value of `n` after the statements that act at once; the outer `none`: there is no such variable, the inner one: it has no value -/
inductive Immediate (n : Str) : Option (Option Str) → List Item → Option (Option Str) → Prop
  | nil {o} : Immediate n o [] o
  | unset {o r x rest flag} : x.payload = .unset n flag → flag = [] → Immediate n none rest r → Immediate n o (x :: rest) r
  | assign {o r x rest v o'} : x.payload = .variable v → ¬ Modifies v → varNameCompleteNoModifiers x.delim v = n →
      After x v (o.getD none) o' → Immediate n (some o') rest r → Immediate n o (x :: rest) r
  | skip {o r x rest} : eventOf n x = none → Immediate n o rest r → Immediate n o (x :: rest) r

/-- the text the modifiers start with: the value, or for a variable that is not there, the text of a `remove` that comes first -/
def startText (o : Option (Option Str)) (ms : List VarData) : Str :=
  match o, ms with
  | some t, _ => t.getD []
  | none, [] => []
  | none, v :: _ => if c!"append" ∈ v.subItems ∨ c!"prepend" ∈ v.subItems then [] else varValueStripped v

/-- the text of the variable `n` before references are expanded -/
def TextOf (s : Stash) (file n : Str) (its : List Item) (t : Str) : Prop :=
  ∃ base o, Base s file n base ∧ Immediate n (base.map some) its o ∧
    t = without (extended (startText o (mods n its)) (mods n its)) (removes (mods n its))

/-- the names of the variables in the order they come up: an `unset` takes the name away, the next assignment adds it at the end -/
def assignedName (l : List Str) (x : Item) : List Str :=
  match x.payload with
  | .unset m flag => if flag = [] then l.filter (· ≠ m) else l
  | .variable v => if ¬ Modifies v ∧ varNameCompleteNoModifiers x.delim v ∉ l then l ++ [varNameCompleteNoModifiers x.delim v] else l
  | _ => l

/-- then those that only have modifiers -/
def modifiedName (l : List Str) (x : Item) : List Str :=
  match x.payload with
  | .variable v => if Modifies v ∧ varNameCompleteNoModifiers x.delim v ∉ l then l ++ [varNameCompleteNoModifiers x.delim v] else l
  | _ => l

/-- all names, beginning with the ones of the file name and the base set -/
def namesOf (b : KV) (its : List Item) : List Str :=
  its.foldl modifiedName (its.foldl assignedName
    ([c!"PN", c!"PV", c!"BPN"] ++ b.keys.filter (fun k => k ∉ [c!"PN", c!"PV", c!"BPN"])))

/-- every text once, in the order they come up -/
def firstOnes : List Str → List Str
  | [] => []
  | k :: ks => k :: (firstOnes ks).filter (· ≠ k)

/-- the result: names and texts are expanded; names that become equal share one entry with the items of all of them -/
def Exploded (W : World) (s : Stash) (file : Str) (its : List Item) (b : KV) (r : List (Str × List Str)) : Prop :=
  ∃ ks ts : List Str, List.Forall₂ (fun n k => expandTerm W s file n = .ok k) (namesOf b its) ks ∧
    List.Forall₂ (fun n t => ∃ u, TextOf s file n its u ∧ expandTerm W s file u = .ok t) (namesOf b its) ts ∧
    r.map (·.1) = firstOnes ks ∧
    ∀ k ∈ ks, dget k r = some (((ks.zip ts).filter (·.1 = k)).map (fun e => safeLinesplit e.2)).flatten

end Oelint.Spec

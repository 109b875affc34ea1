import Verif.Spec.Cache
/-! Callers that change what a question returned (C87). -/
namespace Oelint.Spec
variable [Uni]

/-- the remembered object that the question returned; the other questions return a new object, a text or a truth value -/
def Question.object : Question → Option CKey
  | .recipes => some .recipes
  | .loneAppends => some .loneAppends
  | .confFiles => some .confFiles
  | .bbClasses => some .bbClasses
  | .links f => some (.links f)
  | .files f p => some (.files f p)
  | .scrComponents s => some (.scr s)
  | .packageNames f b => some (.packageNames f b)
  | .namedResources f => some (.namedResources f)
  | .packagesDynamic f => some (.packagesDynamic f)
  | _ => none

/-- a caller changes the object: what it holds now is `v`. (If the caches have been emptied since it was returned, nobody else
holds it any more.) -/
def CStash.change (k : CKey) (v : CVal) (c : CStash) : CStash := { c with tab := c.tab.map (fun e => (e.1, if e.1 = k then v else e.2)) }

/-- the question reads the object: it returned it, or asks the question that did -/
def Question.reads (k : CKey) : Question → Bool
  | .isDynamicPackage f _ => decide (k = .packagesDynamic f)
  | .namedResources f => decide (k = .namedResources f) || (match k with | .scr _ => true | _ => false)
  | q => q.object == some k

/-- what a user sees of an act -/
inductive Reply where
  | answer (r : Except PyErr Answer)
  | result (r : Except PyErr (List Item))

/-- what a user sees of one act after the other -/
def observe (W : World) : List Act → CStash → List Reply
  | [], _ => []
  | .ask q :: rest, c => .answer (q.ask W c).1 :: observe W rest (q.ask W c).2
  | .call d k :: rest, c => .result (k.perform W d c).1 :: observe W rest (k.perform W d c).2

/-- the state after some acts -/
def afterActs (W : World) : List Act → CStash → CStash
  | [], c => c
  | .ask q :: rest, c => afterActs W rest (q.ask W c).2
  | .call d k :: rest, c => afterActs W rest (k.perform W d c).2

/-- none of the acts is a question that reads the object -/
def NotRead (k : CKey) (l : List Act) : Prop := ∀ q, Act.ask q ∈ l → q.reads k = false

/-- the call succeeds and is not an `AddFile` of a file that is skipped because it has been added before -/
def Updates (W : World) (depth : Nat) (call : Call) (c : CStash) : Prop :=
  (∃ r c', call.perform W depth c = (.ok r, c')) ∧ ∀ p o f, call = .addFile p o f → alreadySeen c.base (abspath W.cwd p) = false

end Oelint.Spec

import Verif.Lemmas.Setters
import Verif.Props.Cache
import Verif.Props.Recipe
/-!
# Assigning attributes of items (C93)

`c.assign u a` is the stash and what it remembers after the assignment `a` to the item with the identity `u`.
-/
set_option linter.unusedSectionVars false
namespace Oelint
section
variable [Uni]
open Spec

/-- **C93** After an assignment to an attribute the attribute has the value (`IncludedFrom` has all old and new members),
`VarValueStripped` and `FuncBodyStripped` belong to the new value, all other attributes are as before, and so is the object. -/
theorem C93_attributes (a : Setter) (x : Item) (hx : (dget (Setter.attr a) x.getAttributes).isSome = true) :
    (x.assign a).uid = x.uid ∧ (x.assign a).payload.classifier = x.payload.classifier ∧
    ((∀ l, a ≠ .includedFrom l) → (x.assign a).has (Setter.attr a) (Setter.value a)) ∧
    (∀ l, a = .includedFrom l → ∃ r, (x.assign a).has c!"IncludedFrom" (.strset r) ∧ ∀ f, f ∈ r ↔ f ∈ x.includedFrom ∨ f ∈ l) ∧
    (∀ l r val, a = .varValue (l ++ ('"' :: val ++ ['"']) ++ r) → (∀ c ∈ l, pySpace c = true) → (∀ c ∈ r, pySpace c = true) →
      val.head? ≠ some '"' → val.getLast? ≠ some '"' → (x.assign a).has c!"VarValueStripped" (.str val)) ∧
    (∀ t, a = .funcBody t → ∃ y, Trimmed (fun c => pySpace c = true) (t.filter (fun c => c ∉ ['{', '}', '\n'])) y ∧
      (x.assign a).has c!"FuncBodyStripped" (.str y)) ∧
    ∀ n, n ≠ Setter.attr a → (Setter.attr a, n) ∉ derived → dget n (x.assign a).getAttributes = dget n x.getAttributes := by
  have h1 : ∀ n, n ≠ Setter.attr a → (Setter.attr a, n) ∉ derived → follows [Setter.attr a] n = false := by
    intro n hn hd
    unfold follows
    rw [Bool.or_eq_false_iff, List.any_eq_false]
    refine ⟨?_, fun d hd' hm => ?_⟩
    · rw [Bool.and_eq_false_iff]
      right
      rw [← Bool.not_eq_true, List.contains_iff_mem, List.mem_singleton]
      exact hn
    · rw [Bool.and_eq_true, List.contains_iff_mem, List.mem_singleton, beq_iff_eq] at hm
      obtain ⟨e1, e2⟩ := hm
      exact hd (by rw [← e1, ← e2]; exact hd')
  refine ⟨assign_uid a x, assign_classifier a x, ?_, ?_, ?_, ?_, fun n hn hd => dget_assign a x n (h1 n hn hd)⟩
  all_goals obtain ⟨uid, line, raw, origin, ifl, inc, ib, rr, dl, p⟩ := x
  · intro hne
    cases a with
    | includedFrom l => exact absurd rfl (hne l)
    | varValue t =>
      cases p with
      | «variable» v => rfl
      | _ => exact absurd hx (by simp [Setter.attr, dget, Item.getAttributes, baseAttributes, ownAttributes])
    | funcBody t =>
      cases p with
      | function v => rfl
      | _ => exact absurd hx (by simp [Setter.attr, dget, Item.getAttributes, baseAttributes, ownAttributes])
    | _ => cases p <;> rfl
  · rintro l rfl
    refine ⟨_, dget_includedFrom _, fun f => ?_⟩
    show f ∈ inc ++ (dedup l).filter (fun f => !inc.contains f) ↔ f ∈ inc ∨ f ∈ l
    rw [List.mem_append, List.mem_filter, mem_dedup, Bool.not_eq_true', ← Bool.not_eq_true, List.contains_iff_mem]
    tauto
  · rintro l r val rfl hl hr hh ht
    cases p with
    | «variable» v =>
      show some (Attr.str (varValueStripped { v with varValue := l ++ ('"' :: val ++ ['"']) ++ r })) = some (Attr.str val)
      rw [(C21_var_value_stripped _).1 l r val rfl hl hr hh ht]
    | _ => exact absurd hx (by simp [Setter.attr, dget, Item.getAttributes, baseAttributes, ownAttributes])
  · rintro t rfl
    cases p with
    | function v =>
      refine ⟨funcBodyStripped { v with funcBody := t }, ?_, rfl⟩
      rw [funcBodyStripped_eq]
      have : (fun c => c != '{' && c != '}' && c != '\n') = (fun c => decide (c ∉ ['{', '}', '\n'])) := by
        funext c
        by_cases a : c = '{' <;> by_cases b : c = '}' <;> by_cases d : c = '\n' <;> simp [a, b, d]
      rw [this]
      exact strip_trimmed _ _
    | _ => exact absurd hx (by simp [Setter.attr, dget, Item.getAttributes, baseAttributes, ownAttributes])

/-- **C93** An assignment changes the one object: the stash holds the same objects in the same order, and what is not that object is as
before. -/
theorem C93_one_object (u : Nat) (a : Setter) (c : CStash) :
    (c.assign u a).base.items.map (·.uid) = c.base.items.map (·.uid) ∧
    (∀ i (hi : i < c.base.items.length), ∃ y, (c.assign u a).base.items[i]? = some y ∧
      (c.base.items[i].uid = u → y = c.base.items[i].assign a) ∧ (c.base.items[i].uid ≠ u → y = c.base.items[i])) ∧
    { (c.assign u a).base with items := [] } = { c.base with items := [] } := by
  refine ⟨uids_assign u a _, fun i hi => ⟨assignTo u a c.base.items[i], ?_, ?_, ?_⟩, rfl⟩
  · show (c.base.items.map (assignTo u a))[i]? = _
    rw [List.getElem?_map, List.getElem?_eq_getElem hi]
    rfl
  · intro h; unfold assignTo; rw [if_pos h]
  · intro h; unfold assignTo; rw [if_neg h]

/-- **C93** (partial) However calls, questions and assignments to the attributes `attrs` have alternated, a question is answered from the
present attributes. Missing: `GetItemsFor`, `Reduce` and `ExpandVar` with a filter that compares one of these attributes,
`GetValidPackageNames` and `GetValidNamedResources` if `VarValue` or `Line` is among them, and the questions of C34 whose answers are
never forgotten; for them it is false (`C93_counterexample`). -/
theorem C93_seen_partial (W : World) (hW : OrderByIdentity W) (newStyle negative : Bool) (consts : J) (uid : Nat) (attrs : List Str) {c : CStash}
    (h : LivedAssign W attrs (CStash.init newStyle negative consts uid) c) (q : Question) (hq : q.outdated attrs = false) :
    (q.ask W c).1 = q.fresh W c.base := by
  obtain ⟨h1, h2⟩ := touches_of_outdated hq
  have hv := valid_livedAssign hW h (valid_init W newStyle negative consts uid)
  obtain ⟨c', h3, -, -⟩ := reads_question q h2 _ hv
  rw [blind_question W q h1 c] at h3
  exact (Prod.mk.inj h3).1

/-- **C93** After a successful update of the stash every question (but those of C34) is answered from the present attributes, whatever
was assigned before, until something is assigned again. -/
theorem C93_after_update (W : World) (hW : OrderByIdentity W) (newStyle negative : Bool) (consts : J) (uid : Nat) (attrs : List Str) {c c' c'' : CStash}
    (h : LivedAssign W attrs (CStash.init newStyle negative consts uid) c) {depth : Nat} {call : Call} {r : List Item}
    (hu : Updates W depth call c) (hc : call.perform W depth c = (.ok r, c')) (hl : Lived W c' c'') (q : Question) (hq : q.neverCleared = false) :
    (q.ask W c'').1 = q.fresh W c''.base := by
  have hv := valid_livedAssign hW (h.call hc) (valid_init W newStyle negative consts uid)
  have hn : NoCleared c' := by
    rcases cleared_call hc with ⟨-, p, o, f, rfl, ha⟩ | hn
    · rw [hu.2 p o f rfl] at ha; cases ha
    · exact hn
  have hv' : Valid W c' := by
    intro e he hk
    refine hv e (List.mem_filter.2 ⟨he, ?_⟩) hk
    have := hn e he
    obtain ⟨k, v⟩ := e
    cases k <;> first | rfl | cases this
  obtain ⟨c3, h3, -, -⟩ := reads_question q hq _ (valid_lived hl hv')
  rw [h3]

theorem livedAssign_of_lived {W : World} {attrs : List Str} {c0 c : CStash} (h : Lived W c0 c) : LivedAssign W attrs c0 c := by
  induction h with
  | nil => exact .nil
  | call h hk ih => exact ih.call hk
  | failed h hk he ih => exact ih.failed hk he
  | ask h q ih => exact ih.ask q

end
end Oelint

/-! ## examples -/
namespace Oelint
open Spec
section
attribute [local instance] Sample.asciiUni

/-- the full statement: a question is answered from the present attributes -/
def AssignmentsSeen (W : World) (c0 : CStash) : Prop :=
  ∀ (attrs : List Str) (c : CStash) (q : Question), LivedAssign W attrs c0 c → q.neverCleared = false → (q.ask W c).1 = q.fresh W c.base

/-- a recipe with a list of packages and a function -/
def Sample.setWorld : World := Sample.world [ (c!"/w/a_1.bb", c!"PACKAGES = \"x\"\ndo_it() {\n    a\n}\n") ]

/-- the values of the items in an answer -/
def Sample.values : Except PyErr Answer → List Str
  | .ok (.items l) => (varsOf l).map (·.varValue)
  | _ => []

/-- the sample orders items by identity only -/
theorem Sample.setWorld_order : OrderByIdentity Sample.setWorld := fun _ _ _ => rfl

/-- ask for the items with the value `"x"` and for the packages, after adding the recipe -/
def Sample.setActs : List Act :=
  [.call 9 (.addFile c!"/w/a_1.bb" 0 none), .ask (.itemsFor { attname := .one c!"VarValue", attvalue := .one c!"\"x\"" }),
    .ask (.packageNames c!"/w/a_1.bb" false)]

/-- **C93** (counterexample) After `item.VarValue = '"y"'` `GetItemsFor(attribute='VarValue', attributeValue='"x"')` still returns the item, and
`GetValidPackageNames` still returns `x` and not `y`, if they have been asked before; `ExpandTerm` uses the new value. -/
theorem C93_counterexample : ¬ AssignmentsSeen Sample.setWorld Sample.cached ∧
    ∃ c, LivedAssign Sample.setWorld [c!"VarValue"] Sample.cached c ∧
      Sample.values ((Question.itemsFor { attname := .one c!"VarValue", attvalue := .one c!"\"x\"" }).ask Sample.setWorld c).1 = [c!"\"y\""] ∧
      Sample.values ((Question.itemsFor { attname := .one c!"VarValue", attvalue := .one c!"\"x\"" }).fresh Sample.setWorld c.base) = [] ∧
      (∃ l, ((Question.packageNames c!"/w/a_1.bb" false).ask Sample.setWorld c).1 = .ok (.names l) ∧ c!"x" ∈ l ∧ c!"y" ∉ l) ∧
      (∃ l, (Question.packageNames c!"/w/a_1.bb" false).fresh Sample.setWorld c.base = .ok (.names l) ∧ c!"y" ∈ l ∧ c!"x" ∉ l) ∧
      ((Question.expandTerm c!"/w/a_1.bb" c!"${PACKAGES}" []).ask Sample.setWorld c).1 = .ok (.text c!"y") := by
  have hex : ∃ c, LivedAssign Sample.setWorld [c!"VarValue"] Sample.cached c ∧
      Sample.values ((Question.itemsFor { attname := .one c!"VarValue", attvalue := .one c!"\"x\"" }).ask Sample.setWorld c).1 = [c!"\"y\""] ∧
      Sample.values ((Question.itemsFor { attname := .one c!"VarValue", attvalue := .one c!"\"x\"" }).fresh Sample.setWorld c.base) = [] ∧
      (∃ l, ((Question.packageNames c!"/w/a_1.bb" false).ask Sample.setWorld c).1 = .ok (.names l) ∧ c!"x" ∈ l ∧ c!"y" ∉ l) ∧
      (∃ l, (Question.packageNames c!"/w/a_1.bb" false).fresh Sample.setWorld c.base = .ok (.names l) ∧ c!"y" ∈ l ∧ c!"x" ∉ l) ∧
      ((Question.expandTerm c!"/w/a_1.bb" c!"${PACKAGES}" []).ask Sample.setWorld c).1 = .ok (.text c!"y") := by
    obtain ⟨r, c, h1, h2⟩ := Sample.played_iff (W := Sample.setWorld) (l := Sample.setActs)
      (p := fun c =>
        let d := c.assign 0 (.varValue c!"\"y\"")
        decide ((c.base.items.map (·.uid)).Nodup) && c.base.items.all (fun x => x.uid != 0 || (dget c!"VarValue" x.getAttributes).isSome) &&
        decide (Sample.values ((Question.itemsFor { attname := .one c!"VarValue", attvalue := .one c!"\"x\"" }).ask Sample.setWorld d).1 = [c!"\"y\""]) &&
        decide (Sample.values ((Question.itemsFor { attname := .one c!"VarValue", attvalue := .one c!"\"x\"" }).fresh Sample.setWorld d.base) = []) &&
        (match ((Question.packageNames c!"/w/a_1.bb" false).ask Sample.setWorld d).1 with
          | .ok (.names l) => l.contains c!"x" && !l.contains c!"y"
          | _ => false) &&
        (match (Question.packageNames c!"/w/a_1.bb" false).fresh Sample.setWorld d.base with
          | .ok (.names l) => l.contains c!"y" && !l.contains c!"x"
          | _ => false) &&
        decide (((Question.expandTerm c!"/w/a_1.bb" c!"${PACKAGES}" []).ask Sample.setWorld d).1 = .ok (.text c!"y"))) (by decide +kernel)
    simp only [Bool.and_eq_true, decide_eq_true_eq] at h2
    obtain ⟨⟨⟨⟨⟨⟨g1, g2⟩, g3⟩, g4⟩, g5⟩, g6⟩, g7⟩ := h2
    refine ⟨_, (livedAssign_of_lived (lived_play _ h1)).assign 0 (.varValue c!"\"y\"") (by simp [Setter.attr]) g1 ?_, g3, g4, ?_, ?_, g7⟩
    · intro x hx hu
      have := List.all_eq_true.1 g2 x hx
      rw [hu] at this
      simpa [Setter.attr] using this
    · split at g5
      · rename_i l hl
        rw [Bool.and_eq_true, Bool.not_eq_true', ← Bool.not_eq_true, List.contains_iff_mem, List.contains_iff_mem] at g5
        exact ⟨l, hl, g5⟩
      · cases g5
    · split at g6
      · rename_i l hl
        rw [Bool.and_eq_true, Bool.not_eq_true', ← Bool.not_eq_true, List.contains_iff_mem, List.contains_iff_mem] at g6
        exact ⟨l, hl, g6⟩
      · cases g6
  refine ⟨fun h => ?_, hex⟩
  obtain ⟨c, h1, h2, h3, -⟩ := hex
  rw [h [c!"VarValue"] c _ h1 rfl, h3] at h2
  cases h2

/-- **C93** (counterexample) `item.IncludedFrom = set()` takes nothing out, and `FuncBodyRaw` does not follow `FuncBody`. -/
theorem C93_surprises : (∃ x : Item, x.includedFrom ≠ [] ∧ (x.assign (.includedFrom [])).includedFrom = x.includedFrom) ∧
    ∃ x : Item, x.has c!"FuncBody" (.str c!"a") ∧ x.has c!"FuncBodyRaw" (.str c!"a") ∧
      (x.assign (.funcBody c!"b")).has c!"FuncBody" (.str c!"b") ∧ (x.assign (.funcBody c!"b")).has c!"FuncBodyRaw" (.str c!"a") := by
  let f : FuncData := ⟨false, false, c!"f", [], [], c!"a", c!"a"⟩
  let x : Item := ⟨0, 1, [], [], 1, [c!"/w/a_1.bb"], [], [], ':', .function f⟩
  exact ⟨⟨x, by simp [x], rfl⟩, x, rfl, rfl, rfl, rfl⟩

/-- C93: the theorems apply to the sample: the value can be assigned, and then `ExpandTerm` uses it -/
example : ∃ c, LivedAssign Sample.setWorld [c!"VarValue"] Sample.cached c ∧
    ((Question.expandTerm c!"/w/a_1.bb" c!"${PACKAGES}" []).ask Sample.setWorld c).1 = .ok (.text c!"y") ∧
    (Question.expandTerm c!"/w/a_1.bb" c!"${PACKAGES}" []).fresh Sample.setWorld c.base = .ok (.text c!"y") := by
  obtain ⟨c, h1, -, -, -, -, h2⟩ := C93_counterexample.2
  exact ⟨c, h1, h2, by rw [← h2]; exact (C93_seen_partial Sample.setWorld Sample.setWorld_order _ _ _ _ _ h1 _ rfl).symm⟩

/-- C93: after the next update (here an `Append` of nothing) `GetValidPackageNames` is right again -/
example : ∃ c, LivedAssign Sample.setWorld [c!"VarValue"] Sample.cached c ∧
    ∃ c', (Call.append []).perform Sample.setWorld 9 c = (.ok [], c') ∧
      ((Question.packageNames c!"/w/a_1.bb" false).ask Sample.setWorld c').1 =
        (Question.packageNames c!"/w/a_1.bb" false).fresh Sample.setWorld c'.base := by
  obtain ⟨c, h1, -⟩ := C93_counterexample.2
  exact ⟨c, h1, _, rfl, C93_after_update Sample.setWorld Sample.setWorld_order _ _ _ _ _ h1 (call := .append []) (depth := 9)
    ⟨⟨_, _, rfl⟩, fun _ _ _ h => by cases h⟩ rfl .nil _ rfl⟩

end
end Oelint

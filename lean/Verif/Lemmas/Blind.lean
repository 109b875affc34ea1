import Verif.Spec.Setters
import Verif.Lemmas.CacheOps
/-! What does not read outdated results (C93). -/
set_option linter.unusedSectionVars false
namespace Oelint
variable [Uni]
open Spec

/-- a key whose remembered result may be wrong after assignments to `attrs` -/
def CKey.stale (attrs : List Str) : CKey → Bool
  | .byAttribute _ ns vs => compares attrs ns vs
  | .packageNames .. | .namedResources _ => attrs.contains c!"VarValue" || attrs.contains c!"Line"
  | _ => false

/-- forget the results that may be wrong -/
def CStash.drop (attrs : List Str) (c : CStash) : CStash := { c with tab := c.tab.filter (fun e => !e.1.stale attrs) }

/-- the results that may be wrong can be forgotten before or after `x` -/
def Blind {α : Type} (attrs : List Str) (x : CM α) : Prop := ∀ c : CStash, x (c.drop attrs) = ((x c).1, (x c).2.drop attrs)

theorem nocmp_var (attrs : List Str) (file name : Str) :
    compares attrs (varFilter file name).attname.norm (varFilter file name).attvalue.norm = false := by
  unfold compares follows
  have : (varFilter file name).attname.norm = [c!"VarName"] := rfl
  rw [this]
  have h1 : settable.contains c!"VarName" = false := by decide
  have h2 : derived.any (fun d => attrs.contains d.1 && d.2 == c!"VarName") = false := by
    unfold derived
    simp only [List.any_cons, List.any_nil, show ((c!"VarValueStripped" : Str) == c!"VarName") = false by decide,
      show ((c!"FuncBodyStripped" : Str) == c!"VarName") = false by decide, Bool.and_false, Bool.or_false]
  simp only [List.any_cons, List.any_nil, h1, h2, Bool.false_and, Bool.or_false, Bool.and_false]

theorem nocmp_none (attrs vals : List Str) : compares attrs [] vals = false := by simp [compares]

/-- the filters that the stash uses itself do not compare assigned attributes -/
macro "nocmp" : tactic => `(tactic| first | exact nocmp_var _ _ _ | exact nocmp_none _ _ | assumption)

section
variable {attrs : List Str} {α β : Type}

theorem blind_pure (a : α) : Blind attrs (pure a : CM α) := fun _ => rfl
theorem blind_lift (x : Except PyErr α) : Blind attrs (CM.lift x) := fun _ => rfl
theorem blind_ask (f : Stash → Except PyErr α) : Blind attrs (CM.ask f) := fun _ => rfl
theorem blind_base (x : M α) : Blind attrs (CM.base x) := fun _ => rfl

theorem blind_bind {x : CM α} {g : α → CM β} (hx : Blind attrs x) (hg : ∀ a, Blind attrs (g a)) : Blind attrs (x >>= g) := by
  intro c
  show CM.bind x g _ = ((CM.bind x g c).1, (CM.bind x g c).2.drop attrs)
  unfold CM.bind
  rw [hx c]
  rcases x c with ⟨r, c'⟩
  cases r with
  | error e => rfl
  | ok a => exact hg a c'

theorem blind_clear : Blind attrs CM.clear := by
  intro c
  show (Except.ok (), (c.drop attrs).clear) = (Except.ok (), c.clear.drop attrs)
  unfold CStash.drop CStash.clear
  simp only [List.filter_filter]
  congr 3
  funext e
  rw [Bool.and_comm]

theorem lookup_drop {k : CKey} (h : k.stale attrs = false) (t : List (CKey × CVal)) :
    (t.filter (fun e => !e.1.stale attrs)).lookup k = t.lookup k := by
  induction t with
  | nil => rfl
  | cons e t ih =>
    obtain ⟨a, b⟩ := e
    rw [List.filter_cons, List.lookup_cons]
    by_cases ha : k = a
    · subst ha
      simp only [h, Bool.not_false, if_true, List.lookup_cons, beq_self_eq_true]
    · have : (k == a) = false := by simpa using ha
      simp only [this]
      split
      · rw [List.lookup_cons, this]; exact ih
      · exact ih

theorem blind_memo {k : CKey} {x : CM CVal} (h : k.stale attrs = false) (hx : Blind attrs x) : Blind attrs (memo k x) := by
  intro c
  unfold memo
  have e : (c.drop attrs).tab.lookup k = c.tab.lookup k := lookup_drop h c.tab
  rw [e]
  cases c.tab.lookup k with
  | some w => rfl
  | none =>
    simp only
    rw [hx c]
    rcases x c with ⟨r, c'⟩
    cases r with
    | error e => rfl
    | ok a => simp only [CStash.drop, List.filter_cons, h, Bool.not_false, if_true]

theorem blind_map {f : α → CM β} (hf : ∀ a, Blind attrs (f a)) (l : List α) : Blind attrs (cMap f l) := by
  induction l with
  | nil => exact blind_pure _
  | cons a l ih => exact blind_bind (hf a) (fun _ => blind_bind ih (fun _ => blind_pure _))

end

section
variable {attrs : List Str} (W : World)

theorem blind_linked (file : Str) (nolink : Bool) (x : Item) : Blind attrs (cLinked file nolink x) :=
  blind_bind (blind_memo rfl (blind_ask _)) (fun _ => blind_pure _)

theorem blind_linkedFilter (file : Str) (nolink : Bool) (l : List Item) :
    Blind attrs (cLinkedFilter file nolink l) := by
  induction l with
  | nil => exact blind_pure _
  | cons a l ih => exact blind_bind (blind_linked _ _ _) (fun _ => blind_bind ih (fun _ => blind_pure _))

theorem blind_stepFile (f : Filter) (l : List Item) : Blind attrs (cStepFile f l) := by
  unfold cStepFile
  split
  · split
    · exact blind_pure _
    · exact blind_bind (blind_memo rfl (blind_bind (blind_linkedFilter _ _ _) (fun _ => blind_pure _))) (fun _ => blind_pure _)
  · exact blind_pure _

theorem blind_stepClassifier (f : Filter) (l : List Item) : Blind attrs (cStepClassifier f l) := by
  unfold cStepClassifier
  split
  · exact blind_pure _
  · exact blind_bind (blind_memo rfl (blind_pure _)) (fun _ => blind_pure _)

theorem blind_reduce (l : List Item) (f : Filter) (hf : compares attrs f.attname.norm f.attvalue.norm = false) :
    Blind attrs (cReduce W l f) := by
  unfold cReduce cApplyFilter
  refine blind_bind (blind_bind (blind_stepFile _ _) (fun _ => blind_bind (blind_stepClassifier _ _) (fun _ => ?_))) (fun _ => blind_pure _)
  unfold cStepAttribute
  split
  · exact blind_pure _
  · exact blind_bind (blind_memo hf (blind_pure _)) (fun _ => blind_pure _)

theorem blind_itemsFor (f : Filter) (hf : compares attrs f.attname.norm f.attvalue.norm = false) : Blind attrs (cItemsFor W f) :=
  blind_bind (blind_ask _) (fun _ => blind_reduce W _ _ hf)

theorem blind_expandOne (b : J) {rec : Str → Seen → CM (Str × Seen)} (hr : ∀ t sn, Blind attrs (rec t sn))
    (file : Str) (spare : List Str) (quote : Str) (m : Mt) (res : Str) (seen : Seen) :
    Blind attrs (cExpandOne W b rec file spare quote m res seen) := by
  unfold cExpandOne
  simp only
  split
  · exact blind_pure _
  · refine blind_bind (blind_itemsFor W _ (by nocmp)) (fun l => ?_)
    split
    · exact blind_lift _
    · exact blind_pure _
    · exact blind_pure _
    · split
      · exact blind_pure _
      · exact blind_bind (hr _ _) (fun _ => blind_pure _)

theorem blind_expandMany (b : J) {rec : Str → Seen → CM (Str × Seen)} (hr : ∀ t sn, Blind attrs (rec t sn))
    (file : Str) (spare : List Str) (quote : Str) (ms : List Mt) : ∀ (res : Str) (seen : Seen),
    Blind attrs (cExpandMany W b rec file spare quote ms res seen) := by
  induction ms with
  | nil => exact fun _ _ => blind_pure _
  | cons m ms ih => exact fun _ _ => blind_bind (blind_expandOne W b hr _ _ _ _ _ _) (fun _ => ih _ _)

theorem blind_readFiles {rec : Str → Seen → CM (Str × Seen)} (hr : ∀ t sn, Blind attrs (rec t sn)) (ms : List Mt) :
    ∀ (res : Str) (seen : Seen), Blind attrs (cReadFiles W rec ms res seen) := by
  induction ms with
  | nil => exact fun _ _ => blind_pure _
  | cons m ms ih =>
    intro res seen
    refine blind_bind (hr _ _) (fun ps => ?_)
    simp only
    split
    · exact ih _ _
    · exact ih _ _
    · exact ih _ _
    · exact blind_lift _

theorem blind_expandTermF (n : Nat) : ∀ (file : Str) (spare : List Str) (value : Str) (seen : Seen),
    Blind attrs (cExpandTermF W n file spare value seen) := by
  induction n with
  | zero => exact fun _ _ _ _ => blind_lift _
  | succ n ih =>
    intro file spare value seen
    exact blind_bind (blind_ask _) (fun _ => blind_bind (blind_expandMany W _ (fun _ _ => ih _ _ _ _) _ _ _ _ _ _)
      (fun _ => blind_bind (blind_expandMany W _ (fun _ _ => ih _ _ _ _) _ _ _ _ _ _) (fun _ =>
        blind_readFiles W (fun _ _ => ih _ _ _ _) _ _ _)))

theorem blind_expandTermS (file : Str) (spare : List Str) (value : Str) :
    Blind attrs (cExpandTermS W file spare value) :=
  blind_bind (blind_ask _) (fun _ => blind_bind (blind_expandTermF W _ _ _ _ _) (fun _ => blind_pure _))

theorem blind_explode (file : Str) (d : ExpDict) : ∀ acc, Blind attrs (cExplode W file d acc) := by
  induction d with
  | nil => exact fun _ => blind_pure _
  | cons e d ih =>
    intro acc
    exact blind_bind (blind_expandTermS W _ _ _) (fun _ => blind_bind (blind_expandTermS W _ _ _) (fun _ => ih _))

theorem blind_expandVar (filename : Option Str) (att val : Arg) (nolink : Bool) (hf : compares attrs att.norm val.norm = false) :
    Blind attrs (cExpandVar W filename att val nolink) := by
  refine blind_bind (blind_itemsFor W _ (by nocmp)) (fun a => blind_bind (blind_itemsFor W _ (by nocmp)) (fun b => ?_))
  simp only
  split
  · exact blind_pure _
  · exact blind_bind (blind_ask _) (fun _ => blind_explode W _ _ _)

theorem blind_packageLoop (file pn : Str) (strippn : Bool) (l : List VarData) :
    ∀ res, Blind attrs (cPackageLoop W file pn strippn l res) := by
  induction l with
  | nil => exact fun _ => blind_pure _
  | cons x l ih => exact fun _ => blind_bind (blind_expandTermS W _ _ _) (fun _ => ih _)

theorem blind_dynLoop (file : Str) (l : List VarData) : ∀ res, Blind attrs (cDynLoop W file l res) := by
  induction l with
  | nil => exact fun _ => blind_pure _
  | cons x l ih => exact fun _ => blind_bind (blind_expandTermS W _ _ _) (fun _ => ih _)

theorem blind_namedLoop (pn : Str) (l : List Str) : ∀ res, Blind attrs (cNamedLoop W pn l res) := by
  induction l with
  | nil => exact fun _ => blind_pure _
  | cons x l ih =>
    intro res
    refine blind_bind (blind_bind (blind_memo rfl (blind_ask _)) (fun _ => blind_pure _)) (fun url => ?_)
    split
    · exact ih _
    · exact ih _

theorem blind_packagesDynamic (file : Str) : Blind attrs (cPackagesDynamic W file) :=
  blind_bind (blind_memo rfl (blind_bind (blind_itemsFor W _ (by nocmp)) (fun _ => blind_bind (blind_dynLoop W _ _ _)
    (fun _ => blind_pure _)))) (fun _ => blind_pure _)


/-- a question that reads results which may be wrong -/
def Spec.Question.touches (attrs : List Str) : Question → Bool
  | .itemsFor f => compares attrs f.attname.norm f.attvalue.norm
  | .reduce _ f => compares attrs f.attname.norm f.attvalue.norm
  | .expandVar _ a v _ => compares attrs a.norm v.norm
  | .packageNames .. | .namedResources _ => attrs.contains c!"VarValue" || attrs.contains c!"Line"
  | _ => false

theorem touches_of_outdated {q : Question} (h : q.outdated attrs = false) : q.touches attrs = false ∧ q.neverCleared = false := by
  cases q <;> first | exact ⟨h, rfl⟩ | exact ⟨rfl, h⟩

theorem blind_question (q : Question) (h : q.touches attrs = false) : Blind attrs (q.ask W) := by
  cases q with
  | itemsFor f => exact blind_bind (blind_itemsFor W _ h) (fun _ => blind_pure _)
  | reduce l f => exact blind_bind (blind_reduce W _ _ h) (fun _ => blind_pure _)
  | expandTerm f t sp => exact blind_bind (blind_expandTermS W _ _ _) (fun _ => blind_pure _)
  | expandVar f a b n => exact blind_bind (blind_expandVar W _ _ _ _ h) (fun _ => blind_pure _)
  | recipes => exact blind_bind (blind_bind (blind_memo rfl (blind_ask _)) (fun _ => blind_pure _)) (fun _ => blind_pure _)
  | loneAppends => exact blind_bind (blind_bind (blind_memo rfl (blind_ask _)) (fun _ => blind_pure _)) (fun _ => blind_pure _)
  | confFiles => exact blind_bind (blind_bind (blind_memo rfl (blind_ask _)) (fun _ => blind_pure _)) (fun _ => blind_pure _)
  | bbClasses => exact blind_bind (blind_bind (blind_memo rfl (blind_ask _)) (fun _ => blind_pure _)) (fun _ => blind_pure _)
  | links f =>
    refine blind_bind (blind_bind (blind_memo rfl ?_) (fun _ => blind_pure _)) (fun _ => blind_pure _)
    split
    · exact blind_pure _
    · exact blind_bind (blind_ask _) (fun _ => blind_bind (blind_linkedFilter _ _ _) (fun _ => blind_pure _))
  | files f p =>
    exact blind_bind (blind_bind (blind_memo rfl (blind_bind (blind_itemsFor W _ (by nocmp)) (fun _ => blind_bind
      (blind_map (fun _ => blind_bind (blind_itemsFor W _ (by nocmp)) (fun _ => blind_pure _)) _) (fun _ => blind_pure _))))
      (fun _ => blind_pure _)) (fun _ => blind_pure _)
  | scrComponents s => exact blind_bind (blind_bind (blind_memo rfl (blind_ask _)) (fun _ => blind_pure _)) (fun _ => blind_pure _)
  | packageNames f b =>
    exact blind_bind (blind_bind (blind_memo h (blind_bind (blind_itemsFor W _ (by nocmp)) (fun _ => blind_bind (blind_itemsFor W _ (by nocmp))
      (fun _ => blind_bind (blind_packageLoop W _ _ _ _ _) (fun _ => blind_bind (blind_packageLoop W _ _ _ _ _)
      (fun _ => blind_pure _)))))) (fun _ => blind_pure _)) (fun _ => blind_pure _)
  | namedResources f =>
    exact blind_bind (blind_bind (blind_memo h (blind_bind (blind_itemsFor W _ (by nocmp)) (fun _ => blind_bind
      (blind_namedLoop W _ _ _) (fun _ => blind_pure _)))) (fun _ => blind_pure _)) (fun _ => blind_pure _)
  | isImage f =>
    exact blind_bind (blind_bind (blind_memo rfl (blind_bind (blind_ask _) (fun _ => blind_bind (blind_ask _)
      (fun _ => blind_bind (blind_itemsFor W _ (by nocmp)) (fun _ => blind_bind (blind_map (fun _ => blind_itemsFor W _ (by nocmp)) _)
      (fun _ => blind_pure _)))))) (fun _ => blind_pure _)) (fun _ => blind_pure _)
  | isPackageGroup f =>
    exact blind_bind (blind_bind (blind_memo rfl (blind_bind (blind_itemsFor W _ (by nocmp)) (fun _ => blind_pure _)))
      (fun _ => blind_pure _)) (fun _ => blind_pure _)
  | packagesDynamic f => exact blind_bind (blind_packagesDynamic W f) (fun _ => blind_pure _)
  | isDynamicPackage f n =>
    exact blind_bind (blind_bind (blind_memo rfl (blind_bind (blind_expandTermS W _ _ _) (fun _ => blind_bind
      (blind_packagesDynamic W f) (fun _ => blind_bind (blind_lift _) (fun _ => blind_pure _))))) (fun _ => blind_pure _))
      (fun _ => blind_pure _)

/-! ### calls -/

theorem blind_findLocalOrLayer (name dir : Str) : Blind attrs (cFindLocalOrLayer W name dir) :=
  blind_bind (blind_memo rfl (blind_lift _)) (fun _ => blind_pure _)

theorem blind_findClass (dir inh : Str) (locs : List Str) : Blind attrs (cFindClass W dir inh locs) := by
  induction locs with
  | nil => exact blind_pure _
  | cons l locs ih =>
    refine blind_bind (blind_findLocalOrLayer W _ _) (fun p => ?_)
    split
    · exact ih
    · exact blind_pure _

theorem blind_addLayer (path : Str) : Blind attrs (cAddDistroMachine W path) :=
  blind_bind (blind_bind (blind_memo rfl (blind_lift _)) (fun _ => blind_pure _)) (fun _ => blind_base _)

theorem blind_inheritLoop {add : CAddFn} (ha : ∀ p o f, Blind attrs (add p o f)) (file : Str) (lineno : Int) (inhname : Str) (locs : List Str)
    (l : List Str) : ∀ found off, Blind attrs (cInheritLoop W add file lineno inhname locs l found off) := by
  induction l with
  | nil => exact fun _ _ => blind_pure _
  | cons x l ih =>
    intro found off
    refine blind_bind (blind_findClass W _ _ _) (fun path => ?_)
    split
    · exact ih _ _
    · refine blind_bind (blind_ask _) (fun ign => ?_)
      split
      · exact ih _ _
      · exact blind_bind (ha _ _ _) (fun _ => ih _ _)

theorem blind_handleKind {add : CAddFn} (ha : ∀ p o f, Blind attrs (add p o f)) (file : Str) (lineno : Int) (p : Params)
    (kd : Kind) (pat : Pattern) (m : Mt) : Blind attrs (cHandleKind W add file lineno p kd pat m) := by
  unfold cHandleKind
  simp only
  split
  · exact blind_bind (blind_expandTermS W _ _ _) (fun _ => blind_bind (blind_inheritLoop W ha _ _ _ _ _ _ _) (fun _ =>
      blind_bind (blind_base _) (fun _ => blind_pure _)))
  · exact blind_bind (blind_expandTermS W _ _ _) (fun _ => blind_bind (blind_inheritLoop W ha _ _ _ _ _ _ _) (fun _ =>
      blind_bind (blind_base _) (fun _ => blind_pure _)))
  · refine blind_bind (blind_expandTermS W _ _ _) (fun _ => blind_bind (blind_findLocalOrLayer W _ _) (fun _ => ?_))
    split
    · exact blind_bind (blind_base _) (fun _ => blind_pure _)
    · refine blind_bind (blind_ask _) (fun _ => ?_)
      split
      · exact blind_pure _
      · exact blind_bind (ha _ _ _) (fun _ => blind_bind (blind_base _) (fun _ => blind_pure _))
  · exact blind_base _

theorem blind_classify {add : CAddFn} (ha : ∀ p o f, Blind attrs (add p o f)) (file : Str) (lineno : Int) (p : Params)
    (cnt : Str) (l : List (Kind × Pattern)) : Blind attrs (cClassify W add file lineno p cnt l) := by
  induction l with
  | nil => exact blind_bind (blind_base _) (fun _ => blind_pure _)
  | cons x l ih =>
    obtain ⟨kd, pat⟩ := x
    unfold cClassify
    split
    · exact ih
    · refine blind_bind (blind_handleKind W ha _ _ _ _ _ _) (fun r => ?_)
      split
      · exact blind_pure _
      · exact ih

theorem blind_itemsLoop {add : CAddFn} (ha : ∀ p o f, Blind attrs (add p o f)) (file : Str) (lo : Int) (cs : List Chunk) :
    ∀ io ns, Blind attrs (cItemsLoop W add file lo io ns cs) := by
  induction cs with
  | nil => exact fun _ _ => blind_pure _
  | cons c cs ih =>
    exact fun _ _ => blind_bind (blind_classify W ha _ _ _ _ _) (fun _ => blind_bind (ih _ _) (fun _ => blind_pure _))

theorem blind_addFile (n : Nat) : ∀ p o f, Blind attrs (cAddFile W n p o f) := by
  induction n with
  | zero => exact fun _ _ _ => blind_lift _
  | succ n ih =>
    intro p o f
    refine blind_bind (blind_ask _) (fun s => ?_)
    split
    · exact blind_pure _
    · exact blind_bind (blind_base _) (fun _ => blind_bind (blind_bind (blind_lift _) (fun _ => blind_itemsLoop W ih _ _ _ _ _))
        (fun _ => blind_bind (blind_base _) (fun _ => blind_bind (blind_base _) (fun _ => blind_bind (blind_addLayer W _) (fun _ =>
        blind_bind (blind_base _) (fun _ => blind_bind blind_clear (fun _ => blind_pure _)))))))

theorem blind_includedLoop (l : List (Str × List Str)) : Blind attrs (cIncludedLoop W l) := by
  induction l with
  | nil => exact blind_pure _
  | cons x l ih => exact blind_bind (blind_itemsFor W _ (by nocmp)) (fun _ => blind_bind (blind_base _) (fun _ => ih))

theorem blind_call (depth : Nat) (c : Call) : Blind attrs (c.perform W depth) := by
  cases c with
  | addFile p o f => exact blind_addFile W depth p o f
  | append l => exact blind_bind (blind_bind (blind_base _) (fun _ => blind_clear)) (fun _ => blind_pure _)
  | remove l => exact blind_bind (blind_bind (blind_base _) (fun _ => blind_clear)) (fun _ => blind_pure _)
  | finalize =>
    exact blind_bind (blind_bind (blind_base _) (fun _ => blind_bind (blind_includedLoop W _) (fun _ => blind_clear)))
      (fun _ => blind_pure _)

end

/-! ### questions never spoil the other results -/

/-- the program changes nothing but the caches, and leaves only results that may be wrong besides correct ones -/
def KeepsOff (W : World) (attrs : List Str) {α : Type} (x : CM α) : Prop :=
  ∀ c, Valid W (c.drop attrs) → (x c).2.base = c.base ∧ Valid W ((x c).2.drop attrs)

section
variable {attrs : List Str} {W : World} {α β : Type}

theorem KeepsOff.of_blind {x : CM α} (hb : Blind attrs x) (hk : CKeeps W x) : KeepsOff W attrs x := by
  intro c hc
  have h := hk _ hc
  rw [hb c] at h
  exact h

theorem KeepsOff.bind {x : CM α} {g : α → CM β} (hx : KeepsOff W attrs x) (hg : ∀ a, KeepsOff W attrs (g a)) : KeepsOff W attrs (x >>= g) := by
  intro c hc
  obtain ⟨h1, h2⟩ := hx c hc
  rw [CM.bind_def]
  rcases hxc : x c with ⟨r, c'⟩
  rw [hxc] at h1 h2
  cases r with
  | error e => exact ⟨h1, h2⟩
  | ok a =>
    obtain ⟨h3, h4⟩ := hg a c' h2
    exact ⟨h3.trans h1, h4⟩

theorem KeepsOff.pure (a : α) : KeepsOff W attrs (pure a : CM α) := fun _ hc => ⟨rfl, hc⟩

theorem KeepsOff.memo {k : CKey} {x : CM CVal} (hk : k.stale attrs = true) (hx : KeepsOff W attrs x) : KeepsOff W attrs (memo k x) := by
  intro c hc
  unfold Oelint.memo
  cases hl : c.tab.lookup k with
  | some v => exact ⟨rfl, hc⟩
  | none =>
    obtain ⟨h1, h2⟩ := hx c hc
    simp only
    rcases hxc : x c with ⟨r, c'⟩
    rw [hxc] at h1 h2
    cases r with
    | error e => exact ⟨h1, h2⟩
    | ok v =>
      refine ⟨h1, ?_⟩
      have : ({ c' with tab := (k, v) :: c'.tab } : CStash).drop attrs = c'.drop attrs := by
        simp only [CStash.drop, List.filter_cons, hk, Bool.not_true, Bool.false_eq_true, if_false]
      rw [this]
      exact h2

theorem keepsOff_byAttribute (l : List Item) (ns vs : List Str) : KeepsOff W attrs (cByAttribute l ns vs) := by
  cases h : compares attrs ns vs with
  | false => exact .of_blind (blind_bind (blind_memo h (blind_pure _)) (fun _ => blind_pure _)) (reads_byAttribute l ns vs).keeps
  | true => exact (KeepsOff.memo (k := .byAttribute _ ns vs) h (.pure _)).bind (fun _ => .pure _)

theorem keepsOff_reduce (l : List Item) (f : Filter) : KeepsOff W attrs (cReduce W l f) := by
  have h1 : KeepsOff W attrs (cStepFile f l) := by
    refine .of_blind (blind_stepFile f l) ?_
    unfold cStepFile
    split
    · split
      · exact (CReads.pure _).keeps
      · exact (reads_byFile _ _ _).keeps
    · exact (CReads.pure _).keeps
  have h2 : ∀ l, KeepsOff W attrs (cStepClassifier f l) := by
    intro l
    refine .of_blind (blind_stepClassifier f l) ?_
    unfold cStepClassifier
    split
    · exact (CReads.pure _).keeps
    · exact (reads_byClassifier _ _).keeps
  have h3 : ∀ l, KeepsOff W attrs (cStepAttribute f l) := by
    intro l
    unfold cStepAttribute
    split
    · exact .pure _
    · exact keepsOff_byAttribute _ _ _
  exact (h1.bind (fun l => (h2 l).bind (fun l => h3 l))).bind (fun _ => .pure _)

theorem keepsOff_itemsFor (f : Filter) : KeepsOff W attrs (cItemsFor W f) :=
  (KeepsOff.of_blind (blind_ask _) (CReads.ask _).keeps).bind (fun _ => keepsOff_reduce _ f)

theorem keepsOff_question (q : Question) : KeepsOff W attrs (q.ask W) := by
  cases ht : q.touches attrs with
  | false => exact .of_blind (blind_question W q ht) (keeps_question q)
  | true =>
    cases q with
    | itemsFor f => exact (keepsOff_itemsFor f).bind (fun _ => .pure _)
    | reduce l f => exact (keepsOff_reduce l f).bind (fun _ => .pure _)
    | expandVar f a v n =>
      refine KeepsOff.bind ((keepsOff_itemsFor _).bind (fun a => (keepsOff_itemsFor _).bind (fun b => ?_))) (fun _ => .pure _)
      simp only
      split
      · exact .pure _
      · exact (KeepsOff.of_blind (blind_ask _) (CReads.ask _).keeps).bind (fun _ => .of_blind (blind_explode W _ _ _) (reads_explode _ _ _).keeps)
    | packageNames f b =>
      exact ((KeepsOff.memo (k := .packageNames f b) ht ((keepsOff_itemsFor _).bind fun _ => (keepsOff_itemsFor _).bind fun _ =>
        (KeepsOff.of_blind (blind_packageLoop W _ _ _ _ _) (reads_packageLoop _ _ _ _ _).keeps).bind fun _ =>
        (KeepsOff.of_blind (blind_packageLoop W _ _ _ _ _) (reads_packageLoop _ _ _ _ _).keeps).bind fun _ => .pure _)).bind
        (fun _ => .pure _)).bind (fun _ => .pure _)
    | namedResources f =>
      exact ((KeepsOff.memo (k := .namedResources f) ht ((keepsOff_itemsFor _).bind fun _ =>
        (KeepsOff.of_blind (blind_namedLoop W _ _ _) (reads_namedLoop _ _ _).keeps).bind fun _ => .pure _)).bind
        (fun _ => .pure _)).bind (fun _ => .pure _)
    | _ => cases ht

end

end Oelint

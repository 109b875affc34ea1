import Verif.Spec.Disk
import Verif.Lemmas.Apart
/-! What does not read remembered results that depend on the disk (C101). -/
set_option linter.unusedSectionVars false
set_option linter.unusedSimpArgs false
namespace Oelint
variable [Uni]
open Spec

/-- a remembered result that does not depend on the disk -/
def CKey.diskless : CKey → Bool
  | .files .. | .packageNames .. | .layerRoot _ | .found .. => false
  | _ => true

/-- forget some results -/
def CStash.forget (P : CKey → Bool) (c : CStash) : CStash := { c with tab := c.tab.filter (fun e => !P e.1) }

/-- the results can be forgotten before or after `x` -/
def Deaf {α : Type} (P : CKey → Bool) (x : CM α) : Prop := ∀ c : CStash, x (c.forget P) = ((x c).1, (x c).2.forget P)

section
variable {P : CKey → Bool} {α β : Type}

theorem deaf_pure (a : α) : Deaf P (pure a : CM α) := fun _ => rfl
theorem deaf_lift (x : Except PyErr α) : Deaf P (CM.lift x) := fun _ => rfl
theorem deaf_ask (f : Stash → Except PyErr α) : Deaf P (CM.ask f) := fun _ => rfl
theorem deaf_base (x : M α) : Deaf P (CM.base x) := fun _ => rfl

theorem deaf_bind {x : CM α} {g : α → CM β} (hx : Deaf P x) (hg : ∀ a, Deaf P (g a)) : Deaf P (x >>= g) := by
  intro c
  show CM.bind x g _ = ((CM.bind x g c).1, (CM.bind x g c).2.forget P)
  unfold CM.bind
  rw [hx c]
  rcases x c with ⟨r, c'⟩
  cases r with
  | error e => rfl
  | ok a => exact hg a c'

theorem deaf_clear : Deaf P CM.clear := by
  intro c
  show (Except.ok (), (c.forget P).clear) = (Except.ok (), c.clear.forget P)
  unfold CStash.forget CStash.clear
  simp only [List.filter_filter]
  congr 3
  funext e
  rw [Bool.and_comm]

theorem lookup_forget {k : CKey} (h : P k = false) (t : List (CKey × CVal)) :
    (t.filter (fun e => !P e.1)).lookup k = t.lookup k := by
  induction t with
  | nil => rfl
  | cons e t ih =>
    obtain ⟨a, b⟩ := e
    rw [List.filter_cons, List.lookup_cons]
    by_cases ha : k = a
    · subst ha
      simp only [h, Bool.not_false, if_true, List.lookup_cons, beq_self_eq_true]
    · have : (k == a) = false := by simpa using ha
      simp only [this]
      split
      · rw [List.lookup_cons, this]; exact ih
      · exact ih

theorem deaf_memo {k : CKey} {x : CM CVal} (h : P k = false) (hx : Deaf P x) : Deaf P (memo k x) := by
  intro c
  unfold memo
  have e : (c.forget P).tab.lookup k = c.tab.lookup k := lookup_forget h c.tab
  rw [e]
  cases c.tab.lookup k with
  | some w => rfl
  | none =>
    simp only
    rw [hx c]
    rcases x c with ⟨r, c'⟩
    cases r with
    | error e => rfl
    | ok a => simp only [CStash.forget, List.filter_cons, h, Bool.not_false, if_true]

theorem deaf_map {f : α → CM β} (hf : ∀ a, Deaf P (f a)) (l : List α) : Deaf P (cMap f l) := by
  induction l with
  | nil => exact deaf_pure _
  | cons a l ih => exact deaf_bind (hf a) (fun _ => deaf_bind ih (fun _ => deaf_pure _))

end

section
variable {P : CKey → Bool} (W : World) (hP : ∀ k, k.diskless = true → P k = false)
include hP

theorem deaf_linked (file : Str) (nolink : Bool) (x : Item) : Deaf P (cLinked file nolink x) :=
  deaf_bind (deaf_memo (hP _ rfl) (deaf_ask _)) (fun _ => deaf_pure _)

theorem deaf_linkedFilter (file : Str) (nolink : Bool) (l : List Item) :
    Deaf P (cLinkedFilter file nolink l) := by
  induction l with
  | nil => exact deaf_pure _
  | cons a l ih => exact deaf_bind (deaf_linked hP _ _ _) (fun _ => deaf_bind ih (fun _ => deaf_pure _))

theorem deaf_stepFile (f : Filter) (l : List Item) : Deaf P (cStepFile f l) := by
  unfold cStepFile
  split
  · split
    · exact deaf_pure _
    · exact deaf_bind (deaf_memo (hP _ rfl) (deaf_bind (deaf_linkedFilter hP _ _ _) (fun _ => deaf_pure _))) (fun _ => deaf_pure _)
  · exact deaf_pure _

theorem deaf_stepClassifier (f : Filter) (l : List Item) : Deaf P (cStepClassifier f l) := by
  unfold cStepClassifier
  split
  · exact deaf_pure _
  · exact deaf_bind (deaf_memo (hP _ rfl) (deaf_pure _)) (fun _ => deaf_pure _)

theorem deaf_reduce (l : List Item) (f : Filter) :
    Deaf P (cReduce W l f) := by
  unfold cReduce cApplyFilter
  refine deaf_bind (deaf_bind (deaf_stepFile hP _ _) (fun _ => deaf_bind (deaf_stepClassifier hP _ _) (fun _ => ?_))) (fun _ => deaf_pure _)
  unfold cStepAttribute
  split
  · exact deaf_pure _
  · exact deaf_bind (deaf_memo (hP _ rfl) (deaf_pure _)) (fun _ => deaf_pure _)

theorem deaf_itemsFor (f : Filter) : Deaf P (cItemsFor W f) :=
  deaf_bind (deaf_ask _) (fun _ => deaf_reduce W hP _ _)

theorem deaf_expandOne (b : J) {rec : Str → Seen → CM (Str × Seen)} (hr : ∀ t sn, Deaf P (rec t sn))
    (file : Str) (spare : List Str) (quote : Str) (m : Mt) (res : Str) (seen : Seen) :
    Deaf P (cExpandOne W b rec file spare quote m res seen) := by
  unfold cExpandOne
  simp only
  split
  · exact deaf_pure _
  · refine deaf_bind (deaf_itemsFor W hP _) (fun l => ?_)
    split
    · exact deaf_lift _
    · exact deaf_pure _
    · exact deaf_pure _
    · split
      · exact deaf_pure _
      · exact deaf_bind (hr _ _) (fun _ => deaf_pure _)

theorem deaf_expandMany (b : J) {rec : Str → Seen → CM (Str × Seen)} (hr : ∀ t sn, Deaf P (rec t sn))
    (file : Str) (spare : List Str) (quote : Str) (ms : List Mt) : ∀ (res : Str) (seen : Seen),
    Deaf P (cExpandMany W b rec file spare quote ms res seen) := by
  induction ms with
  | nil => exact fun _ _ => deaf_pure _
  | cons m ms ih => exact fun _ _ => deaf_bind (deaf_expandOne W hP b hr _ _ _ _ _ _) (fun _ => ih _ _)

theorem deaf_readFiles {rec : Str → Seen → CM (Str × Seen)} (hr : ∀ t sn, Deaf P (rec t sn)) (ms : List Mt) :
    ∀ (res : Str) (seen : Seen), Deaf P (cReadFiles W rec ms res seen) := by
  induction ms with
  | nil => exact fun _ _ => deaf_pure _
  | cons m ms ih =>
    intro res seen
    refine deaf_bind (hr _ _) (fun ps => ?_)
    simp only
    split
    · exact ih _ _
    · exact ih _ _
    · exact ih _ _
    · exact deaf_lift _

theorem deaf_expandTermF (n : Nat) : ∀ (file : Str) (spare : List Str) (value : Str) (seen : Seen),
    Deaf P (cExpandTermF W n file spare value seen) := by
  induction n with
  | zero => exact fun _ _ _ _ => deaf_lift _
  | succ n ih =>
    intro file spare value seen
    exact deaf_bind (deaf_ask _) (fun _ => deaf_bind (deaf_expandMany W hP _ (fun _ _ => ih _ _ _ _) _ _ _ _ _ _)
      (fun _ => deaf_bind (deaf_expandMany W hP _ (fun _ _ => ih _ _ _ _) _ _ _ _ _ _) (fun _ =>
        deaf_readFiles W hP (fun _ _ => ih _ _ _ _) _ _ _)))

theorem deaf_expandTermS (file : Str) (spare : List Str) (value : Str) :
    Deaf P (cExpandTermS W file spare value) :=
  deaf_bind (deaf_ask _) (fun _ => deaf_bind (deaf_expandTermF W hP _ _ _ _ _) (fun _ => deaf_pure _))

theorem deaf_explode (file : Str) (d : ExpDict) : ∀ acc, Deaf P (cExplode W file d acc) := by
  induction d with
  | nil => exact fun _ => deaf_pure _
  | cons e d ih =>
    intro acc
    exact deaf_bind (deaf_expandTermS W hP _ _ _) (fun _ => deaf_bind (deaf_expandTermS W hP _ _ _) (fun _ => ih _))

theorem deaf_expandVar (filename : Option Str) (att val : Arg) (nolink : Bool) :
    Deaf P (cExpandVar W filename att val nolink) := by
  refine deaf_bind (deaf_itemsFor W hP _) (fun a => deaf_bind (deaf_itemsFor W hP _) (fun b => ?_))
  simp only
  split
  · exact deaf_pure _
  · exact deaf_bind (deaf_ask _) (fun _ => deaf_explode W hP _ _ _)

theorem deaf_packageLoop (file pn : Str) (strippn : Bool) (l : List VarData) :
    ∀ res, Deaf P (cPackageLoop W file pn strippn l res) := by
  induction l with
  | nil => exact fun _ => deaf_pure _
  | cons x l ih => exact fun _ => deaf_bind (deaf_expandTermS W hP _ _ _) (fun _ => ih _)

theorem deaf_dynLoop (file : Str) (l : List VarData) : ∀ res, Deaf P (cDynLoop W file l res) := by
  induction l with
  | nil => exact fun _ => deaf_pure _
  | cons x l ih => exact fun _ => deaf_bind (deaf_expandTermS W hP _ _ _) (fun _ => ih _)

theorem deaf_namedLoop (pn : Str) (l : List Str) : ∀ res, Deaf P (cNamedLoop W pn l res) := by
  induction l with
  | nil => exact fun _ => deaf_pure _
  | cons x l ih =>
    intro res
    refine deaf_bind (deaf_bind (deaf_memo (hP _ rfl) (deaf_ask _)) (fun _ => deaf_pure _)) (fun url => ?_)
    split
    · exact ih _
    · exact ih _

theorem deaf_packagesDynamic (file : Str) : Deaf P (cPackagesDynamic W file) :=
  deaf_bind (deaf_memo (hP _ rfl) (deaf_bind (deaf_itemsFor W hP _) (fun _ => deaf_bind (deaf_dynLoop W hP _ _ _)
    (fun _ => deaf_pure _)))) (fun _ => deaf_pure _)


theorem deaf_question (q : Question) (h : q.remembersDisk = false) : Deaf P (q.ask W) := by
  cases q with
  | itemsFor f => exact deaf_bind (deaf_itemsFor W hP _) (fun _ => deaf_pure _)
  | reduce l f => exact deaf_bind (deaf_reduce W hP _ _) (fun _ => deaf_pure _)
  | expandTerm f t sp => exact deaf_bind (deaf_expandTermS W hP _ _ _) (fun _ => deaf_pure _)
  | expandVar f a b n => exact deaf_bind (deaf_expandVar W hP _ _ _ _) (fun _ => deaf_pure _)
  | recipes => exact deaf_bind (deaf_bind (deaf_memo (hP _ rfl) (deaf_ask _)) (fun _ => deaf_pure _)) (fun _ => deaf_pure _)
  | loneAppends => exact deaf_bind (deaf_bind (deaf_memo (hP _ rfl) (deaf_ask _)) (fun _ => deaf_pure _)) (fun _ => deaf_pure _)
  | confFiles => exact deaf_bind (deaf_bind (deaf_memo (hP _ rfl) (deaf_ask _)) (fun _ => deaf_pure _)) (fun _ => deaf_pure _)
  | bbClasses => exact deaf_bind (deaf_bind (deaf_memo (hP _ rfl) (deaf_ask _)) (fun _ => deaf_pure _)) (fun _ => deaf_pure _)
  | links f =>
    refine deaf_bind (deaf_bind (deaf_memo (hP _ rfl) ?_) (fun _ => deaf_pure _)) (fun _ => deaf_pure _)
    split
    · exact deaf_pure _
    · exact deaf_bind (deaf_ask _) (fun _ => deaf_bind (deaf_linkedFilter hP _ _ _) (fun _ => deaf_pure _))
  | files f p => cases h
  | scrComponents s => exact deaf_bind (deaf_bind (deaf_memo (hP _ rfl) (deaf_ask _)) (fun _ => deaf_pure _)) (fun _ => deaf_pure _)
  | packageNames f b => cases h
  | namedResources f =>
    exact deaf_bind (deaf_bind (deaf_memo (hP _ rfl) (deaf_bind (deaf_itemsFor W hP _) (fun _ => deaf_bind
      (deaf_namedLoop W hP _ _ _) (fun _ => deaf_pure _)))) (fun _ => deaf_pure _)) (fun _ => deaf_pure _)
  | isImage f =>
    exact deaf_bind (deaf_bind (deaf_memo (hP _ rfl) (deaf_bind (deaf_ask _) (fun _ => deaf_bind (deaf_ask _)
      (fun _ => deaf_bind (deaf_itemsFor W hP _) (fun _ => deaf_bind (deaf_map (fun _ => deaf_itemsFor W hP _) _)
      (fun _ => deaf_pure _)))))) (fun _ => deaf_pure _)) (fun _ => deaf_pure _)
  | isPackageGroup f =>
    exact deaf_bind (deaf_bind (deaf_memo (hP _ rfl) (deaf_bind (deaf_itemsFor W hP _) (fun _ => deaf_pure _)))
      (fun _ => deaf_pure _)) (fun _ => deaf_pure _)
  | packagesDynamic f => exact deaf_bind (deaf_packagesDynamic W hP f) (fun _ => deaf_pure _)
  | isDynamicPackage f n =>
    exact deaf_bind (deaf_bind (deaf_memo (hP _ rfl) (deaf_bind (deaf_expandTermS W hP _ _ _) (fun _ => deaf_bind
      (deaf_packagesDynamic W hP f) (fun _ => deaf_bind (deaf_lift _) (fun _ => deaf_pure _))))) (fun _ => deaf_pure _))
      (fun _ => deaf_pure _)

/-! ### calls -/

end

section
variable {P : CKey → Bool} (W : World) (hP : ∀ k, k.diskless = true → P k = false) (hL : ∀ k, k.place = true → P k = false)
include hP hL

theorem deaf_findLocalOrLayer (name dir : Str) : Deaf P (cFindLocalOrLayer W name dir) :=
  deaf_bind (deaf_memo (hL _ rfl) (deaf_lift _)) (fun _ => deaf_pure _)

theorem deaf_findClass (dir inh : Str) (locs : List Str) : Deaf P (cFindClass W dir inh locs) := by
  induction locs with
  | nil => exact deaf_pure _
  | cons l locs ih =>
    refine deaf_bind (deaf_findLocalOrLayer W hP hL _ _) (fun p => ?_)
    split
    · exact ih
    · exact deaf_pure _

theorem deaf_addLayer (path : Str) : Deaf P (cAddDistroMachine W path) :=
  deaf_bind (deaf_bind (deaf_memo (hL _ rfl) (deaf_lift _)) (fun _ => deaf_pure _)) (fun _ => deaf_base _)

theorem deaf_inheritLoop {add : CAddFn} (ha : ∀ p o f, Deaf P (add p o f)) (file : Str) (lineno : Int) (inhname : Str) (locs : List Str)
    (l : List Str) : ∀ found off, Deaf P (cInheritLoop W add file lineno inhname locs l found off) := by
  induction l with
  | nil => exact fun _ _ => deaf_pure _
  | cons x l ih =>
    intro found off
    refine deaf_bind (deaf_findClass W hP hL _ _ _) (fun path => ?_)
    split
    · exact ih _ _
    · refine deaf_bind (deaf_ask _) (fun ign => ?_)
      split
      · exact ih _ _
      · exact deaf_bind (ha _ _ _) (fun _ => ih _ _)

theorem deaf_handleKind {add : CAddFn} (ha : ∀ p o f, Deaf P (add p o f)) (file : Str) (lineno : Int) (p : Params)
    (kd : Kind) (pat : Pattern) (m : Mt) : Deaf P (cHandleKind W add file lineno p kd pat m) := by
  unfold cHandleKind
  simp only
  split
  · exact deaf_bind (deaf_expandTermS W hP _ _ _) (fun _ => deaf_bind (deaf_inheritLoop W hP hL ha _ _ _ _ _ _ _) (fun _ =>
      deaf_bind (deaf_base _) (fun _ => deaf_pure _)))
  · exact deaf_bind (deaf_expandTermS W hP _ _ _) (fun _ => deaf_bind (deaf_inheritLoop W hP hL ha _ _ _ _ _ _ _) (fun _ =>
      deaf_bind (deaf_base _) (fun _ => deaf_pure _)))
  · refine deaf_bind (deaf_expandTermS W hP _ _ _) (fun _ => deaf_bind (deaf_findLocalOrLayer W hP hL _ _) (fun _ => ?_))
    split
    · exact deaf_bind (deaf_base _) (fun _ => deaf_pure _)
    · refine deaf_bind (deaf_ask _) (fun _ => ?_)
      split
      · exact deaf_pure _
      · exact deaf_bind (ha _ _ _) (fun _ => deaf_bind (deaf_base _) (fun _ => deaf_pure _))
  · exact deaf_base _

theorem deaf_classify {add : CAddFn} (ha : ∀ p o f, Deaf P (add p o f)) (file : Str) (lineno : Int) (p : Params)
    (cnt : Str) (l : List (Kind × Pattern)) : Deaf P (cClassify W add file lineno p cnt l) := by
  induction l with
  | nil => exact deaf_bind (deaf_base _) (fun _ => deaf_pure _)
  | cons x l ih =>
    obtain ⟨kd, pat⟩ := x
    unfold cClassify
    split
    · exact ih
    · refine deaf_bind (deaf_handleKind W hP hL ha _ _ _ _ _ _) (fun r => ?_)
      split
      · exact deaf_pure _
      · exact ih

theorem deaf_itemsLoop {add : CAddFn} (ha : ∀ p o f, Deaf P (add p o f)) (file : Str) (lo : Int) (cs : List Chunk) :
    ∀ io ns, Deaf P (cItemsLoop W add file lo io ns cs) := by
  induction cs with
  | nil => exact fun _ _ => deaf_pure _
  | cons c cs ih =>
    exact fun _ _ => deaf_bind (deaf_classify W hP hL ha _ _ _ _ _) (fun _ => deaf_bind (ih _ _) (fun _ => deaf_pure _))

theorem deaf_addFile (n : Nat) : ∀ p o f, Deaf P (cAddFile W n p o f) := by
  induction n with
  | zero => exact fun _ _ _ => deaf_lift _
  | succ n ih =>
    intro p o f
    refine deaf_bind (deaf_ask _) (fun s => ?_)
    split
    · exact deaf_pure _
    · exact deaf_bind (deaf_base _) (fun _ => deaf_bind (deaf_bind (deaf_lift _) (fun _ => deaf_itemsLoop W hP hL ih _ _ _ _ _))
        (fun _ => deaf_bind (deaf_base _) (fun _ => deaf_bind (deaf_base _) (fun _ => deaf_bind (deaf_addLayer W hP hL _) (fun _ =>
        deaf_bind (deaf_base _) (fun _ => deaf_bind deaf_clear (fun _ => deaf_pure _)))))))

theorem deaf_includedLoop (l : List (Str × List Str)) : Deaf P (cIncludedLoop W l) := by
  induction l with
  | nil => exact deaf_pure _
  | cons x l ih => exact deaf_bind (deaf_itemsFor W hP _) (fun _ => deaf_bind (deaf_base _) (fun _ => ih))

theorem deaf_call (depth : Nat) (c : Call) : Deaf P (c.perform W depth) := by
  cases c with
  | addFile p o f => exact deaf_addFile W hP hL depth p o f
  | append l => exact deaf_bind (deaf_bind (deaf_base _) (fun _ => deaf_clear)) (fun _ => deaf_pure _)
  | remove l => exact deaf_bind (deaf_bind (deaf_base _) (fun _ => deaf_clear)) (fun _ => deaf_pure _)
  | finalize =>
    exact deaf_bind (deaf_bind (deaf_base _) (fun _ => deaf_bind (deaf_includedLoop W hP hL _) (fun _ => deaf_clear)))
      (fun _ => deaf_pure _)

end
end Oelint

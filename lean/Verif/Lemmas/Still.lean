import Verif.Lemmas.CacheOps
import Verif.Lemmas.LayerNames
import Verif.Lemmas.Shipped
/-! What a program with caches leaves alone: the constants up to the known names, and remembered results of other functions (C100). -/
set_option linter.unusedSectionVars false
set_option linter.unusedSimpArgs false
namespace Oelint
variable [Uni]
open Spec

/-- only the known names of the constants change -/
def Grows (_W : World) (s s' : Stash) : Prop := UsableConstants s.consts → UsableConstants s'.consts ∧ SameButNames s.consts s'.consts

theorem grows_refl (W : World) (s : Stash) : Grows W s s := fun h => ⟨h, sameButNames_refl _⟩
theorem grows_trans {W : World} (a b c : Stash) (h1 : Grows W a b) (h2 : Grows W b c) : Grows W a c :=
  fun h => ⟨(h2 (h1 h).1).1, sameButNames_trans (h1 h).2 (h2 (h1 h).1).2⟩

theorem addConfs_grows {W : World} {key : Str} (hk : key ∈ [c!"distros", c!"machines"]) (l : List Str) : M.Rel (Grows W) (addConfs key l) := by
  intro s h
  obtain ⟨db, a1, a2, a3, a4, a5⟩ := addConfs_names hk l s h
  rw [a1]
  exact ⟨a2, a5⟩

theorem addLayerConfs_grows {W : World} (root : Str) : M.Rel (Grows W) (addLayerConfs W root) := by
  unfold addLayerConfs
  split
  · exact fun s => grows_refl W s
  · exact M.Rel.bind grows_trans (addConfs_grows (by decide) _) fun _ => addConfs_grows (by decide) _

/-- the program only lets the known names grow and leaves the results in `ks` as they are -/
def Still {α : Type} (W : World) (ks : CKey → Prop) (x : CM α) : Prop :=
  ∀ c : CStash, Grows W c.base (x c).2.base ∧ ∀ k, ks k → (x c).2.tab.lookup k = c.tab.lookup k

section
variable {W : World} {ks : CKey → Prop} {α β : Type}

theorem still_pure (a : α) : Still W ks (pure a : CM α) := fun c => ⟨grows_refl W c.base, fun _ _ => rfl⟩
theorem still_lift (x : Except PyErr α) : Still W ks (CM.lift x) := fun c => ⟨grows_refl W c.base, fun _ _ => rfl⟩
theorem still_ask (f : Stash → Except PyErr α) : Still W ks (CM.ask f) := fun c => ⟨grows_refl W c.base, fun _ _ => rfl⟩
theorem still_base {x : M α} (h : M.Rel (Grows W) x) : Still W ks (CM.base x) := fun c => ⟨h c.base, fun _ _ => rfl⟩

theorem still_bind {x : CM α} {g : α → CM β} (hx : Still W ks x) (hg : ∀ a, Still W ks (g a)) : Still W ks (x >>= g) := by
  intro c
  rw [CM.bind_def]
  have h1 := hx c
  rcases hxc : x c with ⟨r, c1⟩
  rw [hxc] at h1
  cases r with
  | error e => exact h1
  | ok a =>
    have h2 := hg a c1
    exact ⟨grows_trans _ _ _ h1.1 h2.1, fun k hk => (h2.2 k hk).trans (h1.2 k hk)⟩

theorem lookup_filter_key (p : CKey → Bool) (k : CKey) (hk : p k = true) (t : List (CKey × CVal)) :
    (t.filter (fun e => p e.1)).lookup k = t.lookup k := by
  induction t with
  | nil => rfl
  | cons e t ih =>
    obtain ⟨a, b⟩ := e
    by_cases ha : k = a
    · subst ha
      simp [List.filter_cons, hk, List.lookup_cons]
    · have : (k == a) = false := by simpa using ha
      rw [List.filter_cons]
      split
      · simp only [List.lookup_cons, this, ih]
      · simp only [List.lookup_cons, this, ih]

theorem lookup_clear (c : CStash) {k : CKey} (hk : k.kept = false) : c.clear.tab.lookup k = c.tab.lookup k := by
  refine lookup_filter_key (fun k => !k.cleared) k ?_ c.tab
  cases k <;> simp_all [CKey.kept, CKey.cleared]

theorem still_clear (hk : ∀ k, ks k → k.kept = false) : Still W ks CM.clear :=
  fun c => ⟨grows_refl W c.base, fun k h => lookup_clear c (hk k h)⟩

theorem still_memo {k' : CKey} {x : CM CVal} (h : ¬ ks k') (hx : Still W ks x) : Still W ks (memo k' x) := by
  intro c
  unfold memo
  cases c.tab.lookup k' with
  | some w => exact ⟨grows_refl W _, fun _ _ => rfl⟩
  | none =>
    have h1 := hx c
    rcases hxc : x c with ⟨r, c1⟩
    rw [hxc] at h1
    cases r with
    | error e => exact h1
    | ok a =>
      refine ⟨h1.1, fun k hk => ?_⟩
      have : (k == k') = false := by
        simp only [beq_eq_false_iff_ne, ne_eq]
        rintro rfl
        exact h hk
      show List.lookup k ((k', a) :: c1.tab) = _
      rw [List.lookup_cons, this]
      exact h1.2 k hk

theorem still_map {f : α → CM β} (hf : ∀ a, Still W ks (f a)) (l : List α) : Still W ks (cMap f l) := by
  induction l with
  | nil => exact still_pure _
  | cons a l ih => exact still_bind (hf a) (fun _ => still_bind ih (fun _ => still_pure _))

end


section
variable {ks : CKey → Prop} (W : World)

theorem still_linked (hk : ∀ k, ks k → k.kept = false) (file : Str) (nolink : Bool) (x : Item) : Still W ks (cLinked file nolink x) :=
  still_bind (still_memo (fun h => Bool.noConfusion (hk _ h)) (still_ask _)) (fun _ => still_pure _)

theorem still_linkedFilter (hk : ∀ k, ks k → k.kept = false) (file : Str) (nolink : Bool) (l : List Item) :
    Still W ks (cLinkedFilter file nolink l) := by
  induction l with
  | nil => exact still_pure _
  | cons a l ih => exact still_bind (still_linked W hk _ _ _) (fun _ => still_bind ih (fun _ => still_pure _))

theorem still_reduce (hk : ∀ k, ks k → k.kept = false) (l : List Item) (f : Filter) : Still W ks (cReduce W l f) := by
  unfold cReduce cApplyFilter
  refine still_bind (still_bind ?_ (fun _ => still_bind ?_ (fun _ => ?_))) (fun _ => still_pure _)
  · unfold cStepFile
    split
    · split
      · exact still_pure _
      · exact still_bind (still_memo (fun h => Bool.noConfusion (hk _ h)) (still_bind (still_linkedFilter W hk _ _ _) (fun _ => still_pure _)))
          (fun _ => still_pure _)
    · exact still_pure _
  · unfold cStepClassifier
    split
    · exact still_pure _
    · exact still_bind (still_memo (fun h => Bool.noConfusion (hk _ h)) (still_pure _)) (fun _ => still_pure _)
  · unfold cStepAttribute
    split
    · exact still_pure _
    · exact still_bind (still_memo (fun h => Bool.noConfusion (hk _ h)) (still_pure _)) (fun _ => still_pure _)

theorem still_itemsFor (hk : ∀ k, ks k → k.kept = false) (f : Filter) : Still W ks (cItemsFor W f) :=
  still_bind (still_ask _) (fun _ => still_reduce W hk _ _)

theorem still_expandOne (hk : ∀ k, ks k → k.kept = false) (b : J) {rec : Str → Seen → CM (Str × Seen)} (hr : ∀ t sn, Still W ks (rec t sn))
    (file : Str) (spare : List Str) (quote : Str) (m : Mt) (res : Str) (seen : Seen) :
    Still W ks (cExpandOne W b rec file spare quote m res seen) := by
  unfold cExpandOne
  simp only
  split
  · exact still_pure _
  · refine still_bind (still_itemsFor W hk _) (fun l => ?_)
    split
    · exact still_lift _
    · exact still_pure _
    · exact still_pure _
    · split
      · exact still_pure _
      · exact still_bind (hr _ _) (fun _ => still_pure _)

theorem still_expandMany (hk : ∀ k, ks k → k.kept = false) (b : J) {rec : Str → Seen → CM (Str × Seen)} (hr : ∀ t sn, Still W ks (rec t sn))
    (file : Str) (spare : List Str) (quote : Str) (ms : List Mt) : ∀ (res : Str) (seen : Seen),
    Still W ks (cExpandMany W b rec file spare quote ms res seen) := by
  induction ms with
  | nil => exact fun _ _ => still_pure _
  | cons m ms ih => exact fun _ _ => still_bind (still_expandOne W hk b hr _ _ _ _ _ _) (fun _ => ih _ _)

theorem still_readFiles {rec : Str → Seen → CM (Str × Seen)} (hr : ∀ t sn, Still W ks (rec t sn)) (ms : List Mt) :
    ∀ (res : Str) (seen : Seen), Still W ks (cReadFiles W rec ms res seen) := by
  induction ms with
  | nil => exact fun _ _ => still_pure _
  | cons m ms ih =>
    intro res seen
    refine still_bind (hr _ _) (fun ps => ?_)
    simp only
    split
    · exact ih _ _
    · exact ih _ _
    · exact ih _ _
    · exact still_lift _

theorem still_expandTermF (hk : ∀ k, ks k → k.kept = false) (n : Nat) : ∀ (file : Str) (spare : List Str) (value : Str) (seen : Seen),
    Still W ks (cExpandTermF W n file spare value seen) := by
  induction n with
  | zero => exact fun _ _ _ _ => still_lift _
  | succ n ih =>
    intro file spare value seen
    exact still_bind (still_ask _) (fun _ => still_bind (still_expandMany W hk _ (fun _ _ => ih _ _ _ _) _ _ _ _ _ _)
      (fun _ => still_bind (still_expandMany W hk _ (fun _ _ => ih _ _ _ _) _ _ _ _ _ _) (fun _ =>
        still_readFiles W (fun _ _ => ih _ _ _ _) _ _ _)))

theorem still_expandTermS (hk : ∀ k, ks k → k.kept = false) (file : Str) (spare : List Str) (value : Str) :
    Still W ks (cExpandTermS W file spare value) :=
  still_bind (still_ask _) (fun _ => still_bind (still_expandTermF W hk _ _ _ _ _) (fun _ => still_pure _))

theorem still_explode (hk : ∀ k, ks k → k.kept = false) (file : Str) (d : ExpDict) : ∀ acc, Still W ks (cExplode W file d acc) := by
  induction d with
  | nil => exact fun _ => still_pure _
  | cons e d ih =>
    intro acc
    exact still_bind (still_expandTermS W hk _ _ _) (fun _ => still_bind (still_expandTermS W hk _ _ _) (fun _ => ih _))

theorem still_expandVar (hk : ∀ k, ks k → k.kept = false) (filename : Option Str) (att val : Arg) (nolink : Bool) :
    Still W ks (cExpandVar W filename att val nolink) := by
  refine still_bind (still_itemsFor W hk _) (fun a => still_bind (still_itemsFor W hk _) (fun b => ?_))
  simp only
  split
  · exact still_pure _
  · exact still_bind (still_ask _) (fun _ => still_explode W hk _ _ _)

theorem still_packageLoop (hk : ∀ k, ks k → k.kept = false) (file pn : Str) (strippn : Bool) (l : List VarData) :
    ∀ res, Still W ks (cPackageLoop W file pn strippn l res) := by
  induction l with
  | nil => exact fun _ => still_pure _
  | cons x l ih => exact fun _ => still_bind (still_expandTermS W hk _ _ _) (fun _ => ih _)

theorem still_dynLoop (hk : ∀ k, ks k → k.kept = false) (file : Str) (l : List VarData) : ∀ res, Still W ks (cDynLoop W file l res) := by
  induction l with
  | nil => exact fun _ => still_pure _
  | cons x l ih => exact fun _ => still_bind (still_expandTermS W hk _ _ _) (fun _ => ih _)

theorem still_namedLoop (hk : ∀ k, ks k → k.kept = false) (pn : Str) (l : List Str) : ∀ res, Still W ks (cNamedLoop W pn l res) := by
  induction l with
  | nil => exact fun _ => still_pure _
  | cons x l ih =>
    intro res
    refine still_bind (still_bind (still_memo (fun h => Bool.noConfusion (hk _ h)) (still_ask _)) (fun _ => still_pure _)) (fun url => ?_)
    split
    · exact ih _
    · exact ih _

theorem still_packagesDynamic (hk : ∀ k, ks k → k.kept = false) (file : Str) (h : ¬ ks (.packagesDynamic file)) : Still W ks (cPackagesDynamic W file) :=
  still_bind (still_memo h (still_bind (still_itemsFor W hk _) (fun _ => still_bind (still_dynLoop W hk _ _ _)
    (fun _ => still_pure _)))) (fun _ => still_pure _)

theorem still_question (hk : ∀ k, ks k → k.kept = false) (q : Question) (h : q.neverCleared = false ∨ ∀ k, ¬ ks k) : Still W ks (q.ask W) := by
  cases q with
  | itemsFor f => exact still_bind (still_itemsFor W hk _) (fun _ => still_pure _)
  | reduce l f => exact still_bind (still_reduce W hk _ _) (fun _ => still_pure _)
  | expandTerm f t sp => exact still_bind (still_expandTermS W hk _ _ _) (fun _ => still_pure _)
  | expandVar f a b n => exact still_bind (still_expandVar W hk _ _ _ _) (fun _ => still_pure _)
  | recipes => exact still_bind (still_bind (still_memo (fun h => Bool.noConfusion (hk _ h)) (still_ask _)) (fun _ => still_pure _)) (fun _ => still_pure _)
  | loneAppends => exact still_bind (still_bind (still_memo (fun h => Bool.noConfusion (hk _ h)) (still_ask _)) (fun _ => still_pure _)) (fun _ => still_pure _)
  | confFiles => exact still_bind (still_bind (still_memo (fun h => Bool.noConfusion (hk _ h)) (still_ask _)) (fun _ => still_pure _)) (fun _ => still_pure _)
  | bbClasses =>
    rcases h with h | h
    · cases h
    · exact still_bind (still_bind (still_memo (h _) (still_ask _)) (fun _ => still_pure _)) (fun _ => still_pure _)
  | links f =>
    refine still_bind (still_bind (still_memo (fun h => Bool.noConfusion (hk _ h)) ?_) (fun _ => still_pure _)) (fun _ => still_pure _)
    split
    · exact still_pure _
    · exact still_bind (still_ask _) (fun _ => still_bind (still_linkedFilter W hk _ _ _) (fun _ => still_pure _))
  | files f p =>
    exact still_bind (still_bind (still_memo (fun h => Bool.noConfusion (hk _ h)) (still_bind (still_itemsFor W hk _) (fun _ => still_bind
      (still_map (fun _ => still_bind (still_itemsFor W hk _) (fun _ => still_pure _)) _) (fun _ => still_pure _))))
      (fun _ => still_pure _)) (fun _ => still_pure _)
  | scrComponents s => exact still_bind (still_bind (still_memo (fun h => Bool.noConfusion (hk _ h)) (still_ask _)) (fun _ => still_pure _)) (fun _ => still_pure _)
  | packageNames f b =>
    exact still_bind (still_bind (still_memo (fun h => Bool.noConfusion (hk _ h)) (still_bind (still_itemsFor W hk _) (fun _ => still_bind (still_itemsFor W hk _)
      (fun _ => still_bind (still_packageLoop W hk _ _ _ _ _) (fun _ => still_bind (still_packageLoop W hk _ _ _ _ _)
      (fun _ => still_pure _)))))) (fun _ => still_pure _)) (fun _ => still_pure _)
  | namedResources f =>
    exact still_bind (still_bind (still_memo (fun h => Bool.noConfusion (hk _ h)) (still_bind (still_itemsFor W hk _) (fun _ => still_bind
      (still_namedLoop W hk _ _ _) (fun _ => still_pure _)))) (fun _ => still_pure _)) (fun _ => still_pure _)
  | isImage f =>
    exact still_bind (still_bind (still_memo (fun h => Bool.noConfusion (hk _ h)) (still_bind (still_ask _) (fun _ => still_bind (still_ask _)
      (fun _ => still_bind (still_itemsFor W hk _) (fun _ => still_bind (still_map (fun _ => still_itemsFor W hk _) _)
      (fun _ => still_pure _)))))) (fun _ => still_pure _)) (fun _ => still_pure _)
  | isPackageGroup f =>
    exact still_bind (still_bind (still_memo (fun h => Bool.noConfusion (hk _ h)) (still_bind (still_itemsFor W hk _) (fun _ => still_pure _)))
      (fun _ => still_pure _)) (fun _ => still_pure _)
  | packagesDynamic f =>
    rcases h with h | h
    · cases h
    · exact still_bind (still_packagesDynamic W hk f (h _)) (fun _ => still_pure _)
  | isDynamicPackage f n =>
    rcases h with h | h
    · cases h
    · exact still_bind (still_bind (still_memo (h _) (still_bind (still_expandTermS W hk _ _ _) (fun _ => still_bind
        (still_packagesDynamic W hk f (h _)) (fun _ => still_bind (still_lift _) (fun _ => still_pure _))))) (fun _ => still_pure _))
        (fun _ => still_pure _)

/-! ### calls -/

theorem still_addLayer (hk : ∀ k, ks k → k.kept = false) (path : Str) : Still W ks (cAddDistroMachine W path) :=
  still_bind (still_bind (still_memo (fun h => Bool.noConfusion (hk _ h)) (still_lift _)) (fun _ => still_pure _))
    (fun root => still_base (addLayerConfs_grows root))

theorem still_findLocalOrLayer (hk : ∀ k, ks k → k.kept = false) (name dir : Str) : Still W ks (cFindLocalOrLayer W name dir) :=
  still_bind (still_memo (fun h => Bool.noConfusion (hk _ h)) (still_lift _)) (fun _ => still_pure _)

theorem still_findClass (hk : ∀ k, ks k → k.kept = false) (dir inh : Str) (locs : List Str) : Still W ks (cFindClass W dir inh locs) := by
  induction locs with
  | nil => exact still_pure _
  | cons l locs ih =>
    refine still_bind (still_findLocalOrLayer W hk _ _) (fun p => ?_)
    split
    · exact ih
    · exact still_pure _

theorem still_inheritLoop (hk : ∀ k, ks k → k.kept = false) {add : CAddFn} (ha : ∀ p o f, Still W ks (add p o f)) (file : Str) (lineno : Int) (inhname : Str) (locs : List Str)
    (l : List Str) : ∀ found off, Still W ks (cInheritLoop W add file lineno inhname locs l found off) := by
  induction l with
  | nil => exact fun _ _ => still_pure _
  | cons x l ih =>
    intro found off
    refine still_bind (still_findClass W hk _ _ _) (fun path => ?_)
    split
    · exact ih _ _
    · refine still_bind (still_ask _) (fun ign => ?_)
      split
      · exact ih _ _
      · exact still_bind (ha _ _ _) (fun _ => ih _ _)

theorem still_handleKind (hk : ∀ k, ks k → k.kept = false) {add : CAddFn} (ha : ∀ p o f, Still W ks (add p o f)) (file : Str) (lineno : Int) (p : Params)
    (kd : Kind) (pat : Pattern) (m : Mt) : Still W ks (cHandleKind W add file lineno p kd pat m) := by
  unfold cHandleKind
  simp only
  split
  · exact still_bind (still_expandTermS W hk _ _ _) (fun _ => still_bind (still_inheritLoop W hk ha _ _ _ _ _ _ _) (fun _ =>
      still_bind (still_base (fun s => grows_refl W s)) (fun _ => still_pure _)))
  · exact still_bind (still_expandTermS W hk _ _ _) (fun _ => still_bind (still_inheritLoop W hk ha _ _ _ _ _ _ _) (fun _ =>
      still_bind (still_base (fun s => grows_refl W s)) (fun _ => still_pure _)))
  · refine still_bind (still_expandTermS W hk _ _ _) (fun _ => still_bind (still_findLocalOrLayer W hk _ _) (fun _ => ?_))
    split
    · exact still_bind (still_base (fun s => grows_refl W s)) (fun _ => still_pure _)
    · refine still_bind (still_ask _) (fun _ => ?_)
      split
      · exact still_pure _
      · exact still_bind (ha _ _ _) (fun _ => still_bind (still_base (fun s => grows_refl W s)) (fun _ => still_pure _))
  · exact still_base (handleKind_rel (R := Grows W) (grows_refl W) grows_trans (fun s => grows_refl W s) W _
      (fun _ _ _ => M.Rel.raise (grows_refl W) _) _ _ _ _ _)

theorem still_classify (hk : ∀ k, ks k → k.kept = false) {add : CAddFn} (ha : ∀ p o f, Still W ks (add p o f)) (file : Str) (lineno : Int) (p : Params)
    (cnt : Str) (l : List (Kind × Pattern)) : Still W ks (cClassify W add file lineno p cnt l) := by
  induction l with
  | nil => exact still_bind (still_base (fun s => grows_refl W s)) (fun _ => still_pure _)
  | cons x l ih =>
    obtain ⟨kd, pat⟩ := x
    unfold cClassify
    split
    · exact ih
    · refine still_bind (still_handleKind W hk ha _ _ _ _ _ _) (fun r => ?_)
      split
      · exact still_pure _
      · exact ih

theorem still_itemsLoop (hk : ∀ k, ks k → k.kept = false) {add : CAddFn} (ha : ∀ p o f, Still W ks (add p o f)) (file : Str) (lo : Int) (cs : List Chunk) :
    ∀ io ns, Still W ks (cItemsLoop W add file lo io ns cs) := by
  induction cs with
  | nil => exact fun _ _ => still_pure _
  | cons c cs ih =>
    exact fun _ _ => still_bind (still_classify W hk ha _ _ _ _ _) (fun _ => still_bind (ih _ _) (fun _ => still_pure _))

theorem still_addFile (hk : ∀ k, ks k → k.kept = false) (n : Nat) : ∀ p o f, Still W ks (cAddFile W n p o f) := by
  induction n with
  | zero => exact fun _ _ _ => still_lift _
  | succ n ih =>
    intro p o f
    refine still_bind (still_ask _) (fun s => ?_)
    split
    · exact still_pure _
    · exact still_bind (still_base (fun s => grows_refl W s)) (fun _ => still_bind (still_bind (still_lift _) (fun _ => still_itemsLoop W hk ih _ _ _ _ _))
        (fun _ => still_bind (still_base (fun s => grows_refl W s)) (fun _ => still_bind (still_base (crossLink_rel (R := Grows W) (grows_refl W) grows_trans
          (fun s _ _ => grows_refl W s) (fun s _ _ => grows_refl W s) _ _)) (fun _ => still_bind (still_addLayer W hk _) (fun _ =>
        still_bind (still_base (fun s => grows_refl W s)) (fun _ => still_bind (still_clear hk) (fun _ => still_pure _)))))))

theorem still_includedLoop (hk : ∀ k, ks k → k.kept = false) (l : List (Str × List Str)) : Still W ks (cIncludedLoop W l) := by
  induction l with
  | nil => exact still_pure _
  | cons x l ih => exact still_bind (still_itemsFor W hk _) (fun _ => still_bind (still_base (fun s => grows_refl W s)) (fun _ => ih))

theorem still_call (hk : ∀ k, ks k → k.kept = false) (depth : Nat) (c : Call) : Still W ks (c.perform W depth) := by
  cases c with
  | addFile p o f => exact still_addFile W hk depth p o f
  | append l => exact still_bind (still_bind (still_base (fun s => grows_refl W s)) (fun _ => (still_clear hk))) (fun _ => still_pure _)
  | remove l =>
    exact still_bind (still_bind (still_base (fun s => by
      unfold Grows
      rw [removeItems_consts]
      exact grows_refl W s)) (fun _ => still_clear hk)) (fun _ => still_pure _)
  | finalize =>
    exact still_bind (still_bind (still_base (fun s => by
      unfold Grows
      have : (closeM W s).2.consts = s.consts := by
        unfold closeM
        split <;> rfl
      rw [this]
      exact grows_refl W s)) (fun _ => still_bind (still_includedLoop W hk _) (fun _ => still_clear hk)))
      (fun _ => still_pure _)

end
end Oelint

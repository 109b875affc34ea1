import Verif.Spec.Returned
import Verif.Lemmas.CacheOps
/-! Changing a remembered object does not influence what does not read it (C87). -/
set_option linter.unusedSectionVars false
namespace Oelint
variable [Uni]
open Spec

/-- the change can be made before or after `x` -/
def Frames {α : Type} (k : CKey) (v : CVal) (x : CM α) : Prop := ∀ c : CStash, x (CStash.change k v c) = ((x c).1, CStash.change k v (x c).2)

/-- the key of a function that returns its remembered object to the user -/
def CKey.returned : CKey → Bool
  | .linked .. | .byFile .. | .byClassifier .. | .byAttribute .. | .isImage _ | .isPackageGroup _ | .isDynamicPackage ..
  | .layerRoot _ | .found .. => false
  | _ => true

section
variable {k : CKey} {v : CVal} {α β : Type}

theorem frames_pure (a : α) : Frames k v (pure a : CM α) := fun _ => rfl
theorem frames_lift (x : Except PyErr α) : Frames k v (CM.lift x) := fun _ => rfl
theorem frames_ask (f : Stash → Except PyErr α) : Frames k v (CM.ask f) := fun _ => rfl
theorem frames_base (x : M α) : Frames k v (CM.base x) := fun _ => rfl

theorem frames_bind {x : CM α} {g : α → CM β} (hx : Frames k v x) (hg : ∀ a, Frames k v (g a)) : Frames k v (x >>= g) := by
  intro c
  show CM.bind x g _ = ((CM.bind x g c).1, CStash.change k v (CM.bind x g c).2)
  unfold CM.bind
  rw [hx c]
  rcases x c with ⟨r, c'⟩
  cases r with
  | error e => rfl
  | ok a => exact hg a c'

theorem frames_clear : Frames k v CM.clear := by
  intro c
  show (Except.ok (), (CStash.change k v c).clear) = (Except.ok (), CStash.change k v c.clear)
  unfold CStash.change CStash.clear
  simp only [List.filter_map]
  rfl

theorem lookup_change {k' : CKey} (h : k' ≠ k) (t : List (CKey × CVal)) :
    (t.map (fun e => (e.1, if e.1 = k then v else e.2))).lookup k' = t.lookup k' := by
  induction t with
  | nil => rfl
  | cons e t ih =>
    obtain ⟨a, b⟩ := e
    simp only [List.map_cons, List.lookup_cons, ih]
    by_cases ha : k' = a
    · subst ha; simp [h]
    · have : (k' == a) = false := by simpa using ha
      simp only [this]

theorem frames_memo {k' : CKey} {x : CM CVal} (h : k' ≠ k) (hx : Frames k v x) : Frames k v (memo k' x) := by
  intro c
  unfold memo
  have e : (CStash.change k v c).tab.lookup k' = c.tab.lookup k' := lookup_change h c.tab
  rw [e]
  cases c.tab.lookup k' with
  | some w => rfl
  | none =>
    simp only
    rw [hx c]
    rcases x c with ⟨r, c'⟩
    cases r with
    | error e => rfl
    | ok a =>
      simp only [CStash.change, List.map_cons, if_neg h]

theorem frames_map {f : α → CM β} (hf : ∀ a, Frames k v (f a)) (l : List α) : Frames k v (cMap f l) := by
  induction l with
  | nil => exact frames_pure _
  | cons a l ih => exact frames_bind (hf a) (fun _ => frames_bind ih (fun _ => frames_pure _))

end

section
variable {k : CKey} {v : CVal} (W : World)

theorem frames_linked (hk : k.returned = true) (file : Str) (nolink : Bool) (x : Item) : Frames k v (cLinked file nolink x) :=
  frames_bind (frames_memo (by rintro rfl; cases hk) (frames_ask _)) (fun _ => frames_pure _)

theorem frames_linkedFilter (hk : k.returned = true) (file : Str) (nolink : Bool) (l : List Item) :
    Frames k v (cLinkedFilter file nolink l) := by
  induction l with
  | nil => exact frames_pure _
  | cons a l ih => exact frames_bind (frames_linked hk _ _ _) (fun _ => frames_bind ih (fun _ => frames_pure _))

theorem frames_reduce (hk : k.returned = true) (l : List Item) (f : Filter) : Frames k v (cReduce W l f) := by
  unfold cReduce cApplyFilter
  refine frames_bind (frames_bind ?_ (fun _ => frames_bind ?_ (fun _ => ?_))) (fun _ => frames_pure _)
  · unfold cStepFile
    split
    · split
      · exact frames_pure _
      · exact frames_bind (frames_memo (by rintro rfl; cases hk) (frames_bind (frames_linkedFilter hk _ _ _) (fun _ => frames_pure _)))
          (fun _ => frames_pure _)
    · exact frames_pure _
  · unfold cStepClassifier
    split
    · exact frames_pure _
    · exact frames_bind (frames_memo (by rintro rfl; cases hk) (frames_pure _)) (fun _ => frames_pure _)
  · unfold cStepAttribute
    split
    · exact frames_pure _
    · exact frames_bind (frames_memo (by rintro rfl; cases hk) (frames_pure _)) (fun _ => frames_pure _)

theorem frames_itemsFor (hk : k.returned = true) (f : Filter) : Frames k v (cItemsFor W f) :=
  frames_bind (frames_ask _) (fun _ => frames_reduce W hk _ _)

theorem frames_expandOne (hk : k.returned = true) (b : J) {rec : Str → Seen → CM (Str × Seen)} (hr : ∀ t sn, Frames k v (rec t sn))
    (file : Str) (spare : List Str) (quote : Str) (m : Mt) (res : Str) (seen : Seen) :
    Frames k v (cExpandOne W b rec file spare quote m res seen) := by
  unfold cExpandOne
  simp only
  split
  · exact frames_pure _
  · refine frames_bind (frames_itemsFor W hk _) (fun l => ?_)
    split
    · exact frames_lift _
    · exact frames_pure _
    · exact frames_pure _
    · split
      · exact frames_pure _
      · exact frames_bind (hr _ _) (fun _ => frames_pure _)

theorem frames_expandMany (hk : k.returned = true) (b : J) {rec : Str → Seen → CM (Str × Seen)} (hr : ∀ t sn, Frames k v (rec t sn))
    (file : Str) (spare : List Str) (quote : Str) (ms : List Mt) : ∀ (res : Str) (seen : Seen),
    Frames k v (cExpandMany W b rec file spare quote ms res seen) := by
  induction ms with
  | nil => exact fun _ _ => frames_pure _
  | cons m ms ih => exact fun _ _ => frames_bind (frames_expandOne W hk b hr _ _ _ _ _ _) (fun _ => ih _ _)

theorem frames_readFiles {rec : Str → Seen → CM (Str × Seen)} (hr : ∀ t sn, Frames k v (rec t sn)) (ms : List Mt) :
    ∀ (res : Str) (seen : Seen), Frames k v (cReadFiles W rec ms res seen) := by
  induction ms with
  | nil => exact fun _ _ => frames_pure _
  | cons m ms ih =>
    intro res seen
    refine frames_bind (hr _ _) (fun ps => ?_)
    simp only
    split
    · exact ih _ _
    · exact ih _ _
    · exact ih _ _
    · exact frames_lift _

theorem frames_expandTermF (hk : k.returned = true) (n : Nat) : ∀ (file : Str) (spare : List Str) (value : Str) (seen : Seen),
    Frames k v (cExpandTermF W n file spare value seen) := by
  induction n with
  | zero => exact fun _ _ _ _ => frames_lift _
  | succ n ih =>
    intro file spare value seen
    exact frames_bind (frames_ask _) (fun _ => frames_bind (frames_expandMany W hk _ (fun _ _ => ih _ _ _ _) _ _ _ _ _ _)
      (fun _ => frames_bind (frames_expandMany W hk _ (fun _ _ => ih _ _ _ _) _ _ _ _ _ _) (fun _ =>
        frames_readFiles W (fun _ _ => ih _ _ _ _) _ _ _)))

theorem frames_expandTermS (hk : k.returned = true) (file : Str) (spare : List Str) (value : Str) :
    Frames k v (cExpandTermS W file spare value) :=
  frames_bind (frames_ask _) (fun _ => frames_bind (frames_expandTermF W hk _ _ _ _ _) (fun _ => frames_pure _))

theorem frames_explode (hk : k.returned = true) (file : Str) (d : ExpDict) : ∀ acc, Frames k v (cExplode W file d acc) := by
  induction d with
  | nil => exact fun _ => frames_pure _
  | cons e d ih =>
    intro acc
    exact frames_bind (frames_expandTermS W hk _ _ _) (fun _ => frames_bind (frames_expandTermS W hk _ _ _) (fun _ => ih _))

theorem frames_expandVar (hk : k.returned = true) (filename : Option Str) (att val : Arg) (nolink : Bool) :
    Frames k v (cExpandVar W filename att val nolink) := by
  refine frames_bind (frames_itemsFor W hk _) (fun a => frames_bind (frames_itemsFor W hk _) (fun b => ?_))
  simp only
  split
  · exact frames_pure _
  · exact frames_bind (frames_ask _) (fun _ => frames_explode W hk _ _ _)

theorem frames_packageLoop (hk : k.returned = true) (file pn : Str) (strippn : Bool) (l : List VarData) :
    ∀ res, Frames k v (cPackageLoop W file pn strippn l res) := by
  induction l with
  | nil => exact fun _ => frames_pure _
  | cons x l ih => exact fun _ => frames_bind (frames_expandTermS W hk _ _ _) (fun _ => ih _)

theorem frames_dynLoop (hk : k.returned = true) (file : Str) (l : List VarData) : ∀ res, Frames k v (cDynLoop W file l res) := by
  induction l with
  | nil => exact fun _ => frames_pure _
  | cons x l ih => exact fun _ => frames_bind (frames_expandTermS W hk _ _ _) (fun _ => ih _)

theorem frames_namedLoop (hk : ∀ s, k ≠ .scr s) (pn : Str) (l : List Str) : ∀ res, Frames k v (cNamedLoop W pn l res) := by
  induction l with
  | nil => exact fun _ => frames_pure _
  | cons x l ih =>
    intro res
    refine frames_bind (frames_bind (frames_memo (Ne.symm (hk _)) (frames_ask _)) (fun _ => frames_pure _)) (fun url => ?_)
    split
    · exact ih _
    · exact ih _

theorem frames_packagesDynamic (hk : k.returned = true) (file : Str) (h : k ≠ .packagesDynamic file) : Frames k v (cPackagesDynamic W file) :=
  frames_bind (frames_memo (Ne.symm h) (frames_bind (frames_itemsFor W hk _) (fun _ => frames_bind (frames_dynLoop W hk _ _ _)
    (fun _ => frames_pure _)))) (fun _ => frames_pure _)

theorem object_returned {q : Question} (h : q.object = some k) : k.returned = true := by
  cases q <;> simp [Question.object] at h <;> subst h <;> rfl

theorem frames_question (hk : k.returned = true) (q : Question) (h : q.reads k = false) : Frames k v (q.ask W) := by
  have ne : ∀ k', Question.reads k q = (q.object == some k) → q.object = some k' → k' ≠ k := by
    rintro k' e h' rfl
    rw [e, h'] at h
    simp at h
  cases q with
  | itemsFor f => exact frames_bind (frames_itemsFor W hk _) (fun _ => frames_pure _)
  | reduce l f => exact frames_bind (frames_reduce W hk _ _) (fun _ => frames_pure _)
  | expandTerm f t sp => exact frames_bind (frames_expandTermS W hk _ _ _) (fun _ => frames_pure _)
  | expandVar f a b n => exact frames_bind (frames_expandVar W hk _ _ _ _) (fun _ => frames_pure _)
  | recipes => exact frames_bind (frames_bind (frames_memo (ne _ rfl rfl) (frames_ask _)) (fun _ => frames_pure _)) (fun _ => frames_pure _)
  | loneAppends => exact frames_bind (frames_bind (frames_memo (ne _ rfl rfl) (frames_ask _)) (fun _ => frames_pure _)) (fun _ => frames_pure _)
  | confFiles => exact frames_bind (frames_bind (frames_memo (ne _ rfl rfl) (frames_ask _)) (fun _ => frames_pure _)) (fun _ => frames_pure _)
  | bbClasses => exact frames_bind (frames_bind (frames_memo (ne _ rfl rfl) (frames_ask _)) (fun _ => frames_pure _)) (fun _ => frames_pure _)
  | links f =>
    refine frames_bind (frames_bind (frames_memo (ne _ rfl rfl) ?_) (fun _ => frames_pure _)) (fun _ => frames_pure _)
    split
    · exact frames_pure _
    · exact frames_bind (frames_ask _) (fun _ => frames_bind (frames_linkedFilter hk _ _ _) (fun _ => frames_pure _))
  | files f p =>
    exact frames_bind (frames_bind (frames_memo (ne _ rfl rfl) (frames_bind (frames_itemsFor W hk _) (fun _ => frames_bind
      (frames_map (fun _ => frames_bind (frames_itemsFor W hk _) (fun _ => frames_pure _)) _) (fun _ => frames_pure _))))
      (fun _ => frames_pure _)) (fun _ => frames_pure _)
  | scrComponents s => exact frames_bind (frames_bind (frames_memo (ne _ rfl rfl) (frames_ask _)) (fun _ => frames_pure _)) (fun _ => frames_pure _)
  | packageNames f b =>
    exact frames_bind (frames_bind (frames_memo (ne _ rfl rfl) (frames_bind (frames_itemsFor W hk _) (fun _ => frames_bind (frames_itemsFor W hk _)
      (fun _ => frames_bind (frames_packageLoop W hk _ _ _ _ _) (fun _ => frames_bind (frames_packageLoop W hk _ _ _ _ _)
      (fun _ => frames_pure _)))))) (fun _ => frames_pure _)) (fun _ => frames_pure _)
  | namedResources f =>
    simp only [Question.reads, Bool.or_eq_false_iff, decide_eq_false_iff_not] at h
    have hs : ∀ s, k ≠ .scr s := by rintro s rfl; simp at h
    exact frames_bind (frames_bind (frames_memo (Ne.symm h.1) (frames_bind (frames_itemsFor W hk _) (fun _ => frames_bind
      (frames_namedLoop W hs _ _ _) (fun _ => frames_pure _)))) (fun _ => frames_pure _)) (fun _ => frames_pure _)
  | isImage f =>
    exact frames_bind (frames_bind (frames_memo (by rintro rfl; cases hk) (frames_bind (frames_ask _) (fun _ => frames_bind (frames_ask _)
      (fun _ => frames_bind (frames_itemsFor W hk _) (fun _ => frames_bind (frames_map (fun _ => frames_itemsFor W hk _) _)
      (fun _ => frames_pure _)))))) (fun _ => frames_pure _)) (fun _ => frames_pure _)
  | isPackageGroup f =>
    exact frames_bind (frames_bind (frames_memo (by rintro rfl; cases hk) (frames_bind (frames_itemsFor W hk _) (fun _ => frames_pure _)))
      (fun _ => frames_pure _)) (fun _ => frames_pure _)
  | packagesDynamic f => exact frames_bind (frames_packagesDynamic W hk f (Ne.symm (ne _ rfl rfl))) (fun _ => frames_pure _)
  | isDynamicPackage f n =>
    simp only [Question.reads, decide_eq_false_iff_not] at h
    exact frames_bind (frames_bind (frames_memo (by rintro rfl; cases hk) (frames_bind (frames_expandTermS W hk _ _ _) (fun _ => frames_bind
      (frames_packagesDynamic W hk f h) (fun _ => frames_bind (frames_lift _) (fun _ => frames_pure _))))) (fun _ => frames_pure _))
      (fun _ => frames_pure _)

/-! ### calls -/

theorem frames_findLocalOrLayer (hk : k.returned = true) (name dir : Str) : Frames k v (cFindLocalOrLayer W name dir) :=
  frames_bind (frames_memo (by rintro rfl; cases hk) (frames_lift _)) (fun _ => frames_pure _)

theorem frames_findClass (hk : k.returned = true) (dir inh : Str) (locs : List Str) : Frames k v (cFindClass W dir inh locs) := by
  induction locs with
  | nil => exact frames_pure _
  | cons l locs ih =>
    refine frames_bind (frames_findLocalOrLayer W hk _ _) (fun p => ?_)
    split
    · exact ih
    · exact frames_pure _

theorem frames_addLayer (hk : k.returned = true) (path : Str) : Frames k v (cAddDistroMachine W path) :=
  frames_bind (frames_bind (frames_memo (by rintro rfl; cases hk) (frames_lift _)) (fun _ => frames_pure _)) (fun _ => frames_base _)

theorem frames_inheritLoop (hk : k.returned = true) {add : CAddFn} (ha : ∀ p o f, Frames k v (add p o f)) (file : Str) (lineno : Int) (inhname : Str) (locs : List Str)
    (l : List Str) : ∀ found off, Frames k v (cInheritLoop W add file lineno inhname locs l found off) := by
  induction l with
  | nil => exact fun _ _ => frames_pure _
  | cons x l ih =>
    intro found off
    refine frames_bind (frames_findClass W hk _ _ _) (fun path => ?_)
    split
    · exact ih _ _
    · refine frames_bind (frames_ask _) (fun ign => ?_)
      split
      · exact ih _ _
      · exact frames_bind (ha _ _ _) (fun _ => ih _ _)

theorem frames_handleKind (hk : k.returned = true) {add : CAddFn} (ha : ∀ p o f, Frames k v (add p o f)) (file : Str) (lineno : Int) (p : Params)
    (kd : Kind) (pat : Pattern) (m : Mt) : Frames k v (cHandleKind W add file lineno p kd pat m) := by
  unfold cHandleKind
  simp only
  split
  · exact frames_bind (frames_expandTermS W hk _ _ _) (fun _ => frames_bind (frames_inheritLoop W hk ha _ _ _ _ _ _ _) (fun _ =>
      frames_bind (frames_base _) (fun _ => frames_pure _)))
  · exact frames_bind (frames_expandTermS W hk _ _ _) (fun _ => frames_bind (frames_inheritLoop W hk ha _ _ _ _ _ _ _) (fun _ =>
      frames_bind (frames_base _) (fun _ => frames_pure _)))
  · refine frames_bind (frames_expandTermS W hk _ _ _) (fun _ => frames_bind (frames_findLocalOrLayer W hk _ _) (fun _ => ?_))
    split
    · exact frames_bind (frames_base _) (fun _ => frames_pure _)
    · refine frames_bind (frames_ask _) (fun _ => ?_)
      split
      · exact frames_pure _
      · exact frames_bind (ha _ _ _) (fun _ => frames_bind (frames_base _) (fun _ => frames_pure _))
  · exact frames_base _

theorem frames_classify (hk : k.returned = true) {add : CAddFn} (ha : ∀ p o f, Frames k v (add p o f)) (file : Str) (lineno : Int) (p : Params)
    (cnt : Str) (l : List (Kind × Pattern)) : Frames k v (cClassify W add file lineno p cnt l) := by
  induction l with
  | nil => exact frames_bind (frames_base _) (fun _ => frames_pure _)
  | cons x l ih =>
    obtain ⟨kd, pat⟩ := x
    unfold cClassify
    split
    · exact ih
    · refine frames_bind (frames_handleKind W hk ha _ _ _ _ _ _) (fun r => ?_)
      split
      · exact frames_pure _
      · exact ih

theorem frames_itemsLoop (hk : k.returned = true) {add : CAddFn} (ha : ∀ p o f, Frames k v (add p o f)) (file : Str) (lo : Int) (cs : List Chunk) :
    ∀ io ns, Frames k v (cItemsLoop W add file lo io ns cs) := by
  induction cs with
  | nil => exact fun _ _ => frames_pure _
  | cons c cs ih =>
    exact fun _ _ => frames_bind (frames_classify W hk ha _ _ _ _ _) (fun _ => frames_bind (ih _ _) (fun _ => frames_pure _))

theorem frames_addFile (hk : k.returned = true) (n : Nat) : ∀ p o f, Frames k v (cAddFile W n p o f) := by
  induction n with
  | zero => exact fun _ _ _ => frames_lift _
  | succ n ih =>
    intro p o f
    refine frames_bind (frames_ask _) (fun s => ?_)
    split
    · exact frames_pure _
    · exact frames_bind (frames_base _) (fun _ => frames_bind (frames_bind (frames_lift _) (fun _ => frames_itemsLoop W hk ih _ _ _ _ _))
        (fun _ => frames_bind (frames_base _) (fun _ => frames_bind (frames_base _) (fun _ => frames_bind (frames_addLayer W hk _) (fun _ =>
        frames_bind (frames_base _) (fun _ => frames_bind frames_clear (fun _ => frames_pure _)))))))

theorem frames_includedLoop (hk : k.returned = true) (l : List (Str × List Str)) : Frames k v (cIncludedLoop W l) := by
  induction l with
  | nil => exact frames_pure _
  | cons x l ih => exact frames_bind (frames_itemsFor W hk _) (fun _ => frames_bind (frames_base _) (fun _ => ih))

theorem frames_call (hk : k.returned = true) (depth : Nat) (c : Call) : Frames k v (c.perform W depth) := by
  cases c with
  | addFile p o f => exact frames_addFile W hk depth p o f
  | append l => exact frames_bind (frames_bind (frames_base _) (fun _ => frames_clear)) (fun _ => frames_pure _)
  | remove l => exact frames_bind (frames_bind (frames_base _) (fun _ => frames_clear)) (fun _ => frames_pure _)
  | finalize =>
    exact frames_bind (frames_bind (frames_base _) (fun _ => frames_bind (frames_includedLoop W hk _) (fun _ => frames_clear)))
      (fun _ => frames_pure _)

/-- the change has no effect if the caches were emptied -/
theorem change_noCleared {c : CStash} (hc : NoCleared c) (hk : k.cleared = true) : CStash.change k v c = c := by
  unfold CStash.change
  have : c.tab.map (fun e => (e.1, if e.1 = k then v else e.2)) = c.tab := by
    conv_rhs => rw [← List.map_id c.tab]
    refine List.map_congr_left (fun e he => ?_)
    have : e.1 ≠ k := by
      intro h
      have := hc e he
      rw [h, hk] at this; cases this
    simp [this]
  rw [this]

end

end Oelint

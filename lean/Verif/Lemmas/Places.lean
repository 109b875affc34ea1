import Verif.Lemmas.CacheOps
import Verif.Spec.Returned
/-! What is remembered about the places of files is right (C94, C95, C101). -/
set_option linter.unusedSectionVars false
namespace Oelint
variable [Uni]
open Spec

/-- the program remembers right places only -/
def Placed {α : Type} (W : World) (x : CM α) : Prop := ∀ c : CStash, PlacesRight W c → PlacesRight W (x c).2

/-- a remembered place -/
def CKey.place : CKey → Bool
  | .layerRoot _ | .found .. => true
  | _ => false

theorem placesRight_of {W : World} {c c' : CStash} (hc : PlacesRight W c) (h : ∀ e ∈ c'.tab, e.1.place = true → e ∈ c.tab) : PlacesRight W c' :=
  ⟨fun n v hm => hc.1 n v (h _ hm rfl), fun n d v hm => hc.2 n d v (h _ hm rfl)⟩

section
variable {V : World} {α β : Type}

theorem placed_pure (a : α) : Placed V (pure a : CM α) := fun _ h => h
theorem placed_lift (x : Except PyErr α) : Placed V (CM.lift x) := fun _ h => h
theorem placed_ask (f : Stash → Except PyErr α) : Placed V (CM.ask f) := fun _ h => h
theorem placed_base (x : M α) : Placed V (CM.base x) := fun _ h => h

theorem placed_bind {x : CM α} {g : α → CM β} (hx : Placed V x) (hg : ∀ a, Placed V (g a)) : Placed V (x >>= g) := by
  intro c hc
  rw [CM.bind_def]
  have h1 := hx c hc
  rcases hxc : x c with ⟨r, c'⟩
  rw [hxc] at h1
  cases r with
  | error e => exact h1
  | ok a => exact hg a c' h1

theorem placed_clear : Placed V CM.clear := fun c hc => placesRight_of hc fun e he _ => (List.mem_filter.1 he).1

theorem placed_memo {k : CKey} {x : CM CVal} (h : k.place = false) (hx : Placed V x) : Placed V (memo k x) := by
  intro c hc
  unfold memo
  cases c.tab.lookup k with
  | some w => exact hc
  | none =>
    simp only
    have h1 := hx c hc
    rcases hxc : x c with ⟨r, c'⟩
    rw [hxc] at h1
    cases r with
    | error e => exact h1
    | ok a =>
      refine placesRight_of h1 fun e he hp => ?_
      rcases List.mem_cons.1 he with rfl | he
      · rw [h] at hp; cases hp
      · exact he

theorem placed_map {f : α → CM β} (hf : ∀ a, Placed V (f a)) (l : List α) : Placed V (cMap f l) := by
  induction l with
  | nil => exact placed_pure _
  | cons a l ih => exact placed_bind (hf a) (fun _ => placed_bind ih (fun _ => placed_pure _))

end

section
variable {V : World} (W : World)

theorem placed_linked (file : Str) (nolink : Bool) (x : Item) : Placed V (cLinked file nolink x) :=
  placed_bind (placed_memo rfl (placed_ask _)) (fun _ => placed_pure _)

theorem placed_linkedFilter (file : Str) (nolink : Bool) (l : List Item) :
    Placed V (cLinkedFilter file nolink l) := by
  induction l with
  | nil => exact placed_pure _
  | cons a l ih => exact placed_bind (placed_linked _ _ _) (fun _ => placed_bind ih (fun _ => placed_pure _))

theorem placed_stepFile (f : Filter) (l : List Item) : Placed V (cStepFile f l) := by
  unfold cStepFile
  split
  · split
    · exact placed_pure _
    · exact placed_bind (placed_memo rfl (placed_bind (placed_linkedFilter _ _ _) (fun _ => placed_pure _))) (fun _ => placed_pure _)
  · exact placed_pure _

theorem placed_stepClassifier (f : Filter) (l : List Item) : Placed V (cStepClassifier f l) := by
  unfold cStepClassifier
  split
  · exact placed_pure _
  · exact placed_bind (placed_memo rfl (placed_pure _)) (fun _ => placed_pure _)

theorem placed_reduce (l : List Item) (f : Filter) :
    Placed V (cReduce W l f) := by
  unfold cReduce cApplyFilter
  refine placed_bind (placed_bind (placed_stepFile _ _) (fun _ => placed_bind (placed_stepClassifier _ _) (fun _ => ?_))) (fun _ => placed_pure _)
  unfold cStepAttribute
  split
  · exact placed_pure _
  · exact placed_bind (placed_memo rfl (placed_pure _)) (fun _ => placed_pure _)

theorem placed_itemsFor (f : Filter) : Placed V (cItemsFor W f) :=
  placed_bind (placed_ask _) (fun _ => placed_reduce W _ _)

theorem placed_expandOne (b : J) {rec : Str → Seen → CM (Str × Seen)} (hr : ∀ t sn, Placed V (rec t sn))
    (file : Str) (spare : List Str) (quote : Str) (m : Mt) (res : Str) (seen : Seen) :
    Placed V (cExpandOne W b rec file spare quote m res seen) := by
  unfold cExpandOne
  simp only
  split
  · exact placed_pure _
  · refine placed_bind (placed_itemsFor W _) (fun l => ?_)
    split
    · exact placed_lift _
    · exact placed_pure _
    · exact placed_pure _
    · split
      · exact placed_pure _
      · exact placed_bind (hr _ _) (fun _ => placed_pure _)

theorem placed_expandMany (b : J) {rec : Str → Seen → CM (Str × Seen)} (hr : ∀ t sn, Placed V (rec t sn))
    (file : Str) (spare : List Str) (quote : Str) (ms : List Mt) : ∀ (res : Str) (seen : Seen),
    Placed V (cExpandMany W b rec file spare quote ms res seen) := by
  induction ms with
  | nil => exact fun _ _ => placed_pure _
  | cons m ms ih => exact fun _ _ => placed_bind (placed_expandOne W b hr _ _ _ _ _ _) (fun _ => ih _ _)

theorem placed_readFiles {rec : Str → Seen → CM (Str × Seen)} (hr : ∀ t sn, Placed V (rec t sn)) (ms : List Mt) :
    ∀ (res : Str) (seen : Seen), Placed V (cReadFiles W rec ms res seen) := by
  induction ms with
  | nil => exact fun _ _ => placed_pure _
  | cons m ms ih =>
    intro res seen
    refine placed_bind (hr _ _) (fun ps => ?_)
    simp only
    split
    · exact ih _ _
    · exact ih _ _
    · exact ih _ _
    · exact placed_lift _

theorem placed_expandTermF (n : Nat) : ∀ (file : Str) (spare : List Str) (value : Str) (seen : Seen),
    Placed V (cExpandTermF W n file spare value seen) := by
  induction n with
  | zero => exact fun _ _ _ _ => placed_lift _
  | succ n ih =>
    intro file spare value seen
    exact placed_bind (placed_ask _) (fun _ => placed_bind (placed_expandMany W _ (fun _ _ => ih _ _ _ _) _ _ _ _ _ _)
      (fun _ => placed_bind (placed_expandMany W _ (fun _ _ => ih _ _ _ _) _ _ _ _ _ _) (fun _ =>
        placed_readFiles W (fun _ _ => ih _ _ _ _) _ _ _)))

theorem placed_expandTermS (file : Str) (spare : List Str) (value : Str) :
    Placed V (cExpandTermS W file spare value) :=
  placed_bind (placed_ask _) (fun _ => placed_bind (placed_expandTermF W _ _ _ _ _) (fun _ => placed_pure _))

theorem placed_explode (file : Str) (d : ExpDict) : ∀ acc, Placed V (cExplode W file d acc) := by
  induction d with
  | nil => exact fun _ => placed_pure _
  | cons e d ih =>
    intro acc
    exact placed_bind (placed_expandTermS W _ _ _) (fun _ => placed_bind (placed_expandTermS W _ _ _) (fun _ => ih _))

theorem placed_expandVar (filename : Option Str) (att val : Arg) (nolink : Bool) :
    Placed V (cExpandVar W filename att val nolink) := by
  refine placed_bind (placed_itemsFor W _) (fun a => placed_bind (placed_itemsFor W _) (fun b => ?_))
  simp only
  split
  · exact placed_pure _
  · exact placed_bind (placed_ask _) (fun _ => placed_explode W _ _ _)

theorem placed_packageLoop (file pn : Str) (strippn : Bool) (l : List VarData) :
    ∀ res, Placed V (cPackageLoop W file pn strippn l res) := by
  induction l with
  | nil => exact fun _ => placed_pure _
  | cons x l ih => exact fun _ => placed_bind (placed_expandTermS W _ _ _) (fun _ => ih _)

theorem placed_dynLoop (file : Str) (l : List VarData) : ∀ res, Placed V (cDynLoop W file l res) := by
  induction l with
  | nil => exact fun _ => placed_pure _
  | cons x l ih => exact fun _ => placed_bind (placed_expandTermS W _ _ _) (fun _ => ih _)

theorem placed_namedLoop (pn : Str) (l : List Str) : ∀ res, Placed V (cNamedLoop W pn l res) := by
  induction l with
  | nil => exact fun _ => placed_pure _
  | cons x l ih =>
    intro res
    refine placed_bind (placed_bind (placed_memo rfl (placed_ask _)) (fun _ => placed_pure _)) (fun url => ?_)
    split
    · exact ih _
    · exact ih _

theorem placed_packagesDynamic (file : Str) : Placed V (cPackagesDynamic W file) :=
  placed_bind (placed_memo rfl (placed_bind (placed_itemsFor W _) (fun _ => placed_bind (placed_dynLoop W _ _ _)
    (fun _ => placed_pure _)))) (fun _ => placed_pure _)


theorem placed_question (q : Question) : Placed V (q.ask W) := by
  cases q with
  | itemsFor f => exact placed_bind (placed_itemsFor W _) (fun _ => placed_pure _)
  | reduce l f => exact placed_bind (placed_reduce W _ _) (fun _ => placed_pure _)
  | expandTerm f t sp => exact placed_bind (placed_expandTermS W _ _ _) (fun _ => placed_pure _)
  | expandVar f a b n => exact placed_bind (placed_expandVar W _ _ _ _) (fun _ => placed_pure _)
  | recipes => exact placed_bind (placed_bind (placed_memo rfl (placed_ask _)) (fun _ => placed_pure _)) (fun _ => placed_pure _)
  | loneAppends => exact placed_bind (placed_bind (placed_memo rfl (placed_ask _)) (fun _ => placed_pure _)) (fun _ => placed_pure _)
  | confFiles => exact placed_bind (placed_bind (placed_memo rfl (placed_ask _)) (fun _ => placed_pure _)) (fun _ => placed_pure _)
  | bbClasses => exact placed_bind (placed_bind (placed_memo rfl (placed_ask _)) (fun _ => placed_pure _)) (fun _ => placed_pure _)
  | links f =>
    refine placed_bind (placed_bind (placed_memo rfl ?_) (fun _ => placed_pure _)) (fun _ => placed_pure _)
    split
    · exact placed_pure _
    · exact placed_bind (placed_ask _) (fun _ => placed_bind (placed_linkedFilter _ _ _) (fun _ => placed_pure _))
  | files f p =>
    exact placed_bind (placed_bind (placed_memo rfl (placed_bind (placed_itemsFor W _) (fun _ => placed_bind
      (placed_map (fun _ => placed_bind (placed_itemsFor W _) (fun _ => placed_pure _)) _) (fun _ => placed_pure _))))
      (fun _ => placed_pure _)) (fun _ => placed_pure _)
  | scrComponents s => exact placed_bind (placed_bind (placed_memo rfl (placed_ask _)) (fun _ => placed_pure _)) (fun _ => placed_pure _)
  | packageNames f b =>
    exact placed_bind (placed_bind (placed_memo rfl (placed_bind (placed_itemsFor W _) (fun _ => placed_bind (placed_itemsFor W _)
      (fun _ => placed_bind (placed_packageLoop W _ _ _ _ _) (fun _ => placed_bind (placed_packageLoop W _ _ _ _ _)
      (fun _ => placed_pure _)))))) (fun _ => placed_pure _)) (fun _ => placed_pure _)
  | namedResources f =>
    exact placed_bind (placed_bind (placed_memo rfl (placed_bind (placed_itemsFor W _) (fun _ => placed_bind
      (placed_namedLoop W _ _ _) (fun _ => placed_pure _)))) (fun _ => placed_pure _)) (fun _ => placed_pure _)
  | isImage f =>
    exact placed_bind (placed_bind (placed_memo rfl (placed_bind (placed_ask _) (fun _ => placed_bind (placed_ask _)
      (fun _ => placed_bind (placed_itemsFor W _) (fun _ => placed_bind (placed_map (fun _ => placed_itemsFor W _) _)
      (fun _ => placed_pure _)))))) (fun _ => placed_pure _)) (fun _ => placed_pure _)
  | isPackageGroup f =>
    exact placed_bind (placed_bind (placed_memo rfl (placed_bind (placed_itemsFor W _) (fun _ => placed_pure _)))
      (fun _ => placed_pure _)) (fun _ => placed_pure _)
  | packagesDynamic f => exact placed_bind (placed_packagesDynamic W f) (fun _ => placed_pure _)
  | isDynamicPackage f n =>
    exact placed_bind (placed_bind (placed_memo rfl (placed_bind (placed_expandTermS W _ _ _) (fun _ => placed_bind
      (placed_packagesDynamic W f) (fun _ => placed_bind (placed_lift _) (fun _ => placed_pure _))))) (fun _ => placed_pure _))
      (fun _ => placed_pure _)

/-! ### calls -/

theorem placed_addLayer (path : Str) : Placed W (cAddDistroMachine W path) := by
  refine placed_bind (placed_bind ?_ (fun _ => placed_pure _)) (fun _ => placed_base _)
  intro c hc
  unfold memo
  cases c.tab.lookup (.layerRoot path) with
  | some w => exact hc
  | none =>
    simp only [CM.lift]
    cases hg : getLayerRoot W path with
    | error e => exact hc
    | ok r =>
      refine ⟨fun n v hm => ?_, fun n d v hm => ?_⟩
      · rcases List.mem_cons.1 hm with hm | hm
        · cases hm; exact ⟨r, rfl, hg⟩
        · exact hc.1 n v hm
      · rcases List.mem_cons.1 hm with hm | hm
        · cases hm
        · exact hc.2 n d v hm

theorem placed_findLocalOrLayer (name dir : Str) : Placed W (cFindLocalOrLayer W name dir) := by
  refine placed_bind ?_ (fun _ => placed_pure _)
  intro c hc
  unfold memo
  cases c.tab.lookup (.found name dir) with
  | some w => exact hc
  | none =>
    simp only [CM.lift]
    cases hg : findLocalOrLayer W name dir with
    | error e => exact hc
    | ok r =>
      refine ⟨fun n v hm => ?_, fun n d v hm => ?_⟩
      · rcases List.mem_cons.1 hm with hm | hm
        · cases hm
        · exact hc.1 n v hm
      · rcases List.mem_cons.1 hm with hm | hm
        · cases hm; exact ⟨r, rfl, hg⟩
        · exact hc.2 n d v hm

theorem placed_findClass (dir inh : Str) (locs : List Str) : Placed W (cFindClass W dir inh locs) := by
  induction locs with
  | nil => exact placed_pure _
  | cons l locs ih =>
    refine placed_bind (placed_findLocalOrLayer W _ _) (fun p => ?_)
    split
    · exact ih
    · exact placed_pure _

theorem placed_inheritLoop {add : CAddFn} (ha : ∀ p o f, Placed W (add p o f)) (file : Str) (lineno : Int) (inhname : Str) (locs : List Str)
    (l : List Str) : ∀ found off, Placed W (cInheritLoop W add file lineno inhname locs l found off) := by
  induction l with
  | nil => exact fun _ _ => placed_pure _
  | cons x l ih =>
    intro found off
    refine placed_bind (placed_findClass W _ _ _) (fun path => ?_)
    split
    · exact ih _ _
    · refine placed_bind (placed_ask _) (fun ign => ?_)
      split
      · exact ih _ _
      · exact placed_bind (ha _ _ _) (fun _ => ih _ _)

theorem placed_handleKind {add : CAddFn} (ha : ∀ p o f, Placed W (add p o f)) (file : Str) (lineno : Int) (p : Params)
    (kd : Kind) (pat : Pattern) (m : Mt) : Placed W (cHandleKind W add file lineno p kd pat m) := by
  unfold cHandleKind
  simp only
  split
  · exact placed_bind (placed_expandTermS W _ _ _) (fun _ => placed_bind (placed_inheritLoop W ha _ _ _ _ _ _ _) (fun _ =>
      placed_bind (placed_base _) (fun _ => placed_pure _)))
  · exact placed_bind (placed_expandTermS W _ _ _) (fun _ => placed_bind (placed_inheritLoop W ha _ _ _ _ _ _ _) (fun _ =>
      placed_bind (placed_base _) (fun _ => placed_pure _)))
  · refine placed_bind (placed_expandTermS W _ _ _) (fun _ => placed_bind (placed_findLocalOrLayer W _ _) (fun _ => ?_))
    split
    · exact placed_bind (placed_base _) (fun _ => placed_pure _)
    · refine placed_bind (placed_ask _) (fun _ => ?_)
      split
      · exact placed_pure _
      · exact placed_bind (ha _ _ _) (fun _ => placed_bind (placed_base _) (fun _ => placed_pure _))
  · exact placed_base _

theorem placed_classify {add : CAddFn} (ha : ∀ p o f, Placed W (add p o f)) (file : Str) (lineno : Int) (p : Params)
    (cnt : Str) (l : List (Kind × Pattern)) : Placed W (cClassify W add file lineno p cnt l) := by
  induction l with
  | nil => exact placed_bind (placed_base _) (fun _ => placed_pure _)
  | cons x l ih =>
    obtain ⟨kd, pat⟩ := x
    unfold cClassify
    split
    · exact ih
    · refine placed_bind (placed_handleKind W ha _ _ _ _ _ _) (fun r => ?_)
      split
      · exact placed_pure _
      · exact ih

theorem placed_itemsLoop {add : CAddFn} (ha : ∀ p o f, Placed W (add p o f)) (file : Str) (lo : Int) (cs : List Chunk) :
    ∀ io ns, Placed W (cItemsLoop W add file lo io ns cs) := by
  induction cs with
  | nil => exact fun _ _ => placed_pure _
  | cons c cs ih =>
    exact fun _ _ => placed_bind (placed_classify W ha _ _ _ _ _) (fun _ => placed_bind (ih _ _) (fun _ => placed_pure _))

theorem placed_addFile (n : Nat) : ∀ p o f, Placed W (cAddFile W n p o f) := by
  induction n with
  | zero => exact fun _ _ _ => placed_lift _
  | succ n ih =>
    intro p o f
    refine placed_bind (placed_ask _) (fun s => ?_)
    split
    · exact placed_pure _
    · exact placed_bind (placed_base _) (fun _ => placed_bind (placed_bind (placed_lift _) (fun _ => placed_itemsLoop W ih _ _ _ _ _))
        (fun _ => placed_bind (placed_base _) (fun _ => placed_bind (placed_base _) (fun _ => placed_bind (placed_addLayer W _) (fun _ =>
        placed_bind (placed_base _) (fun _ => placed_bind placed_clear (fun _ => placed_pure _)))))))

theorem placed_includedLoop (l : List (Str × List Str)) : Placed W (cIncludedLoop W l) := by
  induction l with
  | nil => exact placed_pure _
  | cons x l ih => exact placed_bind (placed_itemsFor W _) (fun _ => placed_bind (placed_base _) (fun _ => ih))

theorem placed_call (depth : Nat) (c : Call) : Placed W (c.perform W depth) := by
  cases c with
  | addFile p o f => exact placed_addFile W depth p o f
  | append l => exact placed_bind (placed_bind (placed_base _) (fun _ => placed_clear)) (fun _ => placed_pure _)
  | remove l => exact placed_bind (placed_bind (placed_base _) (fun _ => placed_clear)) (fun _ => placed_pure _)
  | finalize =>
    exact placed_bind (placed_bind (placed_base _) (fun _ => placed_bind (placed_includedLoop W _) (fun _ => placed_clear)))
      (fun _ => placed_pure _)


theorem placed_acts (l : List Act) : ∀ c, PlacesRight W c → PlacesRight W (afterActs W l c) := by
  induction l with
  | nil => exact fun _ h => h
  | cons a l ih =>
    intro c hc
    cases a with
    | ask q => exact ih _ (placed_question W q c hc)
    | call d k => exact ih _ (placed_call W d k c hc)

end

/-! ### what is found -/
section
variable {W : World}

theorem right_findLocalOrLayer {c : CStash} (hc : PlacesRight W c) (name dir : Str) :
    (cFindLocalOrLayer W name dir c).1 = findLocalOrLayer W name dir := by
  unfold cFindLocalOrLayer
  rw [CM.bind_def]
  unfold memo
  cases hl : c.tab.lookup (.found name dir) with
  | some v =>
    obtain ⟨r, rfl, hr⟩ := hc.2 _ _ _ (mem_of_lookup hl)
    rw [hr]; rfl
  | none =>
    simp only [CM.lift]
    cases findLocalOrLayer W name dir <;> rfl

theorem right_layerRoot {c : CStash} (hc : PlacesRight W c) (name : Str) : (cLayerRoot W name c).1 = getLayerRoot W name := by
  unfold cLayerRoot
  rw [CM.bind_def]
  unfold memo
  cases hl : c.tab.lookup (.layerRoot name) with
  | some v =>
    obtain ⟨r, rfl, hr⟩ := hc.1 _ _ (mem_of_lookup hl)
    rw [hr]; rfl
  | none =>
    simp only [CM.lift]
    cases getLayerRoot W name <;> rfl

theorem right_findClass (dir inh : Str) (locs : List Str) : ∀ {c : CStash}, PlacesRight W c →
    (cFindClass W dir inh locs c).1 = findClass W dir inh locs := by
  induction locs with
  | nil => exact fun _ => rfl
  | cons l locs ih =>
    intro c hc
    have h1 := right_findLocalOrLayer hc (pathJoin l inh) dir
    have h2 := placed_findLocalOrLayer W (pathJoin l inh) dir c hc
    rw [cFindClass, CM.bind_def, findClass]
    rcases hx : cFindLocalOrLayer W (pathJoin l inh) dir c with ⟨r, c'⟩
    rw [hx] at h1 h2
    cases r with
    | error e => rw [← h1]
    | ok p =>
      rw [← h1]
      simp only
      split
      · exact ih h2
      · rfl

theorem Valid.places {c : CStash} (h : Valid W c) : PlacesRight W c := by
  constructor
  · intro n v hm
    have h' : (getLayerRoot W n).map CVal.str = .ok v := h _ hm rfl
    cases hg : getLayerRoot W n with
    | error e => rw [hg] at h'; cases h'
    | ok r => rw [hg] at h'; cases h'; exact ⟨r, rfl, rfl⟩
  · intro n d v hm
    have h' : (findLocalOrLayer W n d).map CVal.str = .ok v := h _ hm rfl
    cases hg : findLocalOrLayer W n d with
    | error e => rw [hg] at h'; cases h'
    | ok r => rw [hg] at h'; cases h'; exact ⟨r, rfl, rfl⟩

end
end Oelint

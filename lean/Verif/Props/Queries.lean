import Verif.Lemmas.Queries
import Verif.Lemmas.Sample
/-!
# Queries: C32, C33, C36, C37, C46 (state part), C62-C64

`reduceL W s l f` is `stash.Reduce(l, ...)` with the filter arguments `f` on a stash in state `s`, without caching.
-/
namespace Oelint
open Spec
set_option linter.unusedSectionVars false
variable [Uni]

/-- **C32** `Reduce` and `GetItemsFor` return exactly the items of the list / the stash that satisfy every filter given. -/
theorem C32_filters_are_exact (W : World) (s : Stash) (f : Filter) (x : Item) :
    (∀ l, x ∈ reduceL W s l f ↔ x ∈ l ∧ Selected s f x) ∧
    (x ∈ getItemsFor W s f ↔ x ∈ s.items ∧ Selected s f x) :=
  ⟨fun l => mem_reduceL W s l f x, mem_getItemsFor W s f x⟩

/-- filters that are not given or empty do not restrict: a filter without any restriction selects everything -/
theorem C32_no_filter (W : World) (s : Stash) (l : List Item) (nolink : Bool) (fn : Option Str) (c a : Arg) (v : Arg)
    (hf : fn = none ∨ fn = some []) (hc : c = .none ∨ c = .one [] ∨ c = .many [])
    (ha : a = .none ∨ a = .one [] ∨ a = .many []) (x : Item) :
    x ∈ reduceL W s l { filename := fn, classifier := c, attname := a, attvalue := v, nolink } ↔ x ∈ l := by
  rw [mem_reduceL]
  refine ⟨fun h => h.1, fun h => ⟨h, ?_, ?_, ?_⟩⟩
  · rcases hf with rfl | rfl <;> simp
  · rcases hc with rfl | rfl | rfl <;> simp [given]
  · rcases ha with rfl | rfl | rfl <;> simp [given]

/-- **C33** The result of `Reduce` is ordered by `Line` and contains no item twice, whatever order sets iterate in. -/
theorem C33_sorted_and_unique (W : World) (s : Stash) (l : List Item) (f : Filter) :
    (reduceL W s l f).Pairwise (fun a b => a.line ≤ b.line) ∧ (reduceL W s l f).Nodup :=
  ⟨reduceL_sorted W s l f, reduceL_nodup W s l f⟩

/-- **C33** Reducing a result further gives the items of reducing once with a filter that asks for both; the lists have the same items
and the same lines in the same order, so they can differ only in the order of items with equal `Line`.  In particular
reducing twice with the same filter changes nothing else. -/
theorem C33_composition (W : World) (s : Stash) (l : List Item) (f g h : Filter)
    (hh : ∀ x, Selected s h x ↔ Selected s f x ∧ Selected s g x) :
    (reduceL W s (reduceL W s l f) g).Perm (reduceL W s l h) ∧
    (reduceL W s (reduceL W s l f) g).map (·.line) = (reduceL W s l h).map (·.line) ∧
    ((reduceL W s l h).Pairwise (fun a b => a.line ≠ b.line) → reduceL W s (reduceL W s l f) g = reduceL W s l h) := by
  have hp : (reduceL W s (reduceL W s l f) g).Perm (reduceL W s l h) := by
    apply reduceL_perm_of_mem
    intro x
    rw [mem_reduceL, hh]
    constructor
    · rintro ⟨⟨h1, h2⟩, h3⟩; exact ⟨h1, h2, h3⟩
    · rintro ⟨h1, h2, h3⟩; exact ⟨⟨h1, h2⟩, h3⟩
  have h1 := reduceL_sorted W s (reduceL W s l f) g
  have h2 := reduceL_sorted W s l h
  refine ⟨hp, sorted_perm_map_eq hp h1 h2, fun hd => ?_⟩
  refine List.Perm.eq_of_pairwise ?_ h1 h2 hp
  intro a b ha hb hab hba
  by_cases hne : a = b
  · exact hne
  · exfalso
    have hab' : a.line = b.line := Int.le_antisymm hab hba
    have : (reduceL W s l h).Pairwise (fun a b => a.line ≠ b.line) := hd
    exact pairwise_of_ne (fun _ _ h => h.symm) this (hp.mem_iff.1 ha) hb hne hab'

/-- the filter by file and the filter by class and attribute, combined -/
theorem C33_combined_filter (s : Stash) (fn : Option Str) (nolink nolink' : Bool) (c a v : Arg) (x : Item) :
    Selected s { filename := fn, classifier := c, attname := a, attvalue := v, nolink } x ↔
      Selected s { filename := fn, nolink } x ∧ Selected s { classifier := c, attname := a, attvalue := v, nolink := nolink' } x := by
  constructor
  · rintro ⟨h1, h2, h3⟩
    exact ⟨⟨h1, by simp [given], by simp [given]⟩, ⟨by simp, h2, h3⟩⟩
  · rintro ⟨⟨h1, _, _⟩, ⟨_, h2, h3⟩⟩
    exact ⟨h1, h2, h3⟩

/-- **C36** `Append` adds the items at the end and changes nothing else. -/
theorem C36_append (s : Stash) (l : List Item) :
    (appendItems s l).items = s.items ++ l ∧ appendItems s l = { s with items := (appendItems s l).items } := ⟨rfl, rfl⟩

/-- **C36** `Remove` takes out the first occurrence of each given item, one after the other, and changes nothing else; if one is
missing it raises `ValueError` (and those before it are gone). -/
theorem C36_remove (s : Stash) (l : List Item) :
    (∃ s', removeItems l s = (.ok (), s') ∧ s' = { s with items := l.foldl List.erase s.items } ∧ s.items.Perm (l ++ s'.items) ∧
        s'.items.Sublist s.items) ∨
    (∃ pre x post, l = pre ++ x :: post ∧ x ∉ pre.foldl List.erase s.items ∧
        removeItems l s = (.error .valueError, { s with items := pre.foldl List.erase s.items })) := by
  induction l generalizing s with
  | nil => exact Or.inl ⟨s, rfl, rfl, List.Perm.refl _, List.Sublist.refl _⟩
  | cons x xs ih =>
    by_cases hx : x ∈ s.items
    · have e : removeItems (x :: xs) s = removeItems xs { s with items := s.items.erase x } := by
        rw [removeItems_cons, if_pos hx]
      rw [e]
      rcases ih { s with items := s.items.erase x } with ⟨s', h1, h2, h3, h4⟩ | ⟨pre, y, post, h1, h2, h3⟩
      · refine Or.inl ⟨s', h1, ?_, ?_, ?_⟩
        · rw [h2]; rfl
        · exact (List.perm_cons_erase hx).trans (h3.cons x)
        · exact h4.trans List.erase_sublist
      · exact Or.inr ⟨x :: pre, y, post, by rw [h1]; rfl, h2, h3⟩
    · refine Or.inr ⟨[], x, xs, rfl, hx, ?_⟩
      rw [removeItems_cons, if_neg hx]; rfl

/-- **C36** `Remove` undoes `Append` of items that were not present. -/
theorem C36_remove_undoes_append (s : Stash) (l : List Item) (h : ∀ x ∈ l, x ∉ s.items) :
    removeItems l (appendItems s l) = (.ok (), s) := by
  induction l generalizing s with
  | nil => rw [show appendItems s [] = s by simp [appendItems]]; rfl
  | cons x xs ih =>
    rw [removeItems_cons, if_pos (by simp [appendItems])]
    have : (appendItems s (x :: xs)).items.erase x = s.items ++ xs := by
      simp only [appendItems]
      rw [List.erase_append_right _ (h x (by simp))]
      simp
    simp only [this]
    exact ih s (fun y hy => h y (by simp [hy]))

/-- where `list.insert(i, x)` puts the item in a list of length `n` -/
def Spec.insertPos (n : Nat) (i : Int) : Nat := if 0 ≤ i then min i.toNat n else n - (-i).toNat

/-- **C37** (the methods that have list semantics) `append`, `insert`, `remove`, item assignment and `reduce` on a result list.
Missing from the full claim: `extend` and `+=`, see `C37_extend_does_nothing`, `C37_iadd_loses_the_type`.  None of them can touch
the stash: they get no access to its list. -/
theorem C37_stashlist_partial (W : World) (s : Stash) (l : StashList) :
    (∀ xs, (l.append xs).data = l.data ++ xs) ∧
    (∀ i x, (l.insert i x).data = l.data.take (insertPos l.data.length i) ++ x :: l.data.drop (insertPos l.data.length i)) ∧
    (∀ i x, (l.setItem i x).data = l.data.set i x) ∧
    (∀ xs, (StashList.remove xs l = (.ok (), { data := xs.foldl List.erase l.data }) ∧ l.data.Perm (xs ++ xs.foldl List.erase l.data)) ∨
      ∃ pre x post, xs = pre ++ x :: post ∧ x ∉ pre.foldl List.erase l.data ∧
        StashList.remove xs l = (.error .valueError, { data := pre.foldl List.erase l.data })) ∧
    (∀ f x, x ∈ (l.reduce W s f).data ↔ x ∈ l.data ∧ Selected s f x) := by
  refine ⟨fun _ => rfl, ?_, fun _ _ => rfl, ?_, fun f x => mem_reduceL W s l.data f x⟩
  · intro i x
    have : (if i < 0 then max 0 (i + (l.data.length : Int)) else min i l.data.length).toNat = insertPos l.data.length i := by
      unfold insertPos
      split <;> split <;> omega
    unfold StashList.insert
    simp only [this]
  · intro xs
    induction xs generalizing l with
    | nil => exact Or.inl ⟨rfl, List.Perm.refl _⟩
    | cons x xs ih =>
      by_cases hx : x ∈ l.data
      · have e : StashList.remove (x :: xs) l = StashList.remove xs { data := l.data.erase x } := by
          rw [StashList.remove, removeOne_eq, if_pos hx]
        rw [e]
        rcases ih { data := l.data.erase x } with ⟨h1, h2⟩ | ⟨pre, y, post, h1, h2, h3⟩
        · exact Or.inl ⟨h1, (List.perm_cons_erase hx).trans (h2.cons x)⟩
        · exact Or.inr ⟨x :: pre, y, post, by rw [h1]; rfl, h2, h3⟩
      · refine Or.inr ⟨[], x, xs, rfl, hx, ?_⟩
        rw [StashList.remove, removeOne_eq, if_neg hx]; rfl

/-- **C37** is false of the code: `extend` never adds anything -/
theorem C37_extend_does_nothing (l other : StashList) : (l.extend other).data = l.data := rfl

/-- **C37** is false of the code: there are lists for which `extend` has not the effect it has on lists -/
theorem C37_false (x : Item) : ∃ l other : StashList, (l.extend other).data ≠ l.data ++ other.data :=
  ⟨⟨[]⟩, ⟨[x]⟩, by simp [StashList.extend]⟩

/-- `l += xs` changes the object like a list, but leaves a plain list in the variable `l` (it has no `reduce` any more) -/
theorem C37_iadd_loses_the_type (l : StashList) (xs : List Item) :
    (l.iadd xs).2.data = l.data ++ xs ∧ (l.iadd xs).1 = l.data ++ xs := ⟨rfl, rfl⟩

/-- **C46** (as functions of the state) the file lists: exactly these files, no file twice, sorted where the code sorts. -/
theorem C46_file_lists (W : World) (s : Stash) (f : Str) :
    (f ∈ getRecipes s ↔ f ∈ s.map.map (·.1) ∧ c!".bb" <:+ f) ∧
    (f ∈ getLoneAppends s ↔ c!".bbappend" <:+ f ∧ (∃ x ∈ s.items, x.origin = f) ∧
        ¬ ∃ r fs, (r, fs) ∈ s.map ∧ c!".bb" <:+ r ∧ f ∈ fs) ∧
    (f ∈ getConfFiles W s ↔ c!".conf" <:+ f ∧ ∃ x ∈ s.items, x.origin = f) ∧
    (f ∈ getBBClasses s ↔ c!".bbclass" <:+ f ∧ ∃ x ∈ s.items, x.origin = f) ∧
    (getRecipes s).Nodup ∧ (getLoneAppends s).Nodup ∧ (getConfFiles W s).Nodup ∧ (getBBClasses s).Nodup ∧
    Ordered (getRecipes s) ∧ Ordered (getLoneAppends s) ∧ Ordered (getBBClasses s) := by
  have hend : ∀ p : Str, endsWith p f = true ↔ p <:+ f := fun p => by unfold endsWith; exact List.isSuffixOf_iff_suffix
  refine ⟨?_, ?_, ?_, ?_, ?_, ?_, ?_, ?_, ordered_sortBy _, ordered_sortBy _, ordered_sortBy _⟩
  · unfold getRecipes
    rw [mem_sortBy, mem_dedup, List.mem_filter, hend]
  · unfold getLoneAppends
    simp only
    rw [mem_sortBy, mem_dedup, List.mem_filter, List.mem_filter, hend, List.mem_map]
    constructor
    · rintro ⟨⟨h1, h2⟩, h3⟩
      refine ⟨h2, h1, ?_⟩
      rintro ⟨r, fs, hm, hr, hf⟩
      have : f ∈ ((s.map.filter (fun kv => endsWith c!".bb" kv.1)).map (·.2)).flatten.filter (endsWith c!".bbappend") := by
        rw [List.mem_filter, hend]
        refine ⟨?_, h2⟩
        rw [List.mem_flatten]
        exact ⟨fs, List.mem_map.2 ⟨(r, fs), List.mem_filter.2 ⟨hm, by unfold endsWith; exact List.isSuffixOf_iff_suffix.2 hr⟩, rfl⟩, hf⟩
      simp only [Bool.not_eq_true', List.contains_eq_mem, decide_eq_false_iff_not] at h3
      exact h3 this
    · rintro ⟨h2, h1, h3⟩
      refine ⟨⟨h1, h2⟩, ?_⟩
      simp only [Bool.not_eq_true', List.contains_eq_mem, decide_eq_false_iff_not]
      intro hm
      rw [List.mem_filter, List.mem_flatten] at hm
      obtain ⟨⟨fs, hfs, hf⟩, _⟩ := hm
      obtain ⟨⟨r, fs'⟩, hr, rfl⟩ := List.mem_map.1 hfs
      rw [List.mem_filter] at hr
      refine h3 ⟨r, fs', hr.1, ?_, hf⟩
      have := hr.2
      unfold endsWith at this
      exact List.isSuffixOf_iff_suffix.1 this
  · unfold getConfFiles
    rw [(W.strOrder_perm _).mem_iff, mem_dedup, List.mem_filter, hend, List.mem_map]
    exact ⟨fun h => ⟨h.2, h.1⟩, fun h => ⟨h.2, h.1⟩⟩
  · unfold getBBClasses
    rw [mem_sortBy, mem_dedup, List.mem_filter, hend, List.mem_map]
    exact ⟨fun h => ⟨h.2, h.1⟩, fun h => ⟨h.2, h.1⟩⟩
  · exact (sortBy_perm _ _).nodup_iff.2 (nodup_dedup _)
  · exact (sortBy_perm _ _).nodup_iff.2 (nodup_dedup _)
  · exact (W.strOrder_perm _).nodup_iff.2 (nodup_dedup _)
  · exact (sortBy_perm _ _).nodup_iff.2 (nodup_dedup _)

/-! ## C62 -/

/-- an inherit item linked to the file names one of the classes -/
def Spec.InheritsOneOf (s : Stash) (file : Str) (classes : List Str) : Prop :=
  ∃ x ∈ s.items, LinkedTo s file false x ∧ (∃ st cl fp, x.payload = .inherit st cl fp) ∧ ∃ c ∈ x.getItems, c ∈ classes

/-- a variable item linked to the file sets one of the variables -/
def Spec.SetsOneOf (s : Stash) (file : Str) (vars : List Str) : Prop :=
  ∃ x ∈ s.items, LinkedTo s file false x ∧ ∃ v, x.payload = .variable v ∧ v.varName ∈ vars

theorem classifier_inherit {p : Payload} : p.classifier = c!"Inherit" ↔ ∃ st cl fp, p = .inherit st cl fp := by
  cases p <;> simp [Payload.classifier]

theorem classifier_variable {p : Payload} : p.classifier = c!"Variable" ↔ ∃ v, p = .variable v := by
  cases p <;> simp [Payload.classifier]

theorem selected_inherit {s : Stash} {file : Str} (hf : file ≠ []) (x : Item) :
    Selected s (inheritFilter file) x ↔ LinkedTo s file false x ∧ ∃ st cl fp, x.payload = .inherit st cl fp := by
  rw [← classifier_inherit]
  constructor
  · intro h
    exact ⟨h.file file rfl hf, by simpa [inheritFilter, given] using h.classifier⟩
  · rintro ⟨h1, h2⟩
    refine ⟨?_, ?_, ?_⟩
    · intro fn h _; cases h; exact h1
    · intro _; simp [inheritFilter, given, h2]
    · simp [inheritFilter, given]

theorem getAttributes_varName {x : Item} {v : VarData} (h : x.payload = .variable v) :
    dget c!"VarName" x.getAttributes = some (.str v.varName) := by
  simp [Item.getAttributes, baseAttributes, ownAttributes, h, dget]

theorem selected_var {s : Stash} {file name : Str} (hf : file ≠ []) (hn : name ≠ []) (x : Item) :
    Selected s (varFilter file name) x ↔ LinkedTo s file false x ∧ ∃ v, x.payload = .variable v ∧ v.varName = name := by
  constructor
  · intro h
    refine ⟨h.file file rfl hf, ?_⟩
    have h2 : x.payload.classifier = c!"Variable" := by simpa [varFilter, given] using h.classifier
    obtain ⟨v, hv⟩ := classifier_variable.1 h2
    refine ⟨v, hv, ?_⟩
    obtain ⟨n, hn', a, ha, hval⟩ := h.attr (by simp [varFilter, given])
    have : n = c!"VarName" := by simpa [varFilter, given] using hn'
    subst this
    rw [getAttributes_varName hv] at ha
    cases ha
    rcases hval with hval | ⟨w, hw, hval⟩
    · simp [varFilter, given, hn] at hval
    · have : w = name := by simpa [varFilter, given, hn] using hw
      subst this
      simpa using hval
  · rintro ⟨h1, v, hv, rfl⟩
    refine ⟨?_, ?_, ?_⟩
    · intro fn h _; cases h; exact h1
    · intro _; simp [varFilter, given, classifier_variable.2 ⟨v, hv⟩]
    · intro _
      refine ⟨c!"VarName", by simp [varFilter, given], _, getAttributes_varName hv, Or.inr ⟨v.varName, ?_, rfl⟩⟩
      simp [varFilter, given, hn]

theorem kv_has : (d : KV) → (x : Str) → ((d.get x).isSome = true ↔ x ∈ d.keys)
  | .nil, x => by simp [KV.get, KV.keys]
  | .cons k v d, x => by
    simp only [KV.get, KV.keys, List.mem_cons]
    by_cases hk : k = x
    · simp [hk]
    · simp [hk, Ne.symm hk, kv_has d x]

theorem namesIn_has {j : J} {l : List Str} (h : NamesIn j l) {x : Str} : j.has x = true ↔ x ∈ l := by
  cases h with
  | list => simp [J.has]
  | dict d => exact kv_has d x

theorem namesIn_elems {j : J} {l : List Str} (h : NamesIn j l) : j.elems = l := by
  cases h <;> rfl

/-- **C62** `IsImage` is true exactly if an item linked to the file inherits one of the known image classes or sets one of the known
image variables; `IsPackageGroup` exactly if one inherits `packagegroup`. The known names may be listed, or be the keys of a dictionary. -/
theorem C62_any_collection (W : World) (s : Stash) (file : Str) (classes vars : List Str) (jc jv : J) (hf : file ≠ [])
    (hc : imagesClasses s.consts = .ok jc) (hcl : NamesIn jc classes) (hv : imagesVariables s.consts = .ok jv) (hvl : NamesIn jv vars) (he : [] ∉ vars) :
    (∃ b, isImage W s file = .ok b ∧ (b = true ↔ InheritsOneOf s file classes ∨ SetsOneOf s file vars)) ∧
    (isPackageGroup W s file = true ↔ InheritsOneOf s file [c!"packagegroup"]) := by
  constructor
  · refine ⟨_, by rw [isImage, hc, hv], ?_⟩
    simp only [Bool.or_eq_true, List.any_eq_true]
    apply or_congr
    · constructor
      · rintro ⟨x, hx, c, hc1, hc2⟩
        rw [mem_getItemsFor, selected_inherit hf] at hx
        exact ⟨x, hx.1, hx.2.1, hx.2.2, c, hc1, by exact (namesIn_has hcl).1 hc2⟩
      · rintro ⟨x, hx, h1, h2, c, hc1, hc2⟩
        exact ⟨x, (mem_getItemsFor ..).2 ⟨hx, (selected_inherit hf x).2 ⟨h1, h2⟩⟩, c, hc1, (namesIn_has hcl).2 hc2⟩
    · constructor
      · rintro ⟨v, hv1, hv2⟩
        have hv1 : v ∈ vars := by rw [namesIn_elems hvl] at hv1; exact hv1
        have hv0 : v ≠ [] := by rintro rfl; exact he hv1
        simp only [Bool.not_eq_true', List.isEmpty_eq_false_iff_exists_mem] at hv2
        obtain ⟨x, hx⟩ := hv2
        rw [mem_getItemsFor, selected_var hf hv0] at hx
        obtain ⟨h0, h1, w, h2, h3⟩ := hx
        exact ⟨x, h0, h1, w, h2, h3 ▸ hv1⟩
      · rintro ⟨x, hx, h1, v, h2, h3⟩
        have hv0 : v.varName ≠ [] := by intro h; rw [h] at h3; exact he h3
        refine ⟨v.varName, by rw [namesIn_elems hvl]; exact h3, ?_⟩
        simp only [Bool.not_eq_true', List.isEmpty_eq_false_iff_exists_mem]
        exact ⟨x, (mem_getItemsFor ..).2 ⟨hx, (selected_var hf hv0 x).2 ⟨h1, v, h2, rfl⟩⟩⟩
  · unfold isPackageGroup
    simp only [List.any_eq_true]
    constructor
    · rintro ⟨x, hx, hc1⟩
      rw [mem_getItemsFor, selected_inherit hf] at hx
      exact ⟨x, hx.1, hx.2.1, hx.2.2, c!"packagegroup", by simpa using hc1, by simp⟩
    · rintro ⟨x, hx, h1, h2, c, hc1, hc2⟩
      rw [List.mem_singleton] at hc2
      subst hc2
      exact ⟨x, (mem_getItemsFor ..).2 ⟨hx, (selected_inherit hf x).2 ⟨h1, h2⟩⟩, by simpa using hc1⟩

/-- **C62** `IsImage` is true exactly if an item linked to the file inherits one of the known image classes or sets one of the known
image variables; `IsPackageGroup` exactly if one inherits `packagegroup`. -/
theorem C62_images_and_package_groups (W : World) (s : Stash) (file : Str) (classes vars : List Str) (hf : file ≠ [])
    (hc : imagesClasses s.consts = .ok (.list classes)) (hv : imagesVariables s.consts = .ok (.list vars)) (he : [] ∉ vars) :
    (∃ b, isImage W s file = .ok b ∧ (b = true ↔ InheritsOneOf s file classes ∨ SetsOneOf s file vars)) ∧
    (isPackageGroup W s file = true ↔ InheritsOneOf s file [c!"packagegroup"]) :=
  C62_any_collection W s file classes vars _ _ hf hc .list hv .list he

/-! ## C63, C64 -/

/-- **C63** (all functions but `finditer`) whatever the engine does, `search`, `match`, `split` and `sub` of `RegexRpl` do not raise:
the answer of the engine within the time limit, the default otherwise.  Missing: `finditer`, see `C63_finditer_raises`. -/
theorem C63_timeouts_contained_partial {α : Type} (eo : Outcome (Option α)) (el : Outcome (List Str)) (es : Outcome Str)
    (d : Option α) (dl : Option (List Str)) (ds : Str) :
    rplSearch eo d = .ok (match eo with | .done r => r | .timeout => d) ∧
    rplMatch eo d = .ok (match eo with | .done r => r | .timeout => d) ∧
    rplSplit el dl = .ok (match el, dl with | .done r, _ => r | .timeout, some x => x | .timeout, none => []) ∧
    rplSub es ds = .ok (match es with | .done r => r | .timeout => ds) := by
  refine ⟨?_, ?_, ?_, ?_⟩
  · cases eo <;> rfl
  · cases eo <;> rfl
  · cases el <;> cases dl <;> rfl
  · cases es <;> rfl

/-- **C63** is false of `finditer`: the iterator is returned without running the engine; the time-out is raised while the caller
walks the iterator, whatever the default is. -/
theorem C63_finditer_raises {α : Type} (pre : List α) (rest : Scanner α) (d : Option (Scanner α)) :
    ∃ sc, rplFinditer (pre.map Outcome.done ++ Outcome.timeout :: rest) d = .ok sc ∧ scanAll sc = .error .timeoutError := by
  refine ⟨_, rfl, ?_⟩
  induction pre with
  | nil => rfl
  | cons a t ih => simp only [List.map_cons, List.cons_append, scanAll, ih]; rfl

/-- the constants that name no attribute: `ATTR_SUB` outside `Variable` and `Function`, `ATTR_FUNCNAME` of `FunctionExports` -/
def Spec.Dangling (p : Payload) (const : Str) : Prop :=
  (const = c!"ATTR_SUB" ∧ (∀ v, p ≠ .variable v) ∧ ∀ f, p ≠ .function f) ∨
  (const = c!"ATTR_FUNCNAME" ∧ ∃ n, p = .functionExports n)

/-- **C64** For every item, an `ATTR_` constant of its class names an attribute of the item unless it is one of the dangling
ones.  Missing from the full claim: those, which really name nothing. -/
theorem C64_attribute_constants_partial (x : Item) (const name : Str) (h : (const, name) ∈ x.payload.attrConstants) :
    (dget name x.getAttributes).isSome ↔ ¬ Dangling x.payload const := by
  rw [dget_isSome_iff]
  have key : ∀ cn ∈ x.payload.attrConstants, (cn.2 ∈ x.getAttributes.map (·.1) ↔ ¬ Dangling x.payload cn.1) := by
    unfold Item.getAttributes baseAttributes ownAttributes Dangling
    cases x.payload <;>
      simp [Payload.attrConstants]
  exact key _ h

/-- **C64** is false of the code: filtering `FunctionExports` items by `ATTR_FUNCNAME` finds nothing -/
theorem C64_counterexample (x : Item) (n : Str) (h : x.payload = .functionExports n) :
    (c!"ATTR_FUNCNAME", c!"FuncName") ∈ x.payload.attrConstants ∧ dget c!"FuncName" x.getAttributes = none ∧
    ∀ (W : World) (s : Stash) (l : List Item),
      x ∉ reduceL W s l { classifier := .one c!"FunctionExports", attname := .one c!"FuncName" } := by
  have h0 : dget c!"FuncName" x.getAttributes = none := by
    simp [Item.getAttributes, baseAttributes, ownAttributes, h, dget]
  refine ⟨by simp [Payload.attrConstants, h], h0, ?_⟩
  intro W s l hx
  rw [mem_reduceL] at hx
  obtain ⟨nm, hn, a, ha, _⟩ := hx.2.attr (by simp [given])
  have : nm = c!"FuncName" := by simpa [given] using hn
  subst this
  rw [h0] at ha; cases ha

/-- **C64** A `MissingFile` that a user makes names the file and the statement, stands where it was said to stand and has no text. -/
theorem C64_missing_file (uid : Nat) (p : Params) (filename statement : Str) :
    dget c!"Filename" (mkMissingFile uid p filename statement).getAttributes = some (.str filename) ∧
    dget c!"Statement" (mkMissingFile uid p filename statement).getAttributes = some (.str statement) ∧
    dget c!"Origin" (mkMissingFile uid p filename statement).getAttributes = some (.str p.origin) ∧
    dget c!"Raw" (mkMissingFile uid p filename statement).getAttributes = some (.str []) ∧
    dget c!"RealRaw" (mkMissingFile uid p filename statement).getAttributes = some (.str []) ∧
    (mkMissingFile uid p filename statement).payload.classifier = c!"MissingFile" ∧
    (mkMissingFile uid p filename statement).line = p.line ∧ (mkMissingFile uid p filename statement).inFileLine = p.infileline := by
  refine ⟨?_, ?_, ?_, ?_, ?_, rfl, rfl, rfl⟩ <;>
    simp [mkMissingFile, mkItem, mkItemD, Item.getAttributes, baseAttributes, ownAttributes, dget]

/-! ## examples -/
end Oelint

namespace Oelint
open Spec

/-- `A = "b"` on line 3 of /a.bb -/
def Sample.varItem [Uni] (uid : Nat) (name : Str) : Item :=
  mkVariable uid ⟨3, [], 3, false, c!"/a.bb", name ++ c!" = \"b\"", name ++ c!" = \"b\""⟩ name c!"\"b\"" c!" = "

/-- `inherit image` on line 1 of /inc.inc, which /a.bb includes -/
def Sample.inheritItem : Item :=
  mkItem 7 ⟨1, [], 1, false, c!"/inc.inc", c!"inherit image", c!"inherit image"⟩ (.inherit c!"inherit" c!"image" [])

/-- a stash with three items; /a.bb is linked to /inc.inc -/
def Sample.linked [Uni] : Stash :=
  { Sample.stash with items := [Sample.varItem 1 c!"A", Sample.varItem 2 c!"B", Sample.inheritItem],
                      map := [(c!"/a.bb", [c!"/inc.inc"])],
                      consts := .dict (.cons c!"images" (.dict (.cons c!"known-classes" (.list [c!"image"])
                        (.cons c!"known-variables" (.list [c!"IMAGE_INSTALL"]) .nil))) .nil) }

section
attribute [local instance] Sample.asciiUni

example : Sample.inheritItem ∈ getItemsFor (Sample.world []) Sample.linked { filename := some c!"/a.bb" } :=
  (C32_filters_are_exact _ _ _ _).2.2 ⟨by simp [Sample.linked], by
    refine ⟨?_, by simp [given], by simp [given]⟩
    intro fn h _; cases h
    exact Or.inr ⟨rfl, [c!"/inc.inc"], rfl, by simp [Sample.inheritItem, mkItem, mkItemD]⟩⟩
example : getItemsFor (Sample.world []) Sample.linked { filename := some c!"/a.bb", attname := .one c!"VarName", attvalue := .one c!"B" }
    = [Sample.varItem 2 c!"B"] := by decide +kernel
example : reduceL (Sample.world []) Sample.linked
      (reduceL (Sample.world []) Sample.linked Sample.linked.items { filename := some c!"/a.bb" }) { classifier := .one c!"Variable" }
    = reduceL (Sample.world []) Sample.linked Sample.linked.items { filename := some c!"/a.bb", classifier := .one c!"Variable" } := by
  decide +kernel
/-- the hypothesis of `C33_composition` is met by splitting a filter -/
example (W : World) (s : Stash) (l : List Item) :
    (reduceL W s (reduceL W s l { filename := some c!"/a.bb" }) { classifier := .one c!"Variable" }).Perm
      (reduceL W s l { filename := some c!"/a.bb", classifier := .one c!"Variable" }) :=
  (C33_composition W s l _ _ _ (fun x => C33_combined_filter s (some c!"/a.bb") false false (.one c!"Variable") .none .none x)).1
example : removeItems [Sample.varItem 9 c!"X"] (appendItems Sample.linked [Sample.varItem 9 c!"X"]) = (.ok (), Sample.linked) :=
  C36_remove_undoes_append _ _ (by decide +kernel)
example : (removeItems [Sample.varItem 9 c!"X"] Sample.linked).1 = .error .valueError := by decide +kernel
example : (StashList.insert ⟨[Sample.varItem 1 c!"A", Sample.varItem 2 c!"B"]⟩ (-1) Sample.inheritItem).data =
    [Sample.varItem 1 c!"A", Sample.inheritItem, Sample.varItem 2 c!"B"] := by decide +kernel
example : isImage (Sample.world []) Sample.linked c!"/a.bb" = .ok true := by
  obtain ⟨⟨b, h1, h2⟩, _⟩ := C62_images_and_package_groups (Sample.world []) Sample.linked c!"/a.bb" [c!"image"] [c!"IMAGE_INSTALL"]
    (by simp) rfl rfl (by simp)
  have : b = true := h2.2 (Or.inl ⟨Sample.inheritItem, by simp [Sample.linked], Or.inr ⟨rfl, _, rfl, by
    simp [Sample.inheritItem, mkItem, mkItemD]⟩, ⟨_, _, _, rfl⟩, c!"image", by decide +kernel, by simp⟩)
  rw [h1, this]
/-- the known names may be the keys of a dictionary -/
example : isImage (Sample.world []) { Sample.linked with consts := .dict (.cons c!"images" (.dict (.cons c!"known-classes" (.dict (.cons c!"image" (.str []) .nil))
    (.cons c!"known-variables" (.dict (.cons c!"A" (.str []) .nil)) .nil))) .nil) } c!"/a.bb" = .ok true := by
  obtain ⟨⟨b, h1, h2⟩, _⟩ := C62_any_collection (Sample.world []) { Sample.linked with consts := .dict (.cons c!"images" (.dict (.cons c!"known-classes"
    (.dict (.cons c!"image" (.str []) .nil)) (.cons c!"known-variables" (.dict (.cons c!"A" (.str []) .nil)) .nil))) .nil) } c!"/a.bb" [c!"image"] [c!"A"] _ _
    (by simp) rfl (.dict _) rfl (.dict _) (by simp)
  have : b = true := h2.2 (Or.inl ⟨Sample.inheritItem, by simp [Sample.linked], Or.inr ⟨rfl, _, rfl, by
    simp [Sample.inheritItem, mkItem, mkItemD]⟩, ⟨_, _, _, rfl⟩, c!"image", by decide +kernel, by simp⟩)
  rw [h1, this]
example : getRecipes Sample.linked = [c!"/a.bb"] := by decide +kernel
end

end Oelint

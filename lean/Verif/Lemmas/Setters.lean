import Verif.Lemmas.Blind
import Verif.Lemmas.Reproducible
/-! What assigning an attribute does to the results that are remembered (C93). -/
set_option linter.unusedSectionVars false
set_option linter.unusedSimpArgs false
namespace Oelint
variable [Uni]
open Spec

section
variable (u : Nat) (a : Setter) (x : Item)

theorem assign_uid : (x.assign a).uid = x.uid := by
  unfold Item.assign; cases a <;> simp only [addIncluded] <;> split <;> rfl
theorem assign_origin : (x.assign a).origin = x.origin := by
  unfold Item.assign; cases a <;> simp only [addIncluded] <;> split <;> rfl
theorem assign_classifier : (x.assign a).payload.classifier = x.payload.classifier := by
  unfold Item.assign; cases a <;> simp only [addIncluded] <;> split <;> simp_all [Payload.classifier]

theorem assignTo_uid : (assignTo u a x).uid = x.uid := by unfold assignTo; split; exact assign_uid a x; rfl
theorem assignTo_origin : (assignTo u a x).origin = x.origin := by unfold assignTo; split; exact assign_origin a x; rfl
theorem assignTo_classifier : (assignTo u a x).payload.classifier = x.payload.classifier := by
  unfold assignTo; split; exact assign_classifier a x; rfl

/-- the words of an `inherit` stay -/
theorem assignTo_inherit (h : x.payload.classifier = c!"Inherit") : (assignTo u a x).getItems = x.getItems := by
  obtain ⟨uid, line, raw, origin, ifl, inc, ib, rr, dl, p⟩ := x
  unfold assignTo
  split
  · unfold Item.assign
    cases p with
    | inherit s c q => cases a <;> rfl
    | _ => exact absurd h (by simp only [Payload.classifier]; decide)
  · rfl

end

theorem dget_cons_congr {n k : Str} {v v' : Attr} {l l' : List (Str × Attr)} (h : v = v' ∨ k ≠ n) (hl : dget n l = dget n l') :
    dget n ((k, v) :: l) = dget n ((k, v') :: l') := by
  unfold dget
  by_cases hk : k = n
  · rcases h with rfl | h
    · simp [hk]
    · exact absurd hk h
  · have : (k == n) = false := by simpa using hk
    simpa [this] using hl

theorem dget_append (n : Str) (l m : List (Str × Attr)) : dget n (l ++ m) = (dget n l).or (dget n m) := by
  induction l with
  | nil => rfl
  | cons a t ih =>
    obtain ⟨k, v⟩ := a
    simp only [List.cons_append, dget]
    split
    · rfl
    · exact ih

theorem dget_append_congr {n : Str} {l l' m m' : List (Str × Attr)} (h1 : dget n l = dget n l') (h2 : dget n m = dget n m') :
    dget n (l ++ m) = dget n (l' ++ m') := by
  rw [dget_append, dget_append, h1, h2]

theorem follows_attr {a : Setter} {n : Str} (h : follows [Setter.attr a] n = false) : Setter.attr a ≠ n := by
  rintro rfl
  revert h
  cases a <;> exact (fun h => absurd (show true = false from h) (by simp))

theorem follows_derived {a : Setter} {n d : Str} (h : follows [Setter.attr a] n = false) (hd : (Setter.attr a, d) ∈ derived) : d ≠ n := by
  rintro rfl
  unfold follows at h
  rw [Bool.or_eq_false_iff, List.any_eq_false] at h
  have := h.2 _ hd
  simp at this

/-- an attribute that neither is assigned nor is computed from the assigned one has the old value -/
theorem dget_assign (a : Setter) (x : Item) (n : Str) (h : follows [Setter.attr a] n = false) :
    dget n (x.assign a).getAttributes = dget n x.getAttributes := by
  obtain ⟨uid, line, raw, origin, ifl, inc, ib, rr, dl, p⟩ := x
  have h1 := follows_attr h
  cases a with
  | line m =>
    refine dget_append_congr rfl ?_
    exact dget_cons_congr (Or.inr h1) rfl
  | raw t =>
    refine dget_append_congr rfl ?_
    exact dget_cons_congr (Or.inl rfl) (dget_cons_congr (Or.inr h1) rfl)
  | realRaw t =>
    refine dget_append_congr rfl ?_
    iterate 4 refine dget_cons_congr (Or.inl rfl) ?_
    exact dget_cons_congr (Or.inr h1) rfl
  | includedFrom l =>
    refine dget_append_congr rfl ?_
    iterate 9 refine dget_cons_congr (Or.inl rfl) ?_
    exact dget_cons_congr (Or.inr h1) rfl
  | varValue t =>
    have h2 : c!"VarValueStripped" ≠ n := follows_derived h List.mem_cons_self
    cases p with
    | «variable» v =>
      iterate 3 refine dget_cons_congr (Or.inl rfl) ?_
      refine dget_cons_congr (Or.inr h1) ?_
      iterate 4 refine dget_cons_congr (Or.inl rfl) ?_
      exact dget_cons_congr (Or.inr h2) rfl
    | _ => rfl
  | funcBody t =>
    have h2 : c!"FuncBodyStripped" ≠ n := follows_derived h (List.mem_cons_of_mem _ List.mem_cons_self)
    cases p with
    | function f =>
      iterate 6 refine dget_cons_congr (Or.inl rfl) ?_
      refine dget_cons_congr (Or.inr h1) ?_
      exact dget_cons_congr (Or.inr h2) rfl
    | _ => rfl

/-- which attributes an item has does not change -/
theorem dget_assign_isSome (a : Setter) (x : Item) (n : Str) :
    (dget n (x.assign a).getAttributes).isSome = (dget n x.getAttributes).isSome := by
  have key : ∀ {k : Str} {v v' : Attr} {l l' : List (Str × Attr)}, (dget n l).isSome = (dget n l').isSome →
      (dget n ((k, v) :: l)).isSome = (dget n ((k, v') :: l')).isSome := by
    intro k v v' l l' h
    unfold dget
    by_cases hk : k == n
    · simp [hk]
    · simpa [hk] using h
  have app : ∀ {l m m' : List (Str × Attr)}, (dget n m).isSome = (dget n m').isSome →
      (dget n (l ++ m)).isSome = (dget n (l ++ m')).isSome := by
    intro l m m' h
    rw [dget_append, dget_append, Option.isSome_or, Option.isSome_or, h]
  obtain ⟨uid, line, raw, origin, ifl, inc, ib, rr, dl, p⟩ := x
  cases a with
  | line m => refine app ?_; exact key rfl
  | raw t => refine app ?_; exact key (key rfl)
  | realRaw t =>
    refine app ?_
    iterate 5 refine key ?_
    rfl
  | includedFrom l =>
    refine app ?_
    iterate 10 refine key ?_
    rfl
  | varValue t =>
    cases p with
    | «variable» v =>
      iterate 19 refine key ?_
      rfl
    | _ => rfl
  | funcBody t =>
    cases p with
    | function v =>
      iterate 19 refine key ?_
      rfl
    | _ => rfl

theorem follows_mono {attrs : List Str} {a : Str} {n : Str} (ha : a ∈ attrs) (h : follows attrs n = false) : follows [a] n = false := by
  unfold follows at h ⊢
  rw [Bool.or_eq_false_iff, List.any_eq_false] at h ⊢
  refine ⟨?_, fun d hd => ?_⟩
  · have h1 := h.1
    rw [Bool.and_eq_false_iff] at h1 ⊢
    refine h1.imp id (fun h1 => ?_)
    rw [← Bool.not_eq_true, List.contains_iff_mem] at h1 ⊢
    intro hm
    rw [List.mem_singleton] at hm
    exact h1 (hm ▸ ha)
  · have h2 := h.2 d hd
    intro hm
    rw [Bool.and_eq_true, List.contains_iff_mem, List.mem_singleton] at hm
    exact h2 (by rw [Bool.and_eq_true, List.contains_iff_mem]; exact ⟨hm.1 ▸ ha, hm.2⟩)

theorem attrFilter_passes (y : Item) (ns vs : List Str) : attrFilter y ns vs = ns.any (fun name => passes vs (dget name y.getAttributes)) := by
  unfold attrFilter
  congr 1

/-- `Line` and `IncludedFrom` are no texts -/
theorem dget_line (x : Item) : dget c!"Line" x.getAttributes = some (.int x.line) := by
  unfold Item.getAttributes ownAttributes; cases x.payload <;> rfl
theorem dget_includedFrom (x : Item) : dget c!"IncludedFrom" x.getAttributes = some (.strset x.includedFrom) := by
  unfold Item.getAttributes ownAttributes; cases x.payload <;> rfl

/-- a filter that does not compare an assigned attribute decides as before -/
theorem attrFilter_assign {attrs : List Str} {a : Setter} (ha : Setter.attr a ∈ attrs) {ns vs : List Str} (h : compares attrs ns vs = false) (x : Item) :
    attrFilter (x.assign a) ns vs = attrFilter x ns vs := by
  rw [attrFilter_passes, attrFilter_passes, Bool.eq_iff_iff, List.any_eq_true, List.any_eq_true]
  refine exists_congr fun n => and_congr_right fun hn => ?_
  rw [← Bool.eq_iff_iff]
  by_cases hv : vs = []
  · subst hv
    have h1 : ∀ o : Option Attr, passes [] o = o.isSome := by intro o; cases o <;> rfl
    rw [h1, h1, dget_assign_isSome]
  · have hv' : vs.isEmpty = false := by simpa using hv
    unfold compares at h
    rw [hv', Bool.not_false, Bool.true_and, List.any_eq_false] at h
    have h2 := h n hn
    cases hf : follows attrs n with
    | false => rw [dget_assign a x n (follows_mono ha hf)]
    | true =>
      rw [hf, Bool.true_and] at h2
      have h3 : n = c!"Line" ∨ n = c!"IncludedFrom" := by
        by_contra hc
        rw [not_or] at hc
        exact h2 (by simp [hc.1, hc.2])
      have n1 : ∀ i : Int, passes vs (some (.int i)) = false := by
        intro i; simp only [passes, hv', Bool.false_or]; rw [List.any_eq_false]; intro v _; simp
      have n2 : ∀ i : List Str, passes vs (some (.strset i)) = false := by
        intro i; simp only [passes, hv', Bool.false_or]; rw [List.any_eq_false]; intro v _; simp
      rcases h3 with rfl | rfl
      · rw [dget_line, dget_line, n1, n1]
      · rw [dget_includedFrom, dget_includedFrom, n2, n2]

theorem attrFilter_assignTo {attrs : List Str} {a : Setter} (ha : Setter.attr a ∈ attrs) {ns vs : List Str} (h : compares attrs ns vs = false) (u : Nat)
    (x : Item) : attrFilter (assignTo u a x) ns vs = attrFilter x ns vs := by
  unfold assignTo
  split
  · exact attrFilter_assign ha h x
  · rfl

/-! ### selections -/

theorem nocmp_inh (attrs : List Str) (file : Str) :
    compares attrs (inheritFilter file).attname.norm (inheritFilter file).attvalue.norm = false := nocmp_none attrs _

section
variable {attrs : List Str} {a : Setter} (ha : Setter.attr a ∈ attrs) (u : Nat) (W : World)
include ha

theorem keeps_assign (s : Stash) (f : Filter) (hf : compares attrs f.attname.norm f.attvalue.norm = false) (x : Item) :
    keeps (s.assign u a) f (assignTo u a x) = keeps s f x := by
  unfold keeps
  have hl : ∀ fn nl, isLinkedTo (s.assign u a) (assignTo u a x) fn nl = isLinkedTo s x fn nl := by
    intro fn nl
    unfold isLinkedTo
    rw [assignTo_origin]
    rfl
  simp only [hl, assignTo_classifier]
  rw [norm_given, norm_given] at hf
  have : attrFilter (assignTo u a x) (given f.attname) (given f.attvalue) = attrFilter x (given f.attname) (given f.attvalue) :=
    attrFilter_assignTo ha hf u x
  rw [this]

theorem applyFilter_assign (s : Stash) (f : Filter) (hf : compares attrs f.attname.norm f.attvalue.norm = false) (l : List Item) :
    applyFilter (s.assign u a) (l.map (assignTo u a)) f = (applyFilter s l f).map (assignTo u a) := by
  rw [applyFilter_eq, applyFilter_eq, List.filter_map]
  congr 1
  exact List.filter_congr (fun x _ => keeps_assign ha u s f hf x)

theorem mem_itemsFor_assign (s : Stash) (f : Filter) (hf : compares attrs f.attname.norm f.attvalue.norm = false) (y : Item) :
    y ∈ getItemsFor W (s.assign u a) f ↔ ∃ x ∈ getItemsFor W s f, assignTo u a x = y := by
  rw [mem_getItemsFor, ← keeps_iff]
  constructor
  · rintro ⟨h1, h2⟩
    obtain ⟨x, hx, rfl⟩ := List.mem_map.1 h1
    rw [keeps_assign ha u s f hf] at h2
    exact ⟨x, (mem_getItemsFor W s f x).2 ⟨hx, (keeps_iff s f x).1 h2⟩, rfl⟩
  · rintro ⟨x, hx, rfl⟩
    obtain ⟨h1, h2⟩ := (mem_getItemsFor W s f x).1 hx
    exact ⟨List.mem_map_of_mem h1, by rw [keeps_assign ha u s f hf]; exact (keeps_iff s f x).2 h2⟩

theorem any_itemsFor_assign (s : Stash) (f : Filter) (hf : compares attrs f.attname.norm f.attvalue.norm = false) (p : Item → Bool)
    (hp : ∀ x ∈ getItemsFor W s f, p (assignTo u a x) = p x) : (getItemsFor W (s.assign u a) f).any p = (getItemsFor W s f).any p := by
  rw [Bool.eq_iff_iff, List.any_eq_true, List.any_eq_true]
  constructor
  · rintro ⟨y, hy, h⟩
    obtain ⟨x, hx, rfl⟩ := (mem_itemsFor_assign ha u W s f hf y).1 hy
    exact ⟨x, hx, by rw [← hp x hx]; exact h⟩
  · rintro ⟨x, hx, h⟩
    exact ⟨_, (mem_itemsFor_assign ha u W s f hf _).2 ⟨x, hx, rfl⟩, by rw [hp x hx]; exact h⟩

theorem isEmpty_itemsFor_assign (s : Stash) (f : Filter) (hf : compares attrs f.attname.norm f.attvalue.norm = false) :
    (getItemsFor W (s.assign u a) f).isEmpty = (getItemsFor W s f).isEmpty := by
  have h := any_itemsFor_assign ha u W s f hf (fun _ => true) (fun _ _ => rfl)
  have e : ∀ l : List Item, l.isEmpty = !(l.any (fun _ => true)) := by intro l; cases l <;> rfl
  rw [e, e, h]

theorem isInherit_of_mem {s : Stash} {file : Str} {x : Item} (h : x ∈ getItemsFor W s (inheritFilter file)) :
    x.payload.classifier = c!"Inherit" := by
  have h := ((mem_getItemsFor W s _ x).1 h).2
  rw [← keeps_iff] at h
  unfold keeps at h
  simp only [Bool.and_eq_true] at h
  have h2 := h.1.2
  rw [show given (inheritFilter file).classifier = [c!"Inherit"] from rfl] at h2
  simpa using h2

theorem isPackageGroup_assign (s : Stash) (file : Str) : isPackageGroup W (s.assign u a) file = isPackageGroup W s file :=
  any_itemsFor_assign ha u W s _ (nocmp_inh attrs file) _ (fun x hx => by rw [assignTo_inherit u a x (isInherit_of_mem ha W hx)])

theorem isImage_assign (s : Stash) (file : Str) : isImage W (s.assign u a) file = isImage W s file := by
  unfold isImage
  have hc : (s.assign u a).consts = s.consts := rfl
  rw [hc]
  have h1 : ∀ classes : J, ((getItemsFor W (s.assign u a) (inheritFilter file)).any (fun i => i.getItems.any classes.has)) =
      ((getItemsFor W s (inheritFilter file)).any (fun i => i.getItems.any classes.has)) := fun classes =>
    any_itemsFor_assign ha u W s _ (nocmp_inh attrs file) _ (fun x hx => by rw [assignTo_inherit u a x (isInherit_of_mem ha W hx)])
  have h2 : ∀ v : Str, (getItemsFor W (s.assign u a) (varFilter file v)).isEmpty = (getItemsFor W s (varFilter file v)).isEmpty := fun v =>
    isEmpty_itemsFor_assign ha u W s _ (nocmp_var attrs file v)
  simp only [h1, h2]

theorem getFiles_assign (s : Stash) (file p : Str) : getFiles W (s.assign u a) file p = getFiles W s file p := by
  unfold getFiles
  have key : ∀ (g : Item → Str), (∀ x, g (assignTo u a x) = g x) → ∀ f : Filter, compares attrs f.attname.norm f.attvalue.norm = false →
      ∀ t, t ∈ (getItemsFor W (s.assign u a) f).map g ↔ t ∈ (getItemsFor W s f).map g := by
    intro g hg f hf t
    rw [List.mem_map, List.mem_map]
    constructor
    · rintro ⟨y, hy, rfl⟩
      obtain ⟨x, hx, rfl⟩ := (mem_itemsFor_assign ha u W s f hf y).1 hy
      exact ⟨x, hx, (hg x).symm⟩
    · rintro ⟨x, hx, rfl⟩
      exact ⟨_, (mem_itemsFor_assign ha u W s f hf _).2 ⟨x, hx, rfl⟩, hg x⟩
  have hpath : ∀ x : Item, (dirname (assignTo u a x).origin ++ c!"/*/" ++ p) = (dirname x.origin ++ c!"/*/" ++ p) := fun x => by
    rw [assignTo_origin]
  refine sortNames_unique (dedup_perm fun t => ?_)
  simp only [List.mem_flatten, List.mem_map, mem_dedup]
  refine exists_congr fun l => and_congr_left fun _ => exists_congr fun q => and_congr_left fun _ => ?_
  rw [List.mem_append, List.mem_append]
  refine or_congr (key _ hpath _ (nocmp_var attrs file _) q) ?_
  simp only [List.mem_flatten, List.mem_map]
  constructor
  · rintro ⟨l, ⟨y, hy, rfl⟩, hq⟩
    obtain ⟨x, hx, rfl⟩ := (mem_itemsFor_assign ha u W s _ (nocmp_var attrs file _) y).1 hy
    refine ⟨_, ⟨x, hx, rfl⟩, ?_⟩
    have := (key _ hpath { filename := some _ } (nocmp_none attrs _) q).1 hq
    rw [assignTo_origin] at this
    exact this
  · rintro ⟨l, ⟨x, hx, rfl⟩, hq⟩
    refine ⟨_, ⟨_, (mem_itemsFor_assign ha u W s _ (nocmp_var attrs file _) _).2 ⟨x, hx, rfl⟩, rfl⟩, ?_⟩
    refine (key _ hpath { filename := some _ } (nocmp_none attrs _) q).2 ?_
    rw [assignTo_origin]
    exact hq

end

section
variable (u : Nat) (a : Setter) (W : World)

theorem origins_assign (l : List Item) : (l.map (assignTo u a)).map (·.origin) = l.map (·.origin) := by
  rw [List.map_map]
  exact List.map_congr_left (fun x _ => assignTo_origin u a x)

theorem uids_assign (l : List Item) : (l.map (assignTo u a)).map (·.uid) = l.map (·.uid) := by
  rw [List.map_map]
  exact List.map_congr_left (fun x _ => assignTo_uid u a x)

theorem nodup_of_uids {l : List Item} (h : (l.map (·.uid)).Nodup) : l.Nodup := List.Nodup.of_map _ h

theorem getLinks_assign (hW : OrderByIdentity W) {s : Stash} (hd : (s.items.map (·.uid)).Nodup) (file : Str) :
    getLinksForFile W (s.assign u a) file = getLinksForFile W s file := by
  unfold getLinksForFile
  split
  · rfl
  · have e1 : (s.assign u a).items = s.items.map (assignTo u a) := rfl
    have h1 : ((s.items.map (assignTo u a)).map (·.uid)).Nodup := by
      rw [uids_assign]
      exact hd
    rw [e1, dedup_of_nodup (nodup_of_uids h1), dedup_of_nodup (nodup_of_uids hd), hW s.items (assignTo u a) (fun x _ => assignTo_uid u a x)]
    unfold getItemsByFile
    rw [if_neg (by assumption), if_neg (by assumption), List.filter_map, List.filter_map, List.map_map]
    have : ∀ x : Item, isLinkedTo (s.assign u a) (assignTo u a x) file false = isLinkedTo s x file false := by
      intro x
      unfold isLinkedTo
      rw [assignTo_origin]
      rfl
    simp only [Function.comp_def, assignTo_origin, this]

end

/-! ### assignments that leave lines and values of variables alone -/

/-- what questions about variables read of an item -/
def varPart (x : Item) : Option (VarData × List (Str × Str)) :=
  match x.payload with
  | .variable v => some (v, x.inlineBlocks)
  | _ => none

/-- the text `ExpandTerm` takes from a variable -/
def textOf (p : VarData × List (Str × Str)) : Option Str :=
  if (appendOperation p.1).isEmpty then
    some (if hasSub inlineBlock (varValueStripped p.1) then reverseInline p.2 p.1 else varValueStripped p.1)
  else none

/-- the assignment does not concern values of variables or the order of items -/
def Aside (a : Setter) : Prop := Setter.attr a ≠ c!"VarValue" ∧ Setter.attr a ≠ c!"Line"

theorem aside_of {attrs : List Str} {a : Setter} (ha : Setter.attr a ∈ attrs)
    (h : (attrs.contains c!"VarValue" || attrs.contains c!"Line") = false) : Aside a := by
  rw [Bool.or_eq_false_iff, ← Bool.not_eq_true, ← Bool.not_eq_true, List.contains_iff_mem, List.contains_iff_mem] at h
  exact ⟨fun e => h.1 (e ▸ ha), fun e => h.2 (e ▸ ha)⟩

theorem assign_line {a : Setter} (h : Aside a) (u : Nat) (x : Item) : (assignTo u a x).line = x.line := by
  unfold assignTo
  split
  · unfold Item.assign
    cases a with
    | line n => exact absurd rfl h.2
    | varValue t => exact absurd rfl h.1
    | funcBody t => simp only; split <;> rfl
    | _ => rfl
  · rfl

theorem assign_varPart {a : Setter} (h : Aside a) (u : Nat) (x : Item) : varPart (assignTo u a x) = varPart x := by
  obtain ⟨uid, line, raw, origin, ifl, inc, ib, rr, dl, p⟩ := x
  unfold assignTo
  split
  · cases a with
    | varValue t => exact absurd rfl h.1
    | funcBody t => cases p <;> rfl
    | _ => rfl
  · rfl

/-- comparing after a function that the comparison does not see -/
theorem sortBy_map {α β : Type} {le : α → α → Bool} {le' : β → β → Bool} {g : α → β} (h : ∀ x y, le' (g x) (g y) = le x y) (l : List α) :
    sortBy le' (l.map g) = (sortBy le l).map g := by
  have hi : ∀ x l, insertBy le' (g x) (l.map g) = (insertBy le x l).map g := by
    intro x l
    induction l with
    | nil => rfl
    | cons y l ih =>
      rw [List.map_cons, insertBy, insertBy, h]
      split
      · rfl
      · rw [ih]; rfl
  induction l with
  | nil => rfl
  | cons x l ih => rw [List.map_cons, sortBy, sortBy, ih, hi]

section
variable {W : World} (hW : OrderByIdentity W) {attrs : List Str} {a : Setter} (ha : Setter.attr a ∈ attrs) (hs : Aside a) (u : Nat) {s : Stash}
  (hd : (s.items.map (·.uid)).Nodup)
include hW ha hs hd

theorem itemsFor_assign (f : Filter) (hf : compares attrs f.attname.norm f.attvalue.norm = false) :
    getItemsFor W (s.assign u a) f = (getItemsFor W s f).map (assignTo u a) := by
  unfold getItemsFor reduceL
  rw [show (s.assign u a).items = s.items.map (assignTo u a) from rfl, applyFilter_assign ha u s f hf]
  have h0 : ((applyFilter s s.items f).map (·.uid)).Nodup := by
    rw [applyFilter_eq]
    exact hd.sublist (List.filter_sublist.map _)
  have h1 : (((applyFilter s s.items f).map (assignTo u a)).map (·.uid)).Nodup := by
    rw [uids_assign]
    exact h0
  rw [dedup_of_nodup (nodup_of_uids h0), dedup_of_nodup (nodup_of_uids h1), hW _ _ (fun x _ => assignTo_uid u a x)]
  refine sortBy_map (fun x y => ?_) _
  unfold lineLe
  rw [assign_line hs, assign_line hs]

theorem varsOf_assign (l : List Item) : varsOf (l.map (assignTo u a)) = varsOf l := by
  have e : ∀ l, varsOf l = l.filterMap (fun x => (varPart x).map (·.1)) := by
    intro l
    unfold varsOf
    congr 1
    funext x
    obtain ⟨uid, line, raw, origin, ifl, inc, ib, rr, dl, p⟩ := x
    cases p <;> rfl
  rw [e, e, List.filterMap_map]
  congr 1
  funext x
  exact congrArg _ (assign_varPart hs u x)

theorem sourceOf_assign (baseset : J) (file name quote : Str) :
    sourceOf W (s.assign u a) baseset file name quote = sourceOf W s baseset file name quote := by
  unfold sourceOf assignments
  rw [itemsFor_assign hW ha hs u hd _ (nocmp_var attrs file name)]
  have e : ∀ l : List Item, (l.filterMap asAssignment).map (fun p => assignmentText p.1 p.2) = l.filterMap (fun x => (varPart x).bind textOf) := by
    intro l
    rw [List.map_filterMap]
    congr 1
    funext x
    obtain ⟨uid, line, raw, origin, ifl, inc, ib, rr, dl, p⟩ := x
    cases p with
    | «variable» v =>
      unfold asAssignment varPart textOf
      simp only [Option.bind_some]
      split <;> rfl
    | _ => rfl
  have key : (((getItemsFor W s (varFilter file name)).map (assignTo u a)).filterMap asAssignment).map (fun p => assignmentText p.1 p.2) =
      ((getItemsFor W s (varFilter file name)).filterMap asAssignment).map (fun p => assignmentText p.1 p.2) := by
    rw [e, e, List.filterMap_map]
    congr 1
    funext x
    exact congrArg (Option.bind · textOf) (assign_varPart hs u x)
  revert key
  generalize List.filterMap asAssignment (List.map _ _) = A
  generalize List.filterMap asAssignment _ = B
  intro key
  cases A with
  | nil =>
    cases B with
    | nil => rfl
    | cons y B => cases key
  | cons x A =>
    cases B with
    | nil => cases key
    | cons y B =>
      rw [List.map_cons, List.map_cons] at key
      have := (List.cons.inj key).1
      simp only at this ⊢
      rw [this]

theorem expandTermF_assign (n : Nat) (file : Str) (spare : List Str) (value : Str) (seen : Seen) :
    expandTermF W (s.assign u a) n file spare value seen = expandTermF W s n file spare value seen := by
  have many : ∀ (baseset : J) (rec : Str → Seen → Except PyErr (Str × Seen)) (spare : List Str) (quote : Str) (ms : List Mt) (res : Str) (seen : Seen),
      expandMany W (s.assign u a) baseset rec file spare quote ms res seen = expandMany W s baseset rec file spare quote ms res seen := by
    intro baseset rec spare quote ms
    induction ms with
    | nil => intro _ _; rfl
    | cons m ms ih =>
      intro res seen
      have e1 : expandOne W (s.assign u a) baseset rec file spare quote m res seen = expandOne W s baseset rec file spare quote m res seen := by
        unfold expandOne
        simp only [sourceOf_assign hW ha hs u hd]
      unfold expandMany
      rw [e1]
      cases expandOne W s baseset rec file spare quote m res seen with
      | error e => rfl
      | ok r => exact ih r.1 r.2
  induction n generalizing spare value seen with
  | zero => rfl
  | succ n ih =>
    have e : ∀ sp, (fun v sn => expandTermF W (s.assign u a) n file sp v sn) = (fun v sn => expandTermF W s n file sp v sn) := by
      intro sp; funext v sn; exact ih sp v sn
    unfold expandTermF
    rw [show (s.assign u a).consts = s.consts from rfl]
    cases setsBase s.consts with
    | error e => rfl
    | ok baseset =>
      simp only [e]
      simp only [many]

theorem expandTermS_assign (file : Str) (spare : List Str) (value : Str) :
    expandTermS W (s.assign u a) file spare value = expandTermS W s file spare value := by
  unfold expandTermS
  rw [expandTermF_assign hW ha hs u hd]
  have h1 : (s.items.map (assignTo u a)).filterMap (fun x => match x.payload with | .variable v => some v.varName | _ => none) =
      s.items.filterMap (fun x => match x.payload with | .variable v => some v.varName | _ => none) := by
    have e : (fun x : Item => match x.payload with | .variable v => some v.varName | _ => none) = fun x => (varPart x).map (·.1.varName) := by
      funext x
      obtain ⟨uid, line, raw, origin, ifl, inc, ib, rr, dl, p⟩ := x
      cases p <;> rfl
    rw [e, List.filterMap_map]
    congr 1
    funext x
    exact congrArg _ (assign_varPart hs u x)
  have h2 : (s.items.map (assignTo u a)).filterMap (fun x => match x.payload with | .variable v => some (assignmentText x v) | _ => none) =
      s.items.filterMap (fun x => match x.payload with | .variable v => some (assignmentText x v) | _ => none) := by
    have e : (fun x : Item => match x.payload with | .variable v => some (assignmentText x v) | _ => none) =
        fun x => (varPart x).map (fun p => if hasSub inlineBlock (varValueStripped p.1) then reverseInline p.2 p.1 else varValueStripped p.1) := by
      funext x
      obtain ⟨uid, line, raw, origin, ifl, inc, ib, rr, dl, p⟩ := x
      cases p <;> rfl
    rw [e, List.filterMap_map]
    congr 1
    funext x
    exact congrArg _ (assign_varPart hs u x)
  have h3 : knownNames (s.assign u a) = knownNames s := congrArg (fun l => [] :: l ++ _) h1
  have h4 : knownTexts (s.assign u a) = knownTexts s := congrArg (fun l => l ++ _) h2
  have : expandBound (s.assign u a) value = expandBound s value := by
    unfold expandBound
    rw [h3, h4]
  rw [this]

theorem packageLoop_assign (file pn : Str) (b : Bool) (vs : List VarData) (res : List Str) :
    packageLoop W (s.assign u a) file pn b vs res = packageLoop W s file pn b vs res := by
  induction vs generalizing res with
  | nil => rfl
  | cons v vs ih =>
    unfold packageLoop packageWords
    rw [expandTermS_assign hW ha hs u hd]
    cases expandTermS W s file [c!"PN"] (varValueStripped v) with
    | error e => rfl
    | ok t => exact ih _

theorem packageNames_assign (file : Str) (b : Bool) :
    getValidPackageNames W (s.assign u a) file b = getValidPackageNames W s file b := by
  unfold getValidPackageNames
  simp only [itemsFor_assign hW ha hs u hd _ (nocmp_var attrs file _), packageLoop_assign hW ha hs u hd, ← List.map_append,
    varsOf_assign hW ha hs u hd]

theorem namedResources_assign (file : Str) : getValidNamedResources W (s.assign u a) file = getValidNamedResources W s file := by
  unfold getValidNamedResources
  have : ∀ pn ws res, namedLoop W (s.assign u a) pn ws res = namedLoop W s pn ws res := by
    intro pn ws
    induction ws with
    | nil => intro _; rfl
    | cons w ws ih =>
      intro res
      unfold namedLoop
      rw [show getScrComponents W (s.assign u a) w = getScrComponents W s w from rfl]
      cases getScrComponents W s w with
      | error e => rfl
      | ok url =>
        simp only
        cases dget c!"name" url.options with
        | none => exact ih _
        | some n => exact ih _
  simp only [itemsFor_assign hW ha hs u hd _ (nocmp_var attrs file _), this, varsOf_assign hW ha hs u hd]

end

/-- a remembered result that does not depend on assigned attributes stays correct -/
theorem freshVal_assign {W : World} (hW : OrderByIdentity W) {attrs : List Str} {a : Setter} (ha : Setter.attr a ∈ attrs) (u : Nat) {s : Stash}
    (hd : (s.items.map (·.uid)).Nodup) {k : CKey} {v : CVal} (hk : k.kept = true) (hs : k.stale attrs = false)
    (h : freshVal W s k = .ok v) : freshVal W (s.assign u a) (k.assign u a) = .ok (v.assign u a) := by
  have hid : ∀ x : Item, (assignTo u a x).ident.origin = x.origin := fun x => assignTo_origin u a x
  have hl : ∀ (x : Item) f n, isLinkedTo (s.assign u a) (assignTo u a x).ident f n = isLinkedTo s x f n := by
    intro x f n
    unfold isLinkedTo
    rw [hid]
    rfl
  cases k with
  | linked x f n =>
    cases h
    show Except.ok (CVal.bool (isLinkedTo _ _ _ _)) = _
    rw [hl]
    rfl
  | byFile l f n =>
    cases h
    show Except.ok (CVal.items (List.filter _ _)) = Except.ok (CVal.items _)
    rw [List.filter_map]
    simp only [Function.comp_def, hl]
  | byClassifier l cs =>
    cases h
    show Except.ok (CVal.items _) = Except.ok (CVal.items _)
    unfold getItemsByClassifier
    have : ∀ x : Item, (assignTo u a x).ident.payload.classifier = x.payload.classifier := fun x => assignTo_classifier u a x
    split
    · rfl
    · rw [List.filter_map]
      simp only [Function.comp_def, this]
  | byAttribute l ns vs =>
    cases h
    show Except.ok (CVal.items _) = Except.ok (CVal.items _)
    unfold getItemsByAttribute
    split
    · rfl
    · rw [List.filter_map]
      simp only [Function.comp_def, attrFilter_ident, attrFilter_assignTo ha hs]
  | recipes => cases h; rfl
  | loneAppends =>
    cases h
    show Except.ok (CVal.strs (getLoneAppends _)) = _
    unfold getLoneAppends
    rw [show (s.assign u a).items = s.items.map (assignTo u a) from rfl, origins_assign]
    rfl
  | confFiles =>
    cases h
    show Except.ok (CVal.strs (getConfFiles _ _)) = _
    unfold getConfFiles
    rw [show (s.assign u a).items = s.items.map (assignTo u a) from rfl, origins_assign]
    rfl
  | bbClasses => cases hk
  | links f =>
    cases h
    show Except.ok (CVal.strs (getLinksForFile _ _ _)) = _
    rw [getLinks_assign u a W hW hd]
    rfl
  | files f p =>
    cases h
    show Except.ok (CVal.strs (getFiles _ _ _ _)) = _
    rw [getFiles_assign ha u W]
    rfl
  | scr t =>
    have e : freshVal W (s.assign u a) (.scr t) = freshVal W s (.scr t) := rfl
    show freshVal W (s.assign u a) (.scr t) = _
    rw [e, h]
    have h' : (getScrComponents W s t).map CVal.comps = .ok v := h
    cases hg : getScrComponents W s t with
    | error e => rw [hg] at h'; cases h'
    | ok w => rw [hg] at h'; cases h'; rfl
  | packageNames f b =>
    have hs := aside_of ha hs
    have h' : (getValidPackageNames W s f b).map CVal.strs = .ok v := h
    show (getValidPackageNames W (s.assign u a) f b).map CVal.strs = _
    rw [packageNames_assign hW ha hs u hd, h']
    cases hg : getValidPackageNames W s f b with
    | error e => rw [hg] at h'; cases h'
    | ok w => rw [hg] at h'; cases h'; rfl
  | namedResources f =>
    have hs := aside_of ha hs
    have h' : (getValidNamedResources W s f).map CVal.strs = .ok v := h
    show (getValidNamedResources W (s.assign u a) f).map CVal.strs = _
    rw [namedResources_assign hW ha hs u hd, h']
    cases hg : getValidNamedResources W s f with
    | error e => rw [hg] at h'; cases h'
    | ok w => rw [hg] at h'; cases h'; rfl
  | isImage f =>
    have h' : (isImage W s f).map CVal.bool = .ok v := h
    show (isImage W (s.assign u a) f).map CVal.bool = _
    rw [isImage_assign ha u W, h']
    cases hg : isImage W s f with
    | error e => rw [hg] at h'; cases h'
    | ok w => rw [hg] at h'; cases h'; rfl
  | isPackageGroup f =>
    cases h
    show Except.ok (CVal.bool (isPackageGroup _ _ _)) = _
    rw [isPackageGroup_assign ha u W]
    rfl
  | packagesDynamic f => cases hk
  | isDynamicPackage f n => cases hk
  | layerRoot n =>
    have h' : (getLayerRoot W n).map CVal.str = .ok v := h
    show (getLayerRoot W n).map CVal.str = _
    rw [h']
    cases hg : getLayerRoot W n with
    | error e => rw [hg] at h'; cases h'
    | ok w => rw [hg] at h'; cases h'; rfl
  | found n d =>
    have h' : (findLocalOrLayer W n d).map CVal.str = .ok v := h
    show (findLocalOrLayer W n d).map CVal.str = _
    rw [h']
    cases hg : findLocalOrLayer W n d with
    | error e => rw [hg] at h'; cases h'
    | ok w => rw [hg] at h'; cases h'; rfl

theorem stale_assign (attrs : List Str) (u : Nat) (a : Setter) (k : CKey) : (k.assign u a).stale attrs = k.stale attrs := by cases k <;> rfl
theorem kept_assign (u : Nat) (a : Setter) (k : CKey) : (k.assign u a).kept = k.kept := by cases k <;> rfl

theorem valid_assign {W : World} (hW : OrderByIdentity W) {attrs : List Str} {a : Setter} (ha : Setter.attr a ∈ attrs) (u : Nat) {c : CStash}
    (hd : (c.base.items.map (·.uid)).Nodup) (hc : Valid W (c.drop attrs)) : Valid W ((c.assign u a).drop attrs) := by
  intro e he hk
  obtain ⟨he, hs⟩ := List.mem_filter.1 he
  obtain ⟨⟨k, v⟩, hkv, rfl⟩ := List.mem_map.1 he
  simp only [stale_assign, Bool.not_eq_true'] at hs
  rw [kept_assign] at hk
  exact freshVal_assign hW ha u hd hk hs (hc (k, v) (List.mem_filter.2 ⟨hkv, by simpa using hs⟩) hk)

theorem drop_valid {W : World} {c : CStash} (attrs : List Str) (h : Valid W c) : Valid W (c.drop attrs) :=
  fun e he hk => h e (List.mem_filter.1 he).1 hk

/-- after calls, questions and assignments all results that do not depend on assigned attributes are correct -/
theorem valid_livedAssign {W : World} (hW : OrderByIdentity W) {attrs : List Str} {c0 c : CStash} (h : LivedAssign W attrs c0 c)
    (h0 : Valid W c0) : Valid W (c.drop attrs) := by
  induction h with
  | nil => exact drop_valid attrs h0
  | call h hk ih =>
    rename_i c c' depth k r
    have hb := blind_call W (attrs := attrs) depth k c
    rw [hk] at hb
    exact valid_call ih hb
  | failed h hk he ih =>
    rename_i c c' depth p o f e
    have hb := blind_call W (attrs := attrs) depth (.addFile p o f) c
    rw [hk] at hb
    exact valid_failed ih hb he
  | ask h q ih => exact (keepsOff_question q _ ih).2
  | assign h u a ha hd hx ih => exact valid_assign hW ha u hd ih

end Oelint

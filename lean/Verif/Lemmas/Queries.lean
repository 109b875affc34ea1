import Verif.Spec.Queries
import Verif.Lemmas.Str
set_option linter.unusedSectionVars false
set_option linter.unusedSimpArgs false
namespace Oelint
open Spec

theorem strLe_iff (a b : Str) : strLe a b = true ↔ a ≤ b := by
  induction a generalizing b with
  | nil => simp [strLe]
  | cons x s ih =>
    cases b with
    | nil => simp [strLe]
    | cons y t =>
      rw [List.cons_le_cons_iff]
      unfold strLe
      have hlt : ∀ u v : Char, u.toNat < v.toNat ↔ u < v := fun u v => Iff.rfl
      by_cases h1 : x.toNat < y.toNat
      · simp [h1, (hlt _ _).1 h1]
      · by_cases h2 : y.toNat < x.toNat
        · have hne : x ≠ y := by rintro rfl; exact absurd h2 (Nat.lt_irrefl _)
          simp [h1, h2, hne, ← hlt]
        · have he : x = y := by
            apply Char.ext
            apply UInt32.toNat_inj.1
            have : x.toNat = y.toNat := by omega
            exact this
          subst he
          simp [ih]

theorem ordered_sortBy (l : List Str) : Ordered (sortBy strLe l) :=
  (sortBy_sorted strLe_total strLe_trans l).imp (fun h => (strLe_iff _ _).1 h)

theorem mem_sortBy {α} {le : α → α → Bool} {l : List α} {x : α} : x ∈ sortBy le l ↔ x ∈ l := (sortBy_perm le l).mem_iff

variable [Uni]

theorem norm_given (a : Arg) : a.norm = given a := by
  cases a with
  | none => rfl
  | one s => cases s <;> simp [Arg.norm, given]
  | many l => rfl

theorem isLinkedTo_iff (s : Stash) (x : Item) (file : Str) (nolink : Bool) :
    isLinkedTo s x file nolink = true ↔ LinkedTo s file nolink x := by
  unfold isLinkedTo LinkedTo
  simp only [Bool.or_eq_true, Bool.and_eq_true, beq_iff_eq]
  constructor
  · rintro (⟨h1, h2⟩ | h)
    · right
      refine ⟨by simpa using h2, ?_⟩
      cases hg : dget file s.map with
      | none => simp [hg] at h1
      | some fs => exact ⟨fs, rfl, by simpa [hg] using h1⟩
    · exact Or.inl h.symm
  · rintro (h | ⟨h1, fs, h2, h3⟩)
    · exact Or.inr h.symm
    · left; simp [h1, h2, h3]

theorem attrFilter_iff (x : Item) (n v : List Str) :
    attrFilter x n v = true ↔ ∃ name ∈ n, ∃ a, dget name x.getAttributes = some a ∧ (v = [] ∨ ∃ w ∈ v, a = .str w) := by
  unfold attrFilter
  rw [List.any_eq_true]
  constructor
  · rintro ⟨name, hn, h⟩
    refine ⟨name, hn, ?_⟩
    cases hg : dget name x.getAttributes with
    | none => simp [hg] at h
    | some a =>
      refine ⟨a, rfl, ?_⟩
      simp only [hg, Bool.or_eq_true, List.isEmpty_iff, List.any_eq_true, beq_iff_eq] at h
      rcases h with h | ⟨w, hw, h⟩
      · exact Or.inl h
      · exact Or.inr ⟨w, hw, h.symm⟩
  · rintro ⟨name, hn, a, ha, h⟩
    refine ⟨name, hn, ?_⟩
    simp only [ha, Bool.or_eq_true, List.isEmpty_iff, List.any_eq_true, beq_iff_eq]
    rcases h with h | ⟨w, hw, h⟩
    · exact Or.inl h
    · exact Or.inr ⟨w, hw, h.symm⟩

/-- is an item kept by the filters -/
def keeps (s : Stash) (f : Filter) (x : Item) : Bool :=
  (match f.filename with | some fn => fn.isEmpty || isLinkedTo s x fn f.nolink | none => true) &&
  ((given f.classifier).isEmpty || (given f.classifier).contains x.payload.classifier) &&
  ((given f.attname).isEmpty || attrFilter x (given f.attname) (given f.attvalue))

theorem keeps_iff (s : Stash) (f : Filter) (x : Item) : keeps s f x = true ↔ Selected s f x := by
  unfold keeps
  simp only [Bool.and_eq_true, Bool.or_eq_true, List.isEmpty_iff, attrFilter_iff, List.contains_iff_mem]
  constructor
  · rintro ⟨⟨h1, h2⟩, h3⟩
    refine ⟨?_, fun h => h2.resolve_left h, fun h => h3.resolve_left h⟩
    intro fn hf hne
    rw [hf] at h1
    simp only [Bool.or_eq_true, List.isEmpty_iff] at h1
    exact (isLinkedTo_iff _ _ _ _).1 (h1.resolve_left hne)
  · rintro ⟨h1, h2, h3⟩
    refine ⟨⟨?_, ?_⟩, ?_⟩
    · cases hf : f.filename with
      | none => rfl
      | some fn =>
        simp only [Bool.or_eq_true, List.isEmpty_iff]
        by_cases hne : fn = []
        · exact Or.inl hne
        · exact Or.inr ((isLinkedTo_iff _ _ _ _).2 (h1 fn hf hne))
    · by_cases h : given f.classifier = []
      · exact Or.inl h
      · exact Or.inr (h2 h)
    · by_cases h : given f.attname = []
      · exact Or.inl h
      · exact Or.inr (h3 h)

theorem applyFilter_eq (s : Stash) (l : List Item) (f : Filter) : applyFilter s l f = l.filter (keeps s f) := by
  have h1 : ∀ l : List Item, (match f.filename with
      | some fn => if fn.isEmpty then l else getItemsByFile s l fn f.nolink
      | none => l) = l.filter (fun x => match f.filename with
        | some fn => fn.isEmpty || isLinkedTo s x fn f.nolink
        | none => true) := by
    intro l
    cases f.filename with
    | none => exact (List.filter_eq_self.2 (fun _ _ => rfl)).symm
    | some fn =>
      by_cases h : fn.isEmpty
      · simp only [h, if_true, Bool.true_or]; exact (List.filter_eq_self.2 (fun _ _ => rfl)).symm
      · simp [h, getItemsByFile]
  have h2 : ∀ l : List Item, (if f.classifier.norm.isEmpty then l else getItemsByClassifier l f.classifier.norm) =
      l.filter (fun x => (given f.classifier).isEmpty || (given f.classifier).contains x.payload.classifier) := by
    intro l
    rw [norm_given]
    by_cases h : (given f.classifier).isEmpty
    · simp only [h, if_true, Bool.true_or]; exact (List.filter_eq_self.2 (fun _ _ => rfl)).symm
    · simp [h, getItemsByClassifier]
  have h3 : ∀ l : List Item, (if f.attname.norm.isEmpty then l else getItemsByAttribute l f.attname.norm f.attvalue.norm) =
      l.filter (fun x => (given f.attname).isEmpty || attrFilter x (given f.attname) (given f.attvalue)) := by
    intro l
    rw [norm_given, norm_given]
    by_cases h : (given f.attname).isEmpty
    · simp only [h, if_true, Bool.true_or]; exact (List.filter_eq_self.2 (fun _ _ => rfl)).symm
    · simp [h, getItemsByAttribute]
  unfold applyFilter
  simp only []
  rw [h3, h2]
  refine Eq.trans (congrArg (fun z => List.filter _ (List.filter _ z)) (h1 l)) ?_
  rw [List.filter_filter, List.filter_filter]
  apply List.filter_congr
  intro x _
  unfold keeps
  cases (given f.attname).isEmpty || attrFilter x (given f.attname) (given f.attvalue) <;> simp [Bool.and_comm]

theorem mem_reduceL (W : World) (s : Stash) (l : List Item) (f : Filter) (x : Item) :
    x ∈ reduceL W s l f ↔ x ∈ l ∧ Selected s f x := by
  unfold reduceL
  rw [mem_sortBy, (W.itemOrder_perm _).mem_iff, mem_dedup, applyFilter_eq, List.mem_filter, keeps_iff]

theorem mem_getItemsFor (W : World) (s : Stash) (f : Filter) (x : Item) :
    x ∈ getItemsFor W s f ↔ x ∈ s.items ∧ Selected s f x := mem_reduceL W s s.items f x

theorem reduceL_nodup (W : World) (s : Stash) (l : List Item) (f : Filter) : (reduceL W s l f).Nodup :=
  (sortBy_perm _ _).nodup_iff.2 ((W.itemOrder_perm _).nodup_iff.2 (nodup_dedup _))

theorem reduceL_sorted (W : World) (s : Stash) (l : List Item) (f : Filter) :
    (reduceL W s l f).Pairwise (fun a b => a.line ≤ b.line) := by
  have h := sortBy_sorted (le := lineLe) (fun a b => by unfold lineLe; simp; omega)
    (fun a b c h1 h2 => by unfold lineLe at *; simp at *; omega) (W.itemOrder (dedup (applyFilter s l f)))
  exact h.imp (fun h => by simpa [lineLe] using h)

theorem sorted_perm_map_eq {l l' : List Item} (hp : l.Perm l') (h : l.Pairwise (fun a b => a.line ≤ b.line))
    (h' : l'.Pairwise (fun a b => a.line ≤ b.line)) : l.map (·.line) = l'.map (·.line) := by
  apply List.Perm.eq_of_pairwise (le := fun a b : Int => a ≤ b)
  · intro a b _ _ h1 h2; exact Int.le_antisymm h1 h2
  · rw [List.pairwise_map]; exact h
  · rw [List.pairwise_map]; exact h'
  · exact hp.map _

theorem reduceL_perm_of_mem (W : World) (s : Stash) {l l' : List Item} {f g : Filter}
    (h : ∀ x, (x ∈ l ∧ Selected s f x) ↔ (x ∈ l' ∧ Selected s g x)) : (reduceL W s l f).Perm (reduceL W s l' g) := by
  rw [List.perm_ext_iff_of_nodup (reduceL_nodup ..) (reduceL_nodup ..)]
  intro x
  rw [mem_reduceL, mem_reduceL, h]

/-! ## Remove -/

theorem removeOne_eq (x : Item) (l : List Item) : removeOne x l = if x ∈ l then some (l.erase x) else none := by
  induction l with
  | nil => rfl
  | cons y ys ih =>
    unfold removeOne
    by_cases h : y = x
    · subst h; simp
    · rw [if_neg h, ih]
      by_cases hm : x ∈ ys
      · simp [hm, h]
      · simp [hm, h, Ne.symm h]

theorem removeItems_cons (x : Item) (xs : List Item) (s : Stash) :
    removeItems (x :: xs) s = if x ∈ s.items then removeItems xs { s with items := s.items.erase x }
      else (.error .valueError, s) := by
  have e : removeItems (x :: xs) s = match removeOne x s.items with
    | none => (.error .valueError, s)
    | some l => removeItems xs { s with items := l } := rfl
  rw [e, removeOne_eq]
  by_cases h : x ∈ s.items
  · rw [if_pos h, if_pos h]
  · rw [if_neg h, if_neg h]

theorem pairwise_of_ne {α} {R : α → α → Prop} (hs : ∀ a b, R a b → R b a) {l : List α} (h : l.Pairwise R) {a b : α}
    (ha : a ∈ l) (hb : b ∈ l) (hne : a ≠ b) : R a b := by
  induction l with
  | nil => cases ha
  | cons x xs ih =>
    rw [List.pairwise_cons] at h
    rcases List.mem_cons.1 ha with ha' | ha'
    · subst ha'
      rcases List.mem_cons.1 hb with hb' | hb'
      · exact absurd hb'.symm hne
      · exact h.1 b hb'
    · rcases List.mem_cons.1 hb with hb' | hb'
      · subst hb'; exact hs _ _ (h.1 a ha')
      · exact ih h.2 ha' hb'

end Oelint

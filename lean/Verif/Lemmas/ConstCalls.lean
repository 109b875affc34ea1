import Verif.Lemmas.ConstHeap
import Verif.Spec.ConstCalls
import Verif.Props.Constants
/-! Lemmas for C108. -/
namespace Oelint
open Spec

/-! ## values -/

theorem compatible_overridable {db d : J} (h : Compatible db d) : Overridable db d := by
  intro ks x y hx hy hd
  rcases h ks x y hx hy with h | ⟨_, _, _, rfl⟩
  · exact h.1
  · obtain ⟨_, h⟩ := hd; cases h

theorem mergeDb_compatible {op : MergeOp} {db : J} {d : KV} (hd : WF (.dict d)) (hc : Compatible db (.dict d)) :
    (mergeDb op db d).2 = none ∧ ∀ d', Compatible db d' → Compatible (.dict d) d' → Compatible (mergeDb op db d).1 d' := by
  cases op with
  | add =>
    obtain ⟨h1, h2⟩ := C27_add_constants db d hd hc
    refine ⟨h1, fun d' k1 k2 ks z y' hz hy' => ?_⟩
    have h := h2 ks
    have hz' : valueAt ks (addConstants db d).1 = some z := hz
    rw [hz'] at h
    cases hx : valueAt ks db with
    | none =>
      cases hy : valueAt ks (.dict d) with
      | none => rw [hx, hy] at h; cases h
      | some y => rw [hx, hy] at h; cases h; exact k2 ks _ y' hy hy'
    | some x =>
      cases hy : valueAt ks (.dict d) with
      | none => rw [hx, hy] at h; cases h; exact k1 ks z y' hx hy'
      | some y =>
        rw [hx, hy] at h
        rcases hc ks x y hx hy with ⟨⟨a, rfl⟩, b, rfl⟩ | ⟨xs, ys, rfl, rfl⟩
        · obtain ⟨r, hr⟩ := h; cases hr
          rcases k1 ks _ y' hx hy' with ⟨_, h⟩ | ⟨_, _, h, _⟩
          · exact Or.inl ⟨⟨_, rfl⟩, h⟩
          · cases h
        · cases h
          rcases k1 ks _ y' hx hy' with ⟨⟨_, h⟩, _⟩ | ⟨_, ys', _, h⟩
          · cases h
          · exact Or.inr ⟨_, ys', rfl, h⟩
  | remove =>
    obtain ⟨h1, h2⟩ := C28_remove_constants db d hd hc
    refine ⟨h1, fun d' k1 k2 ks z y' hz hy' => ?_⟩
    have h := h2 ks
    have hz' : valueAt ks (removeConstants db d).1 = some z := hz
    rw [hz'] at h
    cases hx : valueAt ks db with
    | none =>
      cases hy : valueAt ks (.dict d) with
      | none => rw [hx, hy] at h; cases h
      | some y => rw [hx, hy] at h; cases h
    | some x =>
      cases hy : valueAt ks (.dict d) with
      | none => rw [hx, hy] at h; cases h; exact k1 ks z y' hx hy'
      | some y =>
        rw [hx, hy] at h
        rcases hc ks x y hx hy with ⟨⟨a, rfl⟩, b, rfl⟩ | ⟨xs, ys, rfl, rfl⟩
        · obtain ⟨r, hr⟩ := h; cases hr
          rcases k1 ks _ y' hx hy' with ⟨_, h⟩ | ⟨_, _, h, _⟩
          · exact Or.inl ⟨⟨_, rfl⟩, h⟩
          · cases h
        · obtain ⟨r, hr, _⟩ := h; cases hr
          rcases k1 ks _ y' hx hy' with ⟨⟨_, h⟩, _⟩ | ⟨_, ys', _, h⟩
          · cases h
          · exact Or.inr ⟨_, ys', rfl, h⟩
  | override =>
    obtain ⟨h1, h2, _⟩ := C29_override_constants db d hd (compatible_overridable hc)
    refine ⟨h1, fun d' k1 k2 ks z y' hz hy' => ?_⟩
    have h := h2 ks
    have hz' : valueAt ks (overrideConstants db d).1 = some z := hz
    rw [hz'] at h
    cases hy : valueAt ks (.dict d) with
    | none =>
      rw [hy] at h
      have h : (RunsThroughLeaf ks (.dict d) → some z = none) ∧ (¬ RunsThroughLeaf ks (.dict d) → some z = valueAt ks db) := by
        cases hx : valueAt ks db with
        | none => rw [hx] at h; exact h
        | some x => rw [hx] at h; exact h
      exact k1 ks z y' (h.2 fun hr => by cases h.1 hr).symm hy'
    | some y =>
      rw [hy] at h
      cases y with
      | list ys =>
        have h : some z = some (J.list ys) := by cases hx : valueAt ks db <;> (rw [hx] at h; exact h)
        cases h; exact k2 ks _ y' hy hy'
      | str s =>
        have h : some z = some (J.str s) := by cases hx : valueAt ks db <;> (rw [hx] at h; exact h)
        cases h; exact k2 ks _ y' hy hy'
      | dict b =>
        rcases k2 ks _ y' hy hy' with ⟨_, hd'⟩ | ⟨_, _, h', _⟩
        · cases hx : valueAt ks db with
          | none => rw [hx] at h; cases h; exact Or.inl ⟨⟨_, rfl⟩, hd'⟩
          | some x => rw [hx] at h; obtain ⟨r, hr⟩ := h; cases hr; exact Or.inl ⟨⟨_, rfl⟩, hd'⟩
        · cases h'

theorem not_listHas_none {ks : List Str} {x : Str} {j : J} (h : valueAt ks j = none) : ¬ ListHas ks x j := by
  rintro ⟨xs, h1, _⟩; rw [h] at h1; cases h1

theorem not_listHas_dict {ks : List Str} {x : Str} {j : J} {d : KV} (h : valueAt ks j = some (.dict d)) : ¬ ListHas ks x j := by
  rintro ⟨xs, h1, _⟩; rw [h] at h1; cases h1

theorem listHas_list {ks : List Str} {x : Str} {j : J} {xs : List Str} (h : valueAt ks j = some (.list xs)) : ListHas ks x j ↔ x ∈ xs := by
  constructor
  · rintro ⟨ys, h1, h2⟩; rw [h] at h1; cases h1; exact h2
  · exact fun hx => ⟨xs, h, hx⟩

theorem listHas_congr {ks : List Str} {x : Str} {j j' : J} (h : valueAt ks j = valueAt ks j') : ListHas ks x j ↔ ListHas ks x j' := by
  unfold ListHas; rw [h]

theorem valueAt_prefix {k : Str} {post : List Str} {z : J} : {pre : List Str} → {db : J} → valueAt (pre ++ k :: post) db = some z →
    ∃ w, valueAt pre db = some w ∧ IsDict w
  | [], .dict kv, _ => ⟨_, rfl, _, rfl⟩
  | [], .list _, h => by cases h
  | [], .str _, h => by cases h
  | a :: t, .dict kv, h => by
    simp only [List.cons_append, valueAt] at h ⊢
    cases hg : kv.get a with
    | none => rw [hg] at h; cases h
    | some v =>
      rw [hg] at h
      exact valueAt_prefix (pre := t) (db := v) h
  | a :: t, .list _, h => by cases h
  | a :: t, .str _, h => by cases h

/-- one call -/
theorem mergeDb_has {op : MergeOp} {db : J} {d : KV} (hd : WF (.dict d)) (hc : Compatible db (.dict d)) (ks : List Str) (x : Str) :
    ListHas ks x (mergeDb op db d).1 ↔ Puts ks x (op, d) ∨ (ListHas ks x db ∧ ¬ Takes ks x (op, d)) := by
  cases op with
  | add =>
    have h := (C27_add_constants db d hd hc).2 ks
    have e : (mergeDb .add db d).1 = (addConstants db d).1 := rfl
    rw [e]
    have ht : ¬ Takes ks x (.add, d) := by rintro (⟨h, _⟩ | ⟨h, _⟩) <;> cases h
    have hp : Puts ks x (.add, d) ↔ ListHas ks x (.dict d) := ⟨fun h => h.2, fun h => ⟨by simp, h⟩⟩
    rw [hp]
    simp only [ht, not_false_eq_true, and_true]
    cases hy : valueAt ks (.dict d) with
    | none =>
      have h : valueAt ks (addConstants db d).1 = valueAt ks db := by cases hx : valueAt ks db <;> (rw [hx, hy] at h; exact h)
      rw [listHas_congr h]
      simp [not_listHas_none hy]
    | some y =>
      cases hx : valueAt ks db with
      | none =>
        rw [hx, hy] at h
        rw [listHas_congr (h.trans hy.symm)]
        simp [not_listHas_none hx]
      | some v =>
        rw [hx, hy] at h
        rcases hc ks v y hx hy with ⟨⟨a, rfl⟩, b, rfl⟩ | ⟨xs, ys, rfl, rfl⟩
        · obtain ⟨r, hr⟩ := h
          simp [not_listHas_dict hr, not_listHas_dict hx, not_listHas_dict hy]
        · rw [listHas_list h, listHas_list hx, listHas_list hy, List.mem_append, or_comm]
  | remove =>
    have h := (C28_remove_constants db d hd hc).2 ks
    have e : (mergeDb .remove db d).1 = (removeConstants db d).1 := rfl
    rw [e]
    have ht : Takes ks x (.remove, d) ↔ ListHas ks x (.dict d) := by
      constructor
      · rintro (⟨_, h⟩ | ⟨h, _⟩)
        · exact h
        · cases h
      · exact fun h => Or.inl ⟨rfl, h⟩
    have hp : ¬ Puts ks x (.remove, d) := fun h => h.1 rfl
    rw [ht]
    simp only [hp, false_or]
    cases hy : valueAt ks (.dict d) with
    | none =>
      have h : valueAt ks (removeConstants db d).1 = valueAt ks db := by cases hx : valueAt ks db <;> (rw [hx, hy] at h; exact h)
      rw [listHas_congr h]
      simp [not_listHas_none hy]
    | some y =>
      cases hx : valueAt ks db with
      | none =>
        rw [hx, hy] at h
        simp [not_listHas_none h, not_listHas_none hx]
      | some v =>
        rw [hx, hy] at h
        rcases hc ks v y hx hy with ⟨⟨a, rfl⟩, b, rfl⟩ | ⟨xs, ys, rfl, rfl⟩
        · obtain ⟨r, hr⟩ := h
          simp [not_listHas_dict hr, not_listHas_dict hx]
        · obtain ⟨r, hr, _, hr2⟩ := h
          rw [listHas_list hr, listHas_list hx, listHas_list hy, ← List.count_pos_iff, hr2 x]
          by_cases hm : x ∈ ys
          · simp [hm]
          · simp [hm, List.count_pos_iff]
  | override =>
    have h := (C29_override_constants db d hd (compatible_overridable hc)).2.1 ks
    have e : (mergeDb .override db d).1 = (overrideConstants db d).1 := rfl
    rw [e]
    have hp : Puts ks x (.override, d) ↔ ListHas ks x (.dict d) := ⟨fun h => h.2, fun h => ⟨by simp, h⟩⟩
    have ht : Takes ks x (.override, d) ↔ ListAt ks (.dict d) ∧ ¬ ListHas ks x (.dict d) := by
      constructor
      · rintro (⟨h, _⟩ | ⟨_, h⟩)
        · cases h
        · exact h
      · exact fun h => Or.inr ⟨rfl, h⟩
    rw [hp, ht]
    cases hy : valueAt ks (.dict d) with
    | none =>
      have hl : ¬ ListAt ks (.dict d) := by rintro ⟨_, h⟩; rw [hy] at h; cases h
      simp only [not_listHas_none hy, hl, false_or, not_false_eq_true, and_true]
      have h : (RunsThroughLeaf ks (.dict d) → valueAt ks (overrideConstants db d).1 = none) ∧
          (¬ RunsThroughLeaf ks (.dict d) → valueAt ks (overrideConstants db d).1 = valueAt ks db) := by
        cases hx : valueAt ks db <;> (rw [hx, hy] at h; exact h)
      by_cases hr : RunsThroughLeaf ks (.dict d)
      · simp only [not_listHas_none (h.1 hr), false_iff]
        rintro ⟨xs, h1, _⟩
        obtain ⟨pre, k, post, z, rfl, h2, h3⟩ := hr
        obtain ⟨w, hw, hw2⟩ : ∃ w, valueAt pre db = some w ∧ IsDict w := valueAt_prefix h1
        rcases hc pre w z hw h2 with ⟨_, h⟩ | ⟨_, _, rfl, _⟩
        · exact h3 h
        · obtain ⟨_, h⟩ := hw2; cases h
      · rw [listHas_congr (h.2 hr)]
    | some y =>
      cases y with
      | list ys =>
        have h : valueAt ks (overrideConstants db d).1 = some (.list ys) := by cases hx : valueAt ks db <;> (rw [hx, hy] at h; exact h)
        have hl : ListAt ks (.dict d) := ⟨ys, hy⟩
        rw [listHas_list h, listHas_list hy]
        simp only [hl, true_and]
        constructor
        · exact Or.inl
        · rintro (h | ⟨_, h⟩)
          · exact h
          · exact Classical.not_not.1 h
      | str s =>
        have h : valueAt ks (overrideConstants db d).1 = some (.str s) := by cases hx : valueAt ks db <;> (rw [hx, hy] at h; exact h)
        have hl : ¬ ListAt ks (.dict d) := by rintro ⟨_, h⟩; rw [hy] at h; cases h
        have h1 : ¬ ListHas ks x (.dict d) := by rintro ⟨_, h, _⟩; rw [hy] at h; cases h
        have h2 : ¬ ListHas ks x (overrideConstants db d).1 := by rintro ⟨_, h', _⟩; rw [h] at h'; cases h'
        have h3 : ¬ ListHas ks x db := by
          rintro ⟨xs, h', _⟩
          rcases hc ks _ _ h' hy with ⟨⟨_, h⟩, _⟩ | ⟨_, _, _, h⟩ <;> cases h
        simp [h1, h2, h3]
      | dict b =>
        have hl : ¬ ListAt ks (.dict d) := by rintro ⟨_, h⟩; rw [hy] at h; cases h
        have h3 : ¬ ListHas ks x db := by
          rintro ⟨xs, h', _⟩
          rcases hc ks _ _ h' hy with ⟨⟨_, h⟩, _⟩ | ⟨_, _, _, h⟩ <;> cases h
        have h2 : ¬ ListHas ks x (overrideConstants db d).1 := by
          cases hx : valueAt ks db with
          | none => rw [hx, hy] at h; exact not_listHas_dict h
          | some v => rw [hx, hy] at h; obtain ⟨r, hr⟩ := h; exact not_listHas_dict hr
        simp [not_listHas_dict hy, h2, h3]

theorem not_puts_takes {ks : List Str} {x : Str} {c : MergeOp × KV} (h : Puts ks x c) : ¬ Takes ks x c := by
  rintro (⟨h1, _⟩ | ⟨_, _, h1⟩)
  · exact h.1 h1
  · exact h1 h.2

theorem lastSays_cons {ks : List Str} {x : Str} {before : Prop} {c : MergeOp × KV} {rest : List (MergeOp × KV)} :
    LastSays ks x before (c :: rest) ↔ LastSays ks x (Puts ks x c ∨ (before ∧ ¬ Takes ks x c)) rest := by
  constructor
  · rintro (⟨pre, c', post, h1, h2, h3⟩ | ⟨h1, h2⟩)
    · cases pre with
      | nil =>
        simp only [List.nil_append, List.cons.injEq] at h1
        obtain ⟨rfl, rfl⟩ := h1
        exact Or.inr ⟨Or.inl h2, h3⟩
      | cons a t =>
        simp only [List.cons_append, List.cons.injEq] at h1
        exact Or.inl ⟨t, c', post, h1.2, h2, h3⟩
    · exact Or.inr ⟨Or.inr ⟨h1, h2 c (List.mem_cons_self ..)⟩, fun c' hc => h2 c' (List.mem_cons_of_mem _ hc)⟩
  · rintro (⟨pre, c', post, rfl, h2, h3⟩ | ⟨h1 | ⟨h1, h2⟩, h3⟩)
    · exact Or.inl ⟨c :: pre, c', post, rfl, h2, h3⟩
    · exact Or.inl ⟨[], c, rest, rfl, h1, h3⟩
    · refine Or.inr ⟨h1, fun c' hc => ?_⟩
      rcases List.mem_cons.1 hc with rfl | hc
      · exact h2
      · exact h3 c' hc

theorem lastSays_congr {ks : List Str} {x : Str} {p q : Prop} (h : p ↔ q) {calls : List (MergeOp × KV)} : LastSays ks x p calls ↔ LastSays ks x q calls := by
  unfold LastSays; rw [h]

theorem shapesAgree_tail {db : J} {op : MergeOp} {d : KV} {rest : List (MergeOp × KV)} (hd : WF (.dict d)) (h : ShapesAgree db ((op, d) :: rest)) :
    (mergeDb op db d).2 = none ∧ ShapesAgree (mergeDb op db d).1 rest := by
  have hc := h.withDb _ (List.mem_cons_self ..)
  have hp := List.pairwise_cons.1 h.pairs
  obtain ⟨h1, h2⟩ := mergeDb_compatible (op := op) hd hc
  exact ⟨h1, fun c hcm => h2 _ (h.withDb c (List.mem_cons_of_mem _ hcm)) (hp.1 c hcm), hp.2⟩

/-- any calls, on values -/
theorem afterCalls_has (ks : List Str) (x : Str) : (calls : List (MergeOp × KV)) → (db : J) → (∀ c ∈ calls, WFKV c.2) → ShapesAgree db calls →
    (ListHas ks x (afterCalls db calls) ↔ LastSays ks x (ListHas ks x db) calls)
  | [], db, _, _ => by simp [afterCalls, LastSays]
  | (op, d) :: rest, db, hw, hs => by
    have hd : WF (.dict d) := by simpa only [WF] using hw _ (List.mem_cons_self ..)
    rw [afterCalls, afterCalls_has ks x rest _ (fun c hc => hw c (List.mem_cons_of_mem _ hc)) (shapesAgree_tail hd hs).2, lastSays_cons,
      lastSays_congr (mergeDb_has hd (hs.withDb _ (List.mem_cons_self ..)) ks x)]

/-! ## objects -/

/-- the calls as `hCalls` and `afterCalls` take them -/
def ccRefs (calls : List ConstCall) : List (MergeOp × Ref) := calls.map fun c => (c.op, c.arg)
def ccVals (calls : List ConstCall) : List (MergeOp × KV) := calls.map fun c => (c.op, c.value)

theorem hCalls_own {fuel : Nat} {db : Ref} : (calls : List ConstCall) → (h : Heap) → (j : J) → (fdb : List Ref) →
    Stores h (.ref db) j fdb → fdb.Nodup → WF j → (∀ c ∈ calls, depthKV c.value < fuel ∧ WFKV c.value) → OwnObjects h fdb calls →
    ShapesAgree j (ccVals calls) →
    (∃ f', Stores (hCalls fuel db (ccRefs calls) h) (.ref db) (afterCalls j (ccVals calls)) f' ∧ f'.Nodup) ∧
    ∀ pre c post, calls = pre ++ c :: post → (hMerge c.op fuel (.ref db) c.arg (hCalls fuel db (ccRefs pre) h)).1 = none
  | [], h, j, fdb, hs, hn, _, _, _, _ => ⟨⟨fdb, hs, hn⟩, fun pre c post e => by cases pre <;> cases e⟩
  | c :: rest, h, j, fdb, hs, hn, hw, hc, ho, hag => by
    obtain ⟨c1, c2⟩ := hc _ (List.mem_cons_self ..)
    have c3 := ho.stores _ (List.mem_cons_self ..)
    have hwd : WF (.dict c.value) := by simpa only [WF] using c2
    have hap := List.pairwise_cons.1 ho.apart
    obtain ⟨h', e1, hM⟩ := hMerge_spec c.op (· ∈ c.objs) fuel h (.ref db) j fdb c.arg c.value c.objs c1 c3 (fun r hr => hr) c2 hs hn hw
      (fun r hr hr2 => ho.notDb c (List.mem_cons_self ..) r hr2 hr)
    obtain ⟨f, g1, _, _, g3⟩ := hM.stores
    obtain ⟨g4, g5⟩ := g3 (ho.once c (List.mem_cons_self ..))
    obtain ⟨n1, n2⟩ := shapesAgree_tail (op := c.op) (d := c.value) (rest := ccVals rest) hwd hag
    have hkeep : ∀ c' ∈ rest, ∀ r ∈ c'.objs, h'[r]? = h[r]? := fun c' hc' r hr =>
      hM.frame r (Stores.bound _ _ _ (ho.stores c' (List.mem_cons_of_mem _ hc')) r hr) (ho.notDb c' (List.mem_cons_of_mem _ hc') r hr)
    obtain ⟨i1, i2⟩ := hCalls_own (fuel := fuel) (db := db) rest h' (mergeDb c.op j c.value).1 f g1 g4 (mergeJ_wf c.op j (.dict c.value) hwd hw)
      (fun c' hc' => hc c' (List.mem_cons_of_mem _ hc'))
      ⟨fun c' hc' => Stores.frame _ _ _ (ho.stores c' (List.mem_cons_of_mem _ hc')) (fun r hr => hkeep c' hc' r hr),
        fun c' hc' => ho.once c' (List.mem_cons_of_mem _ hc'),
        fun c' hc' r hr hr2 => by
          rcases g5 r hr2 with h1 | h1 | h1
          · exact ho.notDb c' (List.mem_cons_of_mem _ hc') r hr h1
          · exact hap.1 c' hc' r h1 hr
          · exact Nat.not_lt.2 h1 (Stores.bound _ _ _ (ho.stores c' (List.mem_cons_of_mem _ hc')) r hr),
        hap.2⟩ n2
    refine ⟨by simp only [ccRefs, ccVals, List.map_cons, hCalls, afterCalls, e1]; exact i1, fun pre c' post e => ?_⟩
    cases pre with
    | nil =>
      simp only [List.nil_append, List.cons.injEq] at e
      obtain ⟨rfl, rfl⟩ := e
      simp only [ccRefs, List.map_nil, hCalls, e1]
      exact n1
    | cons a t =>
      simp only [List.cons_append, List.cons.injEq] at e
      obtain ⟨rfl, e⟩ := e
      simp only [ccRefs, List.map_cons, hCalls, e1]
      exact i2 t c' post e

end Oelint

import Verif.Lemmas.ConstCalls
import Verif.Props.ConstHeap
/-!
# What a sequence of calls leaves in the constant data base: C108

`hCalls fuel db calls h` is the heap of objects after the calls of `AddConstants`, `RemoveConstants` and `OverrideConstants`, one after the
other.  The full property - an element is in the list at a path if and only if the last call that decides about it puts it there - is
`C108_claim`; it is false, `C108_negation`: a dictionary passed twice may have changed in between.
-/
namespace Oelint
open Spec

/-- the full property: whatever the dictionaries the caller passes share with each other, after the calls an element is in the list at a path
if and only if the last call that decides about it puts it there -/
def C108_claim : Prop :=
  ∀ (fuel : Nat) (h : Heap) (db : Ref) (j : J) (fdb : List Ref) (calls : List ConstCall),
    Stores h (.ref db) j fdb → fdb.Nodup → WF j →
    (∀ c ∈ calls, depthKV c.value < fuel ∧ WFKV c.value ∧ Stores h (.ref c.arg) (.dict c.value) c.objs ∧ ∀ r ∈ c.objs, r ∉ fdb) →
    ShapesAgree j (calls.map fun c => (c.op, c.value)) →
    ∃ j' f', Stores (hCalls fuel db (calls.map fun c => (c.op, c.arg)) h) (.ref db) j' f' ∧
      ∀ ks x, ListHas ks x j' ↔ LastSays ks x (ListHas ks x j) (calls.map fun c => (c.op, c.value))

/-- `{k: xs}` -/
def oneList (k : Str) (xs : List Str) : KV := .cons k (.list xs) .nil

theorem oneList_compatible (k : Str) (xs ys : List Str) : Compatible (.dict (oneList k xs)) (.dict (oneList k ys)) := by
  intro ks x y hx hy
  match ks with
  | [] => cases hx; cases hy; exact Or.inl ⟨⟨_, rfl⟩, _, rfl⟩
  | [k'] =>
    by_cases e : k = k'
    · subst e
      simp [valueAt, oneList, KV.get] at hx hy
      exact Or.inr ⟨xs, ys, hx.symm, hy.symm⟩
    · simp [valueAt, oneList, KV.get, e] at hx
  | k' :: k2 :: t =>
    by_cases e : k = k'
    · subst e
      simp [valueAt, oneList, KV.get] at hx
    · simp [valueAt, oneList, KV.get, e] at hx

theorem empty_compatible (d : KV) : Compatible (.dict .nil) (.dict d) := by
  intro ks x y hx hy
  cases ks with
  | nil => cases hx; cases hy; exact Or.inl ⟨⟨_, rfl⟩, _, rfl⟩
  | cons k t => simp [valueAt, KV.get] at hx

theorem oneList_has {k : Str} {xs : List Str} {x : Str} : ListHas [k] x (.dict (oneList k xs)) ↔ x ∈ xs := by
  rw [listHas_list (xs := xs)]
  simp [valueAt, oneList, KV.get]

/-- `AddConstants({"a": ["x"]}); AddConstants({"a": ["y"]}); RemoveConstants(d1)` with the first dictionary: the list is empty, though "y" was
added and nothing the caller wrote removes it -/
theorem C108_remove_takes_more : hCalls 5 0 [(.add, 1), (.add, 3), (.remove, 1)] aliasHeap =
    [.dict [(c!"a", .ref 5)], .dict [(c!"a", .ref 2)], .list [c!"x", c!"y"], .dict [(c!"a", .ref 4)], .list [c!"y"], .list []] := by
  decide +kernel

/-- The full property is false. -/
theorem C108_negation : ¬ C108_claim := by
  intro h
  have hd : Stores aliasHeap (.ref 1) (.dict (oneList c!"a" [c!"x"])) [1, 2] := by simp [Stores, StoresKV, aliasHeap, oneList]
  have hd3 : Stores aliasHeap (.ref 3) (.dict (oneList c!"a" [c!"y"])) [3, 4] := by simp [Stores, StoresKV, aliasHeap, oneList]
  have hw : ∀ ys, depthKV (oneList c!"a" ys) < 5 ∧ WFKV (oneList c!"a" ys) := fun ys =>
    ⟨by simp [oneList, depthKV, depthJ], by simp [oneList, WFKV, WF, KV.get]⟩
  obtain ⟨j', f', hs, hx⟩ := h 5 aliasHeap 0 (.dict .nil) [0]
    [⟨.add, 1, oneList c!"a" [c!"x"], [1, 2]⟩, ⟨.add, 3, oneList c!"a" [c!"y"], [3, 4]⟩, ⟨.remove, 1, oneList c!"a" [c!"x"], [1, 2]⟩]
    (by simp [Stores, StoresKV, aliasHeap]) (by simp) (by simp [WF, WFKV])
    (by
      intro c hc
      simp only [List.mem_cons, List.not_mem_nil, or_false] at hc
      rcases hc with rfl | rfl | rfl
      · exact ⟨(hw _).1, (hw _).2, hd, by simp⟩
      · exact ⟨(hw _).1, (hw _).2, hd3, by simp⟩
      · exact ⟨(hw _).1, (hw _).2, hd, by simp⟩)
    ⟨by
      intro c hc
      simp only [List.map_cons, List.map_nil, List.mem_cons, List.not_mem_nil, or_false] at hc
      rcases hc with rfl | rfl | rfl <;> exact empty_compatible _, by
      simp only [List.map_cons, List.map_nil, List.pairwise_cons, List.mem_cons, List.not_mem_nil, or_false]
      refine ⟨?_, ?_, fun _ h => h.elim, List.Pairwise.nil⟩ <;> intro c hc
      · rcases hc with rfl | rfl <;> exact oneList_compatible _ _ _
      · subst hc; exact oneList_compatible _ _ _⟩
  have hl : ListHas [c!"a"] c!"y" j' := by
    rw [hx]
    refine Or.inl ⟨[(.add, oneList c!"a" [c!"x"])], (.add, oneList c!"a" [c!"y"]), [(.remove, oneList c!"a" [c!"x"])], rfl, ⟨by simp, ?_⟩, ?_⟩
    · exact oneList_has.2 (by simp)
    · intro c hc
      simp only [List.mem_cons, List.not_mem_nil, or_false] at hc
      subst hc
      rintro (⟨_, h⟩ | ⟨h, _⟩)
      · exact absurd (oneList_has.1 h) (by decide +kernel)
      · cases h
  simp only [List.map_cons, List.map_nil] at hs
  rw [C108_remove_takes_more] at hs
  obtain ⟨xs, h1, h2⟩ := hl
  cases j' with
  | str s => simp [Stores] at hs
  | list l => simp [Stores] at hs
  | dict kv =>
    simp only [Stores] at hs
    obtain ⟨r, es, f, e1, e2, e3, _⟩ := hs
    cases e1
    simp only [List.getElem?_cons_zero, Option.some.injEq, HObj.dict.injEq] at e2
    subst e2
    cases kv with
    | nil => simp [StoresKV] at e3
    | cons k v rest =>
      simp only [StoresKV] at e3
      obtain ⟨w, es', f1, f2, q1, q2, q3, _⟩ := e3
      simp only [List.cons.injEq, Prod.mk.injEq] at q1
      obtain ⟨⟨rfl, rfl⟩, rfl⟩ := q1
      simp only [valueAt, KV.get, beq_self_eq_true, if_true, Option.bind_some, Option.some.injEq] at h1
      subst h1
      simp only [Stores] at q2
      obtain ⟨r2, e4, e5, _⟩ := q2
      cases e4
      simp only [List.getElem?_cons_succ, List.getElem?_cons_zero, Option.some.injEq, HObj.list.injEq] at e5
      subst e5
      cases h2

/-- **C108** Any sequence of calls, each with a dictionary made of objects of its own, where the shapes of the data base and all dictionaries go
together: no call raises, and afterwards an element is in the list at a path if and only if the last call that decides about this element at
this path puts it there (or no call decides and it was there before).  What the calls do at other paths or with other elements does not matter. -/
theorem C108_last_call_partial (fuel : Nat) (h : Heap) (db : Ref) (j : J) (fdb : List Ref) (calls : List ConstCall)
    (hdb : Stores h (.ref db) j fdb) (hown : fdb.Nodup) (hj : WF j) (hcalls : ∀ c ∈ calls, depthKV c.value < fuel ∧ WFKV c.value)
    (hobj : OwnObjects h fdb calls) (hsh : ShapesAgree j (calls.map fun c => (c.op, c.value))) :
    (∀ pre c post, calls = pre ++ c :: post →
      (hMerge c.op fuel (.ref db) c.arg (hCalls fuel db (pre.map fun c => (c.op, c.arg)) h)).1 = none) ∧
    ∃ j' f', Stores (hCalls fuel db (calls.map fun c => (c.op, c.arg)) h) (.ref db) j' f' ∧
      ∀ ks x, ListHas ks x j' ↔ LastSays ks x (ListHas ks x j) (calls.map fun c => (c.op, c.value)) := by
  obtain ⟨⟨f', i1, _⟩, i2⟩ := hCalls_own (fuel := fuel) (db := db) calls h j fdb hdb hown hj hcalls hobj hsh
  refine ⟨i2, _, f', i1, fun ks x => afterCalls_has ks x _ j ?_ hsh⟩
  intro c hc
  simp only [ccVals, List.mem_map] at hc
  obtain ⟨c', hc', rfl⟩ := hc
  exact (hcalls c' hc').2

/-- **C108** In particular the order of `AddConstants` calls does not matter for what the lists contain: two sequences of such calls with the
same dictionaries leave the same elements at each path. -/
theorem C108_add_order_partial (fuel : Nat) (h : Heap) (db : Ref) (j : J) (fdb : List Ref) (calls calls' : List ConstCall)
    (hdb : Stores h (.ref db) j fdb) (hown : fdb.Nodup) (hj : WF j) (hcalls : ∀ c ∈ calls, depthKV c.value < fuel ∧ WFKV c.value)
    (hobj : OwnObjects h fdb calls) (hobj' : OwnObjects h fdb calls')
    (hsh : ShapesAgree j (calls.map fun c => (c.op, c.value))) (hsh' : ShapesAgree j (calls'.map fun c => (c.op, c.value)))
    (hadd : ∀ c ∈ calls, c.op = .add) (hsame : ∀ c, c ∈ calls ↔ c ∈ calls') :
    ∃ j1 f1 j2 f2, Stores (hCalls fuel db (calls.map fun c => (c.op, c.arg)) h) (.ref db) j1 f1 ∧
      Stores (hCalls fuel db (calls'.map fun c => (c.op, c.arg)) h) (.ref db) j2 f2 ∧ ∀ ks x, ListHas ks x j1 ↔ ListHas ks x j2 := by
  obtain ⟨_, j1, f1, s1, m1⟩ := C108_last_call_partial fuel h db j fdb calls hdb hown hj hcalls hobj hsh
  obtain ⟨_, j2, f2, s2, m2⟩ := C108_last_call_partial fuel h db j fdb calls' hdb hown hj (fun c hc => hcalls c ((hsame c).2 hc)) hobj' hsh'
  refine ⟨j1, f1, j2, f2, s1, s2, fun ks x => ?_⟩
  have nt : ∀ cs : List ConstCall, (∀ c ∈ cs, c.op = .add) → ∀ c ∈ cs.map (fun c => (c.op, c.value)), ¬ Takes ks x c := by
    intro cs hcs c hc
    simp only [List.mem_map] at hc
    obtain ⟨c', hc', rfl⟩ := hc
    rintro (⟨h, _⟩ | ⟨h, _⟩) <;> (simp only [hcs c' hc'] at h; cases h)
  have main : ∀ cs : List ConstCall, (∀ c ∈ cs, c.op = .add) → (LastSays ks x (ListHas ks x j) (cs.map fun c => (c.op, c.value)) ↔
      (∃ c ∈ cs, Puts ks x (c.op, c.value)) ∨ ListHas ks x j) := by
    intro cs hcs
    constructor
    · rintro (⟨pre, c, post, e, h1, _⟩ | ⟨h1, _⟩)
      · have hm : c ∈ cs.map fun c => (c.op, c.value) := by rw [e]; simp
        obtain ⟨c', hc', rfl⟩ := List.mem_map.1 hm
        exact Or.inl ⟨c', hc', h1⟩
      · exact Or.inr h1
    · rintro (⟨c, hc, h1⟩ | h1)
      · obtain ⟨pre, post, rfl⟩ := List.append_of_mem hc
        refine Or.inl ⟨pre.map fun c => (c.op, c.value), (c.op, c.value), post.map fun c => (c.op, c.value), by simp, h1, ?_⟩
        exact nt post (fun c' hc' => hcs c' (by simp [hc']))
      · exact Or.inr ⟨h1, nt cs hcs⟩
  rw [m1, m2, main calls hadd, main calls' (fun c hc => hadd c ((hsame c).2 hc))]
  simp only [hsame]

/-! ## examples meeting the hypotheses -/

/-- a data base `{"a": ["x"]}` (objects 0, 1), `{"a": ["y", "z"]}` (2, 3), `{"a": ["y"]}` (4, 5) and `{"a": ["w"]}` (6, 7) -/
def callsHeap : Heap :=
  [.dict [(c!"a", .ref 1)], .list [c!"x"], .dict [(c!"a", .ref 3)], .list [c!"y", c!"z"], .dict [(c!"a", .ref 5)], .list [c!"y"],
   .dict [(c!"a", .ref 7)], .list [c!"w"]]

/-- override with the first, remove the second, add the third -/
def callsSample : List ConstCall :=
  [⟨.override, 2, oneList c!"a" [c!"y", c!"z"], [2, 3]⟩, ⟨.remove, 4, oneList c!"a" [c!"y"], [4, 5]⟩, ⟨.add, 6, oneList c!"a" [c!"w"], [6, 7]⟩]

example : Stores callsHeap (.ref 0) (.dict (oneList c!"a" [c!"x"])) [0, 1] := by simp [Stores, StoresKV, callsHeap, oneList]

theorem callsSample_own : OwnObjects callsHeap [0, 1] callsSample := by
  refine ⟨?_, ?_, ?_, by simp [callsSample]⟩ <;> intro c hc <;> simp only [callsSample, List.mem_cons, List.not_mem_nil, or_false] at hc <;>
    rcases hc with rfl | rfl | rfl <;> simp [Stores, StoresKV, callsHeap, oneList]

theorem callsSample_shapes : ShapesAgree (.dict (oneList c!"a" [c!"x"])) (callsSample.map fun c => (c.op, c.value)) := by
  refine ⟨?_, ?_⟩
  · intro c hc
    simp only [callsSample, List.map_cons, List.map_nil, List.mem_cons, List.not_mem_nil, or_false] at hc
    rcases hc with rfl | rfl | rfl <;> exact oneList_compatible _ _ _
  · simp only [callsSample, List.map_cons, List.map_nil, List.pairwise_cons, List.mem_cons, List.not_mem_nil, or_false]
    refine ⟨?_, ?_, fun _ h => h.elim, List.Pairwise.nil⟩ <;> intro c hc
    · rcases hc with rfl | rfl <;> exact oneList_compatible _ _ _
    · subst hc; exact oneList_compatible _ _ _

/-- "x" is gone, "y" too, "z" and "w" are there -/
example : ∃ j' f', Stores (hCalls 5 0 (callsSample.map fun c => (c.op, c.arg)) callsHeap) (.ref 0) j' f' ∧
    ListHas [c!"a"] c!"w" j' ∧ ¬ ListHas [c!"a"] c!"x" j' := by
  obtain ⟨_, j', f', h1, h2⟩ := C108_last_call_partial 5 callsHeap 0 (.dict (oneList c!"a" [c!"x"])) [0, 1] callsSample
    (by simp [Stores, StoresKV, callsHeap, oneList]) (by simp) (by simp [oneList, WF, WFKV, KV.get])
    (by
      intro c hc
      simp only [callsSample, List.mem_cons, List.not_mem_nil, or_false] at hc
      rcases hc with rfl | rfl | rfl <;> simp [oneList, depthKV, depthJ, WF, WFKV, KV.get])
    callsSample_own callsSample_shapes
  refine ⟨j', f', h1, (h2 _ _).2 (Or.inl ⟨[_, _], _, [], rfl, ⟨by simp, oneList_has.2 (by simp)⟩, by simp⟩), fun hx => ?_⟩
  rcases (h2 _ _).1 hx with ⟨pre, c, post, e, hp, _⟩ | ⟨_, hn⟩
  · have hm : c ∈ callsSample.map fun c => (c.op, c.value) := by rw [e]; simp
    simp only [callsSample, List.map_cons, List.map_nil, List.mem_cons, List.not_mem_nil, or_false] at hm
    rcases hm with rfl | rfl | rfl
    · exact absurd (oneList_has.1 hp.2) (by decide +kernel)
    · exact hp.1 rfl
    · exact absurd (oneList_has.1 hp.2) (by decide +kernel)
  · refine hn (.override, oneList c!"a" [c!"y", c!"z"]) (by simp [callsSample]) (Or.inr ⟨rfl, ⟨[c!"y", c!"z"], ?_⟩, fun h => ?_⟩)
    · simp [valueAt, oneList, KV.get]
    · exact absurd (oneList_has.1 h) (by decide +kernel)

/-- `AddConstants({"a": ["x"]})` and `AddConstants({"a": ["y"]})` on the empty data base -/
def addX : ConstCall := ⟨.add, 1, oneList c!"a" [c!"x"], [1, 2]⟩
def addY : ConstCall := ⟨.add, 3, oneList c!"a" [c!"y"], [3, 4]⟩

theorem addXY_own {c1 c2 : ConstCall} (h : (c1 = addX ∧ c2 = addY) ∨ (c1 = addY ∧ c2 = addX)) : OwnObjects aliasHeap [0] [c1, c2] := by
  rcases h with ⟨rfl, rfl⟩ | ⟨rfl, rfl⟩ <;>
    (refine ⟨?_, ?_, ?_, by simp [addX, addY]⟩ <;> intro c hc <;> simp only [List.mem_cons, List.not_mem_nil, or_false] at hc <;>
      rcases hc with rfl | rfl <;> simp [Stores, StoresKV, aliasHeap, oneList, addX, addY])

theorem addXY_shapes {c1 c2 : ConstCall} (h : (c1 = addX ∧ c2 = addY) ∨ (c1 = addY ∧ c2 = addX)) :
    ShapesAgree (.dict .nil) ([c1, c2].map fun c => (c.op, c.value)) := by
  refine ⟨fun c _ => empty_compatible _, ?_⟩
  simp only [List.map_cons, List.map_nil, List.pairwise_cons, List.mem_cons, List.not_mem_nil, or_false]
  refine ⟨fun c hc => ?_, fun _ h => h.elim, List.Pairwise.nil⟩
  subst hc
  rcases h with ⟨rfl, rfl⟩ | ⟨rfl, rfl⟩ <;> exact oneList_compatible _ _ _

/-- the lists differ in order, the elements do not -/
example : ∃ j1 f1 j2 f2, Stores (hCalls 5 0 [(.add, 1), (.add, 3)] aliasHeap) (.ref 0) j1 f1 ∧
    Stores (hCalls 5 0 [(.add, 3), (.add, 1)] aliasHeap) (.ref 0) j2 f2 ∧ ∀ ks x, ListHas ks x j1 ↔ ListHas ks x j2 :=
  C108_add_order_partial 5 aliasHeap 0 (.dict .nil) [0] [addX, addY] [addY, addX] (by simp [Stores, StoresKV, aliasHeap]) (by simp)
    (by simp [WF, WFKV])
    (by
      intro c hc
      simp only [List.mem_cons, List.not_mem_nil, or_false] at hc
      rcases hc with rfl | rfl <;> simp [oneList, addX, addY, depthKV, depthJ, WF, WFKV, KV.get])
    (addXY_own (Or.inl ⟨rfl, rfl⟩)) (addXY_own (Or.inr ⟨rfl, rfl⟩)) (addXY_shapes (Or.inl ⟨rfl, rfl⟩)) (addXY_shapes (Or.inr ⟨rfl, rfl⟩))
    (by intro c hc; simp only [List.mem_cons, List.not_mem_nil, or_false] at hc; rcases hc with rfl | rfl <;> rfl)
    (by intro c; simp [or_comm])

end Oelint

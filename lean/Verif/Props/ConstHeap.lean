import Verif.Lemmas.ConstHeap
/-!
# The objects a caller passes to the constant data base: C31

`hMerge op fuel (.ref db) d` is the call `AddConstants(d)`, `RemoveConstants(d)` or `OverrideConstants(d)` on a heap of objects, where the
object `db` is the data base and `d` the dictionary the caller passes.  `hCalls` is a sequence of calls.  The full property - no call ever
changes a dictionary passed now or earlier - is `C31_claim`; it is false, `C31_false`.
-/
namespace Oelint
open Spec

/-- the full property: no sequence of calls changes a list or dictionary of a dictionary the caller passes -/
def C31_claim : Prop :=
  ∀ (fuel : Nat) (db : Ref) (calls : List (MergeOp × Ref)) (h : Heap),
    (∀ c ∈ calls, ∃ kd fd, Stores h (.ref c.2) (.dict kd) fd ∧ db ∉ fd) →
    ∀ c ∈ calls, ∀ kd fd, Stores h (.ref c.2) (.dict kd) fd → Stores (hCalls fuel db calls h) (.ref c.2) (.dict kd) fd

/-- the empty data base (object 0), `{"a": ["x"]}` (objects 1, 2) and `{"a": ["y"]}` (objects 3, 4) -/
def aliasHeap : Heap := [.dict [], .dict [(c!"a", .ref 2)], .list [c!"x"], .dict [(c!"a", .ref 4)], .list [c!"y"]]

/-- `AddConstants(d1); AddConstants(d2)` turns the caller's `d1 = {"a": ["x"]}` into `{"a": ["x", "y"]}`:
the data base keeps the list object of `d1` and extends it in place -/
theorem C31_add_add : (hCalls 5 0 [(.add, 1), (.add, 3)] aliasHeap)[2]? = some (.list [c!"x", c!"y"]) := by
  decide +kernel

/-- so does `OverrideConstants(d1); AddConstants(d2)` -/
theorem C31_override_add : (hCalls 5 0 [(.override, 1), (.add, 3)] aliasHeap)[2]? = some (.list [c!"x", c!"y"]) := by
  decide +kernel

/-- The full property is false. -/
theorem C31_false : ¬ C31_claim := by
  intro h
  have h1 : Stores aliasHeap (.ref 1) (.dict (.cons c!"a" (.list [c!"x"]) .nil)) [1, 2] := by
    simp [Stores, StoresKV, aliasHeap]
  have h3 : Stores aliasHeap (.ref 3) (.dict (.cons c!"a" (.list [c!"y"]) .nil)) [3, 4] := by
    simp [Stores, StoresKV, aliasHeap]
  have := h 5 0 [(.add, 1), (.add, 3)] aliasHeap (by
    intro c hc
    simp only [List.mem_cons, List.not_mem_nil, or_false] at hc
    rcases hc with rfl | rfl
    · exact ⟨_, _, h1, by simp⟩
    · exact ⟨_, _, h3, by simp⟩) (.add, 1) (by simp) _ _ h1
  simp only [Stores, StoresKV] at this
  obtain ⟨r, es, f, e1, e2, ⟨v, es', f1, f2, e3, ⟨r2, e4, e5, e6⟩, e7, e8⟩, e9⟩ := this
  cases e1
  subst e4
  obtain ⟨rfl, rfl⟩ := e7
  subst e6 e8
  cases e9
  rw [C31_add_add] at e5
  cases e5

/-- **C31**, one call.  If the data base shares no object with the caller's dictionary `d` and none of its objects occurs in two places, the
call has the effect of the value-level `AddConstants`/`RemoveConstants`/`OverrideConstants` of C27-C30 on the data base, raises the same
exception, and changes no object that does not belong to the data base; in particular `d` has its old value. -/
theorem C31_this_call_partial (op : MergeOp) (fuel : Nat) (h : Heap) (db d : Ref) (j : J) (kd : KV) (fdb fd : List Ref)
    (hdb : Stores h (.ref db) j fdb) (hd : Stores h (.ref d) (.dict kd) fd) (hsep : ∀ r ∈ fdb, r ∉ fd) (hown : fdb.Nodup)
    (hj : WF j) (hkd : WFKV kd) (hfuel : depthKV kd < fuel) :
    ∃ h', hMerge op fuel (.ref db) d h = ((mergeDb op j kd).2, h') ∧
      (∃ f, Stores h' (.ref db) (mergeDb op j kd).1 f) ∧
      (∀ r, r < h.length → r ∉ fdb → h'[r]? = h[r]?) ∧
      Stores h' (.ref d) (.dict kd) fd := by
  obtain ⟨h', e1, hM⟩ := hMerge_spec op (· ∈ fd) fuel h (.ref db) j fdb d kd fd hfuel hd (fun r hr => hr) hkd hdb hown hj hsep
  obtain ⟨f, g1, _⟩ := hM.stores
  refine ⟨h', e1, ⟨f, g1⟩, hM.frame, Stores.frame _ _ _ hd (fun r hr => ?_)⟩
  exact hM.frame r (Stores.bound _ _ _ hd r hr) (fun h => hsep r h hr)

/-- **C31**, any sequence of calls, each a `RemoveConstants` or an `AddConstants` of paths the data base already has: no object outside the
data base ever changes, so all dictionaries passed keep their values, and the data base never gets an object of a caller. -/
theorem C31_known_paths_partial (fuel : Nat) (h : Heap) (db : Ref) (calls : List (MergeOp × Ref × KV)) (j : J) (fdb : List Ref)
    (hdb : Stores h (.ref db) j fdb) (hown : fdb.Nodup) (hj : WF j)
    (hcalls : ∀ c ∈ calls, depthKV c.2.2 < fuel ∧ WFKV c.2.2 ∧ ∃ fd, Stores h (.ref c.2.1) (.dict c.2.2) fd ∧ ∀ r ∈ fd, r ∉ fdb)
    (hknown : OnlyKnown j (calls.map fun c => (c.1, c.2.2))) :
    (∃ f', Stores (hCalls fuel db (calls.map fun c => (c.1, c.2.1)) h) (.ref db) (afterCalls j (calls.map fun c => (c.1, c.2.2))) f' ∧ f'.Nodup ∧
      ∀ r ∈ f', r ∈ fdb ∨ h.length ≤ r) ∧
    (∀ r, r < h.length → r ∉ fdb → (hCalls fuel db (calls.map fun c => (c.1, c.2.1)) h)[r]? = h[r]?) ∧
    ∀ c ∈ calls, ∀ fd, Stores h (.ref c.2.1) (.dict c.2.2) fd → (∀ r ∈ fd, r ∉ fdb) →
      Stores (hCalls fuel db (calls.map fun c => (c.1, c.2.1)) h) (.ref c.2.1) (.dict c.2.2) fd := by
  obtain ⟨f', i1, i2, i3, i4⟩ := hCalls_known (fuel := fuel) (db := db) (C := fun r => r ∉ fdb) calls h j fdb hdb hown hj (fun r hr h => h hr) hcalls hknown
  exact ⟨⟨f', i1, i2, i3⟩, i4, fun c _ fd hs hn => Stores.frame _ _ _ hs (fun r hr => i4 r (Stores.bound _ _ _ hs r hr) (hn r hr))⟩

/-- **C31**, any sequence of any calls with any sharing: an object that can be reached neither from the data base nor from an argument of one
of the calls never changes. -/
theorem C31_out_of_reach_partial (fuel : Nat) (h : Heap) (db : Ref) (calls : List (MergeOp × Ref)) (x : Ref) (hx : x < h.length)
    (hdb : ¬ Reaches h db x) (hcalls : ∀ c ∈ calls, ¬ Reaches h c.2 x) : (hCalls fuel db calls h)[x]? = h[x]? := by
  let S : Ref → Prop := fun r => Reaches h db r ∨ (∃ c ∈ calls, Reaches h c.2 r) ∨ h.length ≤ r
  have hclosed : ClosedIn S h := by
    rintro r y (hr | ⟨c, hc, hr⟩ | hr) hy
    · exact Or.inl (hr.step hy)
    · exact Or.inr (Or.inl ⟨c, hc, hr.step hy⟩)
    · obtain ⟨es, k, h1, _⟩ := hy
      rw [List.getElem?_eq_none hr] at h1
      cases h1
  refine (hCalls_in (n := h.length) (S := S) (fun r hr => Or.inr (Or.inr hr)) (Or.inl (.refl db)) calls
    (fun c hc => Or.inr (Or.inl ⟨c, hc, .refl _⟩)) h (Nat.le_refl _) hclosed).frame x ?_
  rintro (h1 | ⟨c, hc, h1⟩ | h1)
  · exact hdb h1
  · exact hcalls c hc h1
  · exact Nat.not_lt.2 h1 hx

/-! ## examples meeting the hypotheses -/

/-- a data base `{"a": ["x"], "b": {"c": ["p", "q"]}}` (objects 0-3) and the caller's `{"b": {"c": ["q"]}, "a": ["y"]}` (objects 4-7) -/
def knownHeap : Heap :=
  [.dict [(c!"a", .ref 1), (c!"b", .ref 2)], .list [c!"x"], .dict [(c!"c", .ref 3)], .list [c!"p", c!"q"],
   .dict [(c!"b", .ref 5), (c!"a", .ref 7)], .dict [(c!"c", .ref 6)], .list [c!"q"], .list [c!"y"]]

/-- the value of its data base -/
def knownDb : J := .dict (.cons c!"a" (.list [c!"x"]) (.cons c!"b" (.dict (.cons c!"c" (.list [c!"p", c!"q"]) .nil)) .nil))
/-- the value of its argument -/
def knownArg : KV := .cons c!"b" (.dict (.cons c!"c" (.list [c!"q"]) .nil)) (.cons c!"a" (.list [c!"y"]) .nil)

theorem knownHeap_db : Stores knownHeap (.ref 0) knownDb [0, 1, 2, 3] := by simp [Stores, StoresKV, knownHeap, knownDb]
theorem knownHeap_arg : Stores knownHeap (.ref 4) (.dict knownArg) [4, 5, 6, 7] := by simp [Stores, StoresKV, knownHeap, knownArg]

theorem knownArg_paths {j : J} {xs zs : List Str} (hj : j = .dict (.cons c!"a" (.list xs) (.cons c!"b" (.dict (.cons c!"c" (.list zs) .nil)) .nil))) :
    KnownPaths j (.dict knownArg) := by
  subst hj
  intro ks y hy
  match ks with
  | [] => exact ⟨_, rfl⟩
  | [k] =>
    simp only [valueAt, knownArg, KV.get] at hy ⊢
    by_cases h1 : c!"b" = k
    · subst h1; simp
    · by_cases h2 : c!"a" = k
      · subst h2; simp
      · simp [h1, h2] at hy
  | k :: k' :: ks =>
    simp only [valueAt, knownArg, KV.get] at hy ⊢
    by_cases h1 : c!"b" = k
    · subst h1
      by_cases h3 : c!"c" = k'
      · subst h3
        cases ks with
        | nil => simp [valueAt, KV.get]
        | cons a b => simp [valueAt, KV.get] at hy
      · simp [valueAt, KV.get, h3] at hy
    · by_cases h2 : c!"a" = k
      · subst h2; simp [valueAt] at hy
      · simp [h1, h2] at hy

example : ∃ h', hMerge .override 5 (.ref 0) 4 knownHeap = ((mergeDb .override knownDb knownArg).2, h') ∧ Stores h' (.ref 4) (.dict knownArg) [4, 5, 6, 7] := by
  obtain ⟨h', e, _, _, hs⟩ := C31_this_call_partial .override 5 knownHeap 0 4 knownDb knownArg _ _ knownHeap_db knownHeap_arg (by decide) (by decide)
    (by simp [knownDb, WF, WFKV, KV.get]) (by simp [knownArg, WF, WFKV, KV.get]) (by simp [knownArg, depthKV, depthJ])
  exact ⟨h', e, hs⟩

example : OnlyKnown knownDb [(.add, knownArg), (.remove, knownArg), (.add, knownArg)] := by
  show (_ ∨ _) ∧ (_ ∨ _) ∧ (_ ∨ _) ∧ True
  exact ⟨Or.inr ⟨rfl, knownArg_paths rfl⟩, Or.inl rfl, Or.inr ⟨rfl, knownArg_paths (by rfl)⟩, trivial⟩

example : ∀ c ∈ [(MergeOp.add, 4, knownArg), (.remove, 4, knownArg), (.add, 4, knownArg)], depthKV c.2.2 < 5 ∧ WFKV c.2.2 ∧
    ∃ fd, Stores knownHeap (.ref c.2.1) (.dict c.2.2) fd ∧ ∀ r ∈ fd, r ∉ [0, 1, 2, 3] := by
  have h : depthKV knownArg < 5 ∧ WFKV knownArg ∧ ∃ fd, Stores knownHeap (.ref 4) (.dict knownArg) fd ∧ ∀ r ∈ fd, r ∉ [0, 1, 2, 3] :=
    ⟨by simp [knownArg, depthKV, depthJ], by simp [knownArg, WF, WFKV, KV.get], _, knownHeap_arg, by decide⟩
  intro c hc
  simp only [List.mem_cons, List.not_mem_nil, or_false] at hc
  rcases hc with rfl | rfl | rfl <;> exact h

/-- the sample calls change the list objects of the data base -/
example : (hCalls 5 0 [(.add, 4), (.remove, 4), (.add, 4)] knownHeap) ≠ knownHeap := by decide +kernel

/-- an object neither the data base nor the argument reaches: the list 4 in `aliasHeap` with the call `AddConstants(d1)` -/
example : ¬ Reaches aliasHeap 0 4 ∧ ¬ Reaches aliasHeap 1 4 := by
  have h0 : ∀ x, Reaches aliasHeap 0 x → x = 0 := by
    intro x hx
    induction hx with
    | refl => rfl
    | step h hy ih =>
      rw [ih] at hy
      obtain ⟨es, k, h1, h2⟩ := hy
      simp [aliasHeap] at h1
      subst h1; cases h2
  have h1 : ∀ x, Reaches aliasHeap 1 x → x = 1 ∨ x = 2 := by
    intro x hx
    induction hx with
    | refl => exact Or.inl rfl
    | step h hy ih =>
      obtain ⟨es, k, h1, h2⟩ := hy
      rcases ih with rfl | rfl
      · simp [aliasHeap] at h1
        subst h1; simp at h2; exact Or.inr h2.2
      · simp [aliasHeap] at h1
  refine ⟨fun h => ?_, fun h => ?_⟩
  · have := h0 _ h; cases this
  · rcases h1 _ h with h | h <;> cases h

end Oelint

import Verif.Lemmas.Constants
import Verif.Lemmas.Names
/-!
# The constant data base: C27-C30

`addConstants db d` is the data base after `AddConstants(d)` and the exception raised, if any.
-/
namespace Oelint
open Spec

/-- **C27** If `d` has a compatible shape, `AddConstants(d)` raises nothing; afterwards every list of the data base that `d` also
has is its old value followed by `d`'s value, every path only `d` has reads `d`'s value, every path `d` does not have reads the
old value (or is absent as before), and dictionaries stay dictionaries. -/
theorem C27_add_constants (db : J) (d : KV) (hd : WF (.dict d)) (hc : Compatible db (.dict d)) :
    (addConstants db d).2 = none ∧
    ∀ ks, match valueAt ks db, valueAt ks (.dict d) with
      | old, none => valueAt ks (addConstants db d).1 = old
      | none, some y => valueAt ks (addConstants db d).1 = some y
      | some (.list xs), some (.list ys) => valueAt ks (addConstants db d).1 = some (.list (xs ++ ys))
      | some (.dict _), some (.dict _) => ∃ r, valueAt ks (addConstants db d).1 = some (.dict r)
      | some _, some _ => False := by
  refine ⟨mergeJ_noError .add db (.dict d) hd hc, fun ks => ?_⟩
  have h := mergeJ_valueAt .add ks db (.dict d) hd hc
  have e : addConstants db d = mergeJ .add db (.dict d) := rfl
  rw [e]
  cases hy : valueAt ks (.dict d) with
  | none =>
    rw [hy] at h
    rcases h with ⟨h, _⟩ | ⟨_, h⟩
    · cases h
    · exact h
  | some y =>
    cases hx : valueAt ks db with
    | none =>
      rw [hy, hx] at h
      rcases h with ⟨h, _⟩ | ⟨_, h⟩
      · cases h
      · exact h
    | some x =>
      rw [hy, hx] at h
      obtain ⟨_, _, h⟩ := h
      rcases hc ks x y hx hy with ⟨⟨a, rfl⟩, b, rfl⟩ | ⟨xs, ys, rfl, rfl⟩
      · rw [mergeJ_dict] at h
        exact ⟨_, h⟩
      · rw [mergeJ_list] at h
        exact h

/-- **C28** If `d` has a compatible shape, `RemoveConstants(d)` raises nothing; afterwards every list of the data base that `d`
also has is its old value without the entries `d` lists, in order; everything else is unchanged. -/
theorem C28_remove_constants (db : J) (d : KV) (hd : WF (.dict d)) (hc : Compatible db (.dict d)) :
    (removeConstants db d).2 = none ∧
    ∀ ks, match valueAt ks db, valueAt ks (.dict d) with
      | old, none => valueAt ks (removeConstants db d).1 = old
      | none, some _ => valueAt ks (removeConstants db d).1 = none
      | some (.list xs), some (.list ys) =>
        ∃ r, valueAt ks (removeConstants db d).1 = some (.list r) ∧ r.Sublist xs ∧ ∀ x, r.count x = if x ∈ ys then 0 else xs.count x
      | some (.dict _), some (.dict _) => ∃ r, valueAt ks (removeConstants db d).1 = some (.dict r)
      | some _, some _ => False := by
  refine ⟨mergeJ_noError .remove db (.dict d) hd hc, fun ks => ?_⟩
  have h := mergeJ_valueAt .remove ks db (.dict d) hd hc
  have e : removeConstants db d = mergeJ .remove db (.dict d) := rfl
  rw [e]
  cases hy : valueAt ks (.dict d) with
  | none =>
    rw [hy] at h
    rcases h with ⟨h, _⟩ | ⟨_, h⟩
    · cases h
    · exact h
  | some y =>
    cases hx : valueAt ks db with
    | none =>
      rw [hy, hx] at h
      rcases h with ⟨_, h⟩ | ⟨h, _⟩
      · exact h
      · exact absurd rfl h
    | some x =>
      rw [hy, hx] at h
      obtain ⟨_, _, h⟩ := h
      rcases hc ks x y hx hy with ⟨⟨a, rfl⟩, b, rfl⟩ | ⟨xs, ys, rfl, rfl⟩
      · rw [mergeJ_dict] at h
        exact ⟨_, h⟩
      · rw [mergeJ_list] at h
        refine ⟨_, h, List.filter_sublist, fun x => ?_⟩
        by_cases hm : x ∈ ys
        · rw [if_pos hm, List.count_eq_zero]
          simp [hm]
        · rw [if_neg hm, List.count_filter (by simp [hm])]

/-- **C29** If `d` has a dictionary nowhere but where the data base has one or nothing, `OverrideConstants(d)` raises nothing;
afterwards every path where `d` has a list or text reads `d`'s value, paths only `d` has read `d`'s value, all paths `d` says nothing
about read the old value; what was below a replaced dictionary is gone.  Doing it twice is the same as once. -/
theorem C29_override_constants (db : J) (d : KV) (hd : WF (.dict d)) (hc : Overridable db (.dict d)) :
    (overrideConstants db d).2 = none ∧
    (∀ ks, match valueAt ks db, valueAt ks (.dict d) with
      | _, some (.list ys) => valueAt ks (overrideConstants db d).1 = some (.list ys)
      | _, some (.str s) => valueAt ks (overrideConstants db d).1 = some (.str s)
      | none, some (.dict y) => valueAt ks (overrideConstants db d).1 = some (.dict y)
      | some _, some (.dict _) => ∃ r, valueAt ks (overrideConstants db d).1 = some (.dict r)
      | old, none =>
        (RunsThroughLeaf ks (.dict d) → valueAt ks (overrideConstants db d).1 = none) ∧
        (¬ RunsThroughLeaf ks (.dict d) → valueAt ks (overrideConstants db d).1 = old)) ∧
    overrideConstants (overrideConstants db d).1 d = ((overrideConstants db d).1, none) := by
  refine ⟨mergeJ_noError .override db (.dict d) hd hc, fun ks => ?_, override_twice _ hd db hc⟩
  have h := mergeJ_valueAt .override ks db (.dict d) hd hc
  have e : overrideConstants db d = mergeJ .override db (.dict d) := rfl
  rw [e]
  cases hy : valueAt ks (.dict d) with
  | none =>
    rw [hy] at h
    have hiff : HitsLeaf ks (.dict d) ↔ RunsThroughLeaf ks (.dict d) := by
      constructor
      · rintro ⟨pre, post, z, rfl, h2, h3⟩
        cases post with
        | nil => rw [List.append_nil, h2] at hy; cases hy
        | cons k post => exact ⟨pre, k, post, z, rfl, h2, h3⟩
      · rintro ⟨pre, k, post, z, rfl, h2, h3⟩
        exact ⟨pre, k :: post, z, rfl, h2, h3⟩
    rw [hiff] at h
    rcases h with ⟨_, h1, h2⟩ | ⟨h1, h2⟩
    · exact ⟨fun _ => h2, fun h => absurd h1 h⟩
    · exact ⟨fun h => absurd ⟨rfl, h⟩ h1, fun _ => h2⟩
  | some y =>
    cases hx : valueAt ks db with
    | none =>
      rw [hy, hx] at h
      rcases h with ⟨h, _⟩ | ⟨_, h⟩
      · cases h
      · cases y <;> exact h
    | some x =>
      rw [hy, hx] at h
      obtain ⟨_, _, h⟩ := h
      cases y with
      | dict b =>
        obtain ⟨a, rfl⟩ := hc ks x (.dict b) hx hy ⟨b, rfl⟩
        rw [mergeJ_dict] at h
        exact ⟨_, h⟩
      | list ys => rw [mergeJ_list] at h; exact h
      | str s => rw [mergeJ_str] at h; exact h

/-- **C30** `GetByPath` follows the pieces of the path between '/', where '/' at the end does not matter: the value found there, the
empty dictionary if a key on the way is missing, `AttributeError` if the path runs through a value that is not a dictionary. -/
theorem C30_get_by_path (db : J) (path : Str) (n : Nat) (ks : List Str) (hp : path.getLast? ≠ some '/')
    (hk : Pieces '/' path ks) :
    (∀ v, valueAt ks db = some v → getByPath db (path ++ List.replicate n '/') = .ok v) ∧
    (RunsThroughLeaf ks db → getByPath db (path ++ List.replicate n '/') = .error .attributeError) ∧
    (valueAt ks db = none → ¬ RunsThroughLeaf ks db → getByPath db (path ++ List.replicate n '/') = .ok (.dict .nil)) := by
  have e : pathKeys (path ++ List.replicate n '/') = ks := by
    rw [pathKeys, rstripP_append_all _ _ (by intro c hc; rw [List.eq_of_mem_replicate hc]; rfl)]
    have : rstripP (· == '/') path = path := by
      cases h : path.getLast? with
      | none => rw [List.getLast?_eq_none_iff.1 h]; rfl
      | some c =>
        obtain ⟨pre, rfl⟩ : ∃ pre, path = pre ++ [c] := by
          rw [List.getLast?_eq_some_iff] at h; exact h
        refine rstripP_concat_not pre c ?_
        simp only [beq_eq_false_iff_ne]
        rintro rfl; exact hp h
    rw [this, ← pieces_unique hk]
  unfold getByPath
  rw [e]
  exact ⟨fun v hv => getKeys_some hv, getKeys_leaf, getKeys_none⟩

/-! ## examples -/

/-- `{"functions": {"known": ["do_a", "do_b"]}, "name": "x"}` -/
def Sample.db : J :=
  .dict (.cons c!"functions" (.dict (.cons c!"known" (.list [c!"do_a", c!"do_b"]) .nil)) (.cons c!"name" (.str c!"x") .nil))

/-- `{"functions": {"known": ["do_b"], "order": ["do_c"]}}` -/
def Sample.extra : KV :=
  .cons c!"functions" (.dict (.cons c!"known" (.list [c!"do_b"]) (.cons c!"order" (.list [c!"do_c"]) .nil))) .nil

theorem Sample.extra_wf : WF (.dict Sample.extra) := by simp [Sample.extra, WF, WFKV, KV.get]

theorem Sample.extra_overridable : Overridable Sample.db (.dict Sample.extra) := by
  intro ks x y hx hy hd
  match ks, hx, hy with
  | [], hx, hy => cases hx; cases hy; exact ⟨_, rfl⟩
  | [k], hx, hy =>
    by_cases h : c!"functions" = k
    · subst h; simp [Sample.db, valueAt, KV.get] at hx; exact ⟨_, hx.symm⟩
    · simp [Sample.extra, valueAt, KV.get, h] at hy
  | k :: j :: ks, hx, hy =>
    exfalso
    by_cases h : c!"functions" = k
    · subst h
      simp only [Sample.extra, valueAt, KV.get, beq_self_eq_true, if_true, Option.bind_some] at hy
      by_cases h1 : c!"known" = j
      · subst h1
        cases ks <;> simp [valueAt] at hy
        subst hy; obtain ⟨_, h⟩ := hd; cases h
      · by_cases h2 : c!"order" = j
        · subst h2
          cases ks <;> simp [valueAt] at hy
          subst hy; obtain ⟨_, h⟩ := hd; cases h
        · simp [h1, h2] at hy
    · simp [Sample.extra, valueAt, KV.get, h] at hy

theorem Sample.extra_compatible : Compatible Sample.db (.dict Sample.extra) := by
  intro ks x y hx hy
  match ks, hx, hy with
  | [], hx, hy => cases hx; cases hy; exact Or.inl ⟨⟨_, rfl⟩, _, rfl⟩
  | [k], hx, hy =>
    by_cases h : c!"functions" = k
    · subst h
      simp [Sample.db, valueAt, KV.get] at hx
      simp [Sample.extra, valueAt, KV.get] at hy
      exact Or.inl ⟨⟨_, hx.symm⟩, _, hy.symm⟩
    · simp [Sample.extra, valueAt, KV.get, h] at hy
  | k :: j :: ks, hx, hy =>
    by_cases h : c!"functions" = k
    · subst h
      simp only [Sample.db, valueAt, KV.get, beq_self_eq_true, if_true, Option.bind_some] at hx
      simp only [Sample.extra, valueAt, KV.get, beq_self_eq_true, if_true, Option.bind_some] at hy
      by_cases h1 : c!"known" = j
      · subst h1
        cases ks <;> simp [valueAt] at hx hy
        exact Or.inr ⟨_, _, hx.symm, hy.symm⟩
      · simp [h1] at hx
    · simp [Sample.extra, valueAt, KV.get, h] at hy

example : valueAt [c!"functions", c!"known"] (addConstants Sample.db Sample.extra).1 =
    some (.list [c!"do_a", c!"do_b", c!"do_b"]) :=
  (C27_add_constants _ _ Sample.extra_wf Sample.extra_compatible).2 [c!"functions", c!"known"]
example : valueAt [c!"name"] (removeConstants Sample.db Sample.extra).1 = some (.str c!"x") :=
  (C28_remove_constants _ _ Sample.extra_wf Sample.extra_compatible).2 [c!"name"]
example : valueAt [c!"functions", c!"known"] (overrideConstants Sample.db Sample.extra).1 = some (.list [c!"do_b"]) :=
  (C29_override_constants _ _ Sample.extra_wf Sample.extra_overridable).2.1 [c!"functions", c!"known"]
example : getByPath Sample.db c!"functions/known//" = .ok (.list [c!"do_a", c!"do_b"]) :=
  (C30_get_by_path Sample.db c!"functions/known" 2 [c!"functions", c!"known"] (by decide) (pieces_splitC _ _)).1 _ rfl
/-- incompatible shapes raise: `AddConstants({"name": ["y"]})` -/
example : (addConstants Sample.db (.cons c!"name" (.list [c!"y"]) .nil)).2 = some .typeError := by
  simp [addConstants, mergeDb, Sample.db, mergeJ, mergeKV, KV.get, KV.set, leafMerge, plusEq]

end Oelint

import Verif.Spec.Constants
import Verif.Lemmas.Str
set_option linter.unusedSectionVars false
set_option linter.unusedSimpArgs false
namespace Oelint
open Spec

theorem KV.get_set (k j : Str) (v : J) (d : KV) : (d.set k v).get j = if j = k then some v else d.get j := by
  induction d using KV.rec (motive_1 := fun _ => True) with
  | dict | list | str => trivial
  | nil => 
    by_cases h : j = k
    · simp [KV.set, KV.get, h]
    · simp [KV.set, KV.get, h, Ne.symm h]
  | cons k' v' r _ ih =>
    by_cases hk : k' = k
    · subst hk
      by_cases h : j = k'
      · simp [KV.set, KV.get, h]
      · simp [KV.set, KV.get, h, Ne.symm h]
    · by_cases h : k' = j
      · subst h; simp [KV.set, KV.get, hk]
      · simp [KV.set, KV.get, hk, h, ih]

theorem KV.set_self {k : Str} {v : J} {d : KV} (h : d.get k = some v) : d.set k v = d := by
  induction d using KV.rec (motive_1 := fun _ => True) with
  | dict | list | str => trivial
  | nil => simp [KV.get] at h
  | cons k' v' r _ ih =>
    by_cases hk : k' = k
    · subst hk; simp [KV.get] at h; simp [KV.set, h]
    · simp [KV.get, hk] at h; simp [KV.set, hk, ih h]

/-- one level of the merge -/
def levelMerge (op : MergeOp) : Option J → Option J → Option J
  | x, none => x
  | none, some y => match op with | .remove => none | _ => some y
  | some x, some y => some (mergeJ op x y).1

theorem mergeKV_nil (op : MergeOp) (a : KV) : mergeKV op a .nil = (a, none) := by rw [mergeKV]

theorem mergeKV_get (op : MergeOp) (a b : KV) (hw : WFKV b) (he : (mergeKV op a b).2 = none) (j : Str) :
    (mergeKV op a b).1.get j = levelMerge op (a.get j) (b.get j) := by
  induction b using KV.rec (motive_1 := fun _ => True) generalizing a with
  | dict | list | str => trivial
  | nil => simp [mergeKV_nil, KV.get, levelMerge]
  | cons k v rest _ ih =>
    simp only [WFKV] at hw
    obtain ⟨hk, _, hr⟩ := hw
    rw [mergeKV.eq_def] at he ⊢
    dsimp only at he ⊢
    cases hg : a.get k with
    | none =>
      simp only [hg] at he ⊢
      rw [ih _ hr (by cases op <;> exact he)]
      by_cases h : j = k
      · subst h
        rw [hk, hg]
        cases op <;> simp [levelMerge, KV.get, KV.get_set, hg]
      · rw [show (KV.cons k v rest).get j = rest.get j by simp [KV.get, Ne.symm h]]
        cases op <;> simp [KV.get_set, h]
    | some ak =>
      simp only [hg] at he ⊢
      cases hm : mergeJ op ak v with
      | mk ak' e =>
        cases e with
        | some e => simp [hm] at he
        | none =>
          simp only [hm] at he ⊢
          rw [ih _ hr he]
          by_cases h : j = k
          · subst h
            rw [hk, hg]
            simp [levelMerge, KV.get, KV.get_set, hm]
          · rw [show (KV.cons k v rest).get j = rest.get j by simp [KV.get, Ne.symm h]]
            simp [KV.get_set, h]

theorem mergeJ_dict (op : MergeOp) (a b : KV) :
    mergeJ op (.dict a) (.dict b) = (.dict (mergeKV op a b).1, (mergeKV op a b).2) := by
  rw [mergeJ]

theorem mergeJ_list (op : MergeOp) (x : J) (ys : List Str) :
    mergeJ op x (.list ys) = match leafMerge op x (.list ys) with | .ok r => (r, none) | .error e => (x, some e) := by
  rw [mergeJ]; rfl

theorem mergeJ_str (op : MergeOp) (x : J) (s : Str) :
    mergeJ op x (.str s) = match leafMerge op x (.str s) with | .ok r => (r, none) | .error e => (x, some e) := by
  rw [mergeJ]; rfl

/-- what the two arguments of a merge must satisfy -/
def Mergeable : MergeOp → J → J → Prop
  | .override => Overridable
  | _ => Compatible

theorem Mergeable.get {op : MergeOp} {a b : KV} (h : Mergeable op (.dict a) (.dict b)) {k : Str} {x y : J}
    (hx : a.get k = some x) (hy : b.get k = some y) : Mergeable op x y := by
  have key : ∀ ks, valueAt (k :: ks) (.dict a) = valueAt ks x ∧ valueAt (k :: ks) (.dict b) = valueAt ks y := by
    intro ks; simp [valueAt, hx, hy]
  cases op
  all_goals
    intro ks u v hu hv
    exact h (k :: ks) u v ((key ks).1.trans hu) ((key ks).2.trans hv)

/-- the leaf case of a merge never fails -/
theorem Mergeable.cases {op : MergeOp} {x y : J} (h : Mergeable op x y) :
    (∃ a b, x = .dict a ∧ y = .dict b) ∨
      (¬ IsDict y ∧ (op = .override ∨ ∃ xs ys, x = .list xs ∧ y = .list ys)) := by
  by_cases hy : IsDict y
  · obtain ⟨b, rfl⟩ := hy
    have hx : IsDict x := by
      cases op
      case override => exact h [] x (.dict b) rfl rfl ⟨b, rfl⟩
      all_goals
        rcases h [] x (.dict b) rfl rfl with ⟨hx, _⟩ | ⟨_, _, _, h2⟩
        · exact hx
        · cases h2
    obtain ⟨a, rfl⟩ := hx
    exact Or.inl ⟨a, b, rfl, rfl⟩
  · refine Or.inr ⟨hy, ?_⟩
    cases op
    case override => exact Or.inl rfl
    all_goals
      rcases h [] x y rfl rfl with ⟨_, h2⟩ | h2
      · exact absurd h2 hy
      · exact Or.inr h2

theorem mergeJ_leaf {op : MergeOp} {x y : J} (hy : ¬ IsDict y)
    (h : op = .override ∨ ∃ xs ys, x = .list xs ∧ y = .list ys) :
    ∃ r, leafMerge op x y = .ok r ∧ mergeJ op x y = (r, none) := by
  cases y with
  | dict b => exact absurd ⟨b, rfl⟩ hy
  | list ys =>
    rw [mergeJ]
    rcases h with rfl | ⟨xs, ys, rfl, h⟩
    · exact ⟨_, rfl, rfl⟩
    · cases h; cases op <;> exact ⟨_, rfl, rfl⟩
  | str s =>
    rw [mergeJ]
    rcases h with rfl | ⟨xs, ys, rfl, h⟩
    · exact ⟨_, rfl, rfl⟩
    · cases h

mutual
theorem mergeJ_noError (op : MergeOp) (x : J) : (y : J) → WF y → Mergeable op x y → (mergeJ op x y).2 = none
  | .dict b, hw, h => by
    rcases h.cases with ⟨a, b', rfl, hb⟩ | ⟨hy, _⟩
    · cases hb
      rw [mergeJ_dict]
      exact mergeKV_noError op a b (by simpa [WF] using hw) (fun k x y hx hy => h.get hx hy)
    · exact absurd ⟨b, rfl⟩ hy
  | .list ys, _, h => by
    rcases h.cases with ⟨a, b', rfl, hb⟩ | ⟨hy, h⟩
    · cases hb
    · obtain ⟨r, _, hr⟩ := mergeJ_leaf hy h; rw [hr]
  | .str s, _, h => by
    rcases h.cases with ⟨a, b', rfl, hb⟩ | ⟨hy, h⟩
    · cases hb
    · obtain ⟨r, _, hr⟩ := mergeJ_leaf hy h; rw [hr]
theorem mergeKV_noError (op : MergeOp) (a : KV) : (b : KV) → WFKV b →
    (∀ k x y, a.get k = some x → b.get k = some y → Mergeable op x y) → (mergeKV op a b).2 = none
  | .nil, _, _ => by rw [mergeKV]
  | .cons k v rest, hw, h => by
    simp only [WFKV] at hw
    obtain ⟨hk, hv, hr⟩ := hw
    have hrest : ∀ a', (∀ j, j ≠ k → a'.get j = a.get j) → (mergeKV op a' rest).2 = none := by
      intro a' ha'
      refine mergeKV_noError op a' rest hr ?_
      intro j x y hx hy
      have hj : j ≠ k := by rintro rfl; rw [hk] at hy; cases hy
      exact h j x y (by rw [← ha' j hj, hx]) (by simp [KV.get, Ne.symm hj, hy])
    rw [mergeKV.eq_def]
    dsimp only
    cases hg : a.get k with
    | none =>
      simp only
      apply hrest
      intro j hj
      cases op <;> simp [KV.get_set, hj]
    | some ak =>
      have h1 := mergeJ_noError op ak v hv (h k ak v hg (by simp [KV.get]))
      cases hm : mergeJ op ak v with
      | mk ak' e =>
        rw [hm] at h1
        simp only at h1
        subst h1
        simp only [hm]
        apply hrest
        intro j hj
        simp [KV.get_set, hj]
end

theorem Spec.WFKV.get {b : KV} {k : Str} {y : J} (h : WFKV b) (hy : b.get k = some y) : WF y := by
  induction b using KV.rec (motive_1 := fun _ => True) with
  | dict | list | str => trivial
  | nil => simp [KV.get] at hy
  | cons k' v r _ ih =>
    simp only [WFKV] at h
    by_cases hk : k' = k
    · simp [KV.get, hk] at hy; subst hy; exact h.2.1
    · simp [KV.get, hk] at hy; exact ih h.2.2 hy

/-- following `ks` in `y` reaches a value that is not a dictionary -/
def HitsLeaf (ks : List Str) (y : J) : Prop := ∃ pre post z, ks = pre ++ post ∧ valueAt pre y = some z ∧ ¬ IsDict z

/-- how the values at a path before, in the argument and after a merge are related -/
def AtPath (op : MergeOp) (hits : Prop) : Option J → Option J → Option J → Prop
  | u, none, r => (op = .override ∧ hits ∧ r = none) ∨ (¬ (op = .override ∧ hits) ∧ r = u)
  | none, some v, r => (op = .remove ∧ r = none) ∨ (op ≠ .remove ∧ r = some v)
  | some u, some v, r => Mergeable op u v ∧ WF v ∧ r = some (mergeJ op u v).1

theorem hitsLeaf_cons {k : Str} {ks : List Str} {b : KV} {z : J} (hz : b.get k = some z) :
    HitsLeaf (k :: ks) (.dict b) ↔ HitsLeaf ks z := by
  constructor
  · rintro ⟨pre, post, w, h1, h2, h3⟩
    cases pre with
    | nil => cases h2; exact absurd ⟨b, rfl⟩ h3
    | cons k' pre =>
      cases h1
      simp only [valueAt, hz, Option.bind_some] at h2
      exact ⟨pre, post, w, rfl, h2, h3⟩
  · rintro ⟨pre, post, w, rfl, h2, h3⟩
    exact ⟨k :: pre, post, w, rfl, by simp [valueAt, hz, h2], h3⟩

theorem not_hitsLeaf {k : Str} {ks : List Str} {b : KV} (hz : b.get k = none) : ¬ HitsLeaf (k :: ks) (.dict b) := by
  rintro ⟨pre, post, w, h1, h2, h3⟩
  cases pre with
  | nil => cases h2; exact h3 ⟨b, rfl⟩
  | cons k' pre => cases h1; simp [valueAt, hz] at h2

/-- the value at a path after a merge -/
theorem mergeJ_valueAt (op : MergeOp) (ks : List Str) (x y : J) (hw : WF y) (h : Mergeable op x y) :
    AtPath op (HitsLeaf ks y) (valueAt ks x) (valueAt ks y) (valueAt ks (mergeJ op x y).1) := by
  induction ks generalizing x y with
  | nil => exact ⟨h, hw, rfl⟩
  | cons k ks ih =>
    rcases h.cases with ⟨a, b, rfl, rfl⟩ | ⟨hy, h'⟩
    · rw [mergeJ_dict]
      have hwb : WFKV b := by simpa [WF] using hw
      have he := mergeJ_noError op _ _ hw h
      rw [mergeJ_dict] at he
      have hg := mergeKV_get op a b hwb he k
      have hva : ∀ d, valueAt (k :: ks) (.dict d) = (d.get k).bind (valueAt ks) := fun _ => rfl
      rw [hva, hva, hva, hg]
      cases hb : b.get k with
      | none =>
        have hno := not_hitsLeaf (ks := ks) hb
        exact Or.inr ⟨fun h => hno h.2, by cases a.get k <;> rfl⟩
      | some v =>
        rw [hitsLeaf_cons hb]
        cases ha : a.get k with
        | some u => exact ih u v (hwb.get hb) (h.get ha hb)
        | none =>
          simp only [levelMerge, Option.bind_none, Option.bind_some]
          cases hv : valueAt ks v with
          | none =>
            simp only [AtPath]
            by_cases hc : op = .override ∧ HitsLeaf ks v
            · exact Or.inl ⟨hc.1, hc.2, by rw [hc.1]; simp [hv]⟩
            · exact Or.inr ⟨hc, by cases op <;> simp [hv]⟩
          | some w => 
            simp only [AtPath]
            cases op <;> simp [hv]
    · obtain ⟨r, hr, hm⟩ := mergeJ_leaf hy h'
      rw [hm]
      have hvy : valueAt (k :: ks) y = none := by
        cases y with
        | dict b => exact absurd ⟨b, rfl⟩ hy
        | list => rfl
        | str => rfl
      rw [hvy]
      by_cases hop : op = .override
      · subst hop
        simp only [leafMerge, Except.ok.injEq] at hr
        subst hr
        exact Or.inl ⟨rfl, ⟨[], k :: ks, y, rfl, rfl, hy⟩, hvy⟩
      · refine Or.inr ⟨fun h => hop h.1, ?_⟩
        obtain ⟨xs, ys, rfl, rfl⟩ := h'.resolve_left hop
        cases op
        · simp only [leafMerge, plusEq, Except.ok.injEq] at hr; subst hr; simp [valueAt]
        · simp only [leafMerge, minusEq, Except.ok.injEq] at hr; subst hr; simp [valueAt]
        · exact absurd rfl hop

/-! ## overriding twice -/

theorem mergeKV_stable (op : MergeOp) (a : KV) : (b : KV) →
    (∀ k y, b.get k = some y → ∃ x, a.get k = some x ∧ mergeJ op x y = (x, none)) → WFKV b → mergeKV op a b = (a, none)
  | .nil, _, _ => by rw [mergeKV]
  | .cons k v rest, h, hw => by
    simp only [WFKV] at hw
    obtain ⟨x, hx, hm⟩ := h k v (by simp [KV.get])
    rw [mergeKV.eq_def]
    simp only [hx, hm, KV.set_self hx]
    refine mergeKV_stable op a rest ?_ hw.2.2
    intro j y hy
    have hj : j ≠ k := by rintro rfl; rw [hw.1] at hy; cases hy
    exact h j y (by simp [KV.get, Ne.symm hj, hy])

mutual
theorem override_self : (y : J) → WF y → mergeJ .override y y = (y, none)
  | .dict b, hw => by
    rw [mergeJ_dict, mergeKV_stable _ b b (fun k v hv => ⟨v, hv, override_self_get b (by simpa [WF] using hw) k v hv⟩)
      (by simpa [WF] using hw)]
  | .list ys, _ => by rw [mergeJ]; rfl
  | .str s, _ => by rw [mergeJ]; rfl
theorem override_self_get : (b : KV) → WFKV b → ∀ k v, b.get k = some v → mergeJ .override v v = (v, none)
  | .nil, _ => by intro k v h; simp [KV.get] at h
  | .cons k' v' r, hw => by
    intro k v h
    simp only [WFKV] at hw
    by_cases hk : k' = k
    · simp [KV.get, hk] at h; subst h; exact override_self v' hw.2.1
    · simp [KV.get, hk] at h; exact override_self_get r hw.2.2 k v h
end

mutual
theorem override_twice : (y : J) → WF y → ∀ x, Overridable x y →
    mergeJ .override (mergeJ .override x y).1 y = ((mergeJ .override x y).1, none)
  | .dict b, hw => by
    intro x h
    have hwb : WFKV b := by simpa [WF] using hw
    rcases Mergeable.cases (op := .override) h with ⟨a, b', rfl, hb⟩ | ⟨hy, _⟩
    · cases hb
      have he := mergeJ_noError .override _ _ hw h
      rw [mergeJ_dict] at he ⊢
      rw [mergeJ_dict, mergeKV_stable _ _ b ?_ hwb]
      intro k v hv
      have hg := mergeKV_get .override a b hwb he k
      rw [hv] at hg
      cases ha : a.get k with
      | none =>
        rw [ha] at hg
        exact ⟨v, hg, override_self_get b hwb k v hv⟩
      | some u =>
        rw [ha] at hg
        exact ⟨_, hg, override_twice_get b hwb k v hv u (Mergeable.get (op := .override) h ha hv)⟩
    · exact absurd ⟨b, rfl⟩ hy
  | .list ys, _ => by intro x _; rw [mergeJ, mergeJ]; rfl
  | .str s, _ => by intro x _; rw [mergeJ, mergeJ]; rfl
theorem override_twice_get : (b : KV) → WFKV b → ∀ k v, b.get k = some v → ∀ x, Overridable x v →
    mergeJ .override (mergeJ .override x v).1 v = ((mergeJ .override x v).1, none)
  | .nil, _ => by intro k v h; simp [KV.get] at h
  | .cons k' v' r, hw => by
    intro k v h
    simp only [WFKV] at hw
    by_cases hk : k' = k
    · simp [KV.get, hk] at h; subst h; exact override_twice v' hw.2.1
    · simp [KV.get, hk] at h; exact override_twice_get r hw.2.2 k v h
end

/-! ## reading -/

theorem getKeys_nil_dict (ks : List Str) : getKeys ks J.empty = .ok J.empty := by
  induction ks with
  | nil => rfl
  | cons k ks ih => exact ih

theorem getKeys_some {ks : List Str} {db v : J} (h : valueAt ks db = some v) : getKeys ks db = .ok v := by
  induction ks generalizing db with
  | nil => cases h; rfl
  | cons k ks ih =>
    cases db with
    | dict d =>
      simp only [valueAt] at h
      cases hk : d.get k with
      | none => simp [hk] at h
      | some w => simp only [hk, Option.bind_some] at h; simp only [getKeys, hk, Option.getD_some]; exact ih h
    | list => cases h
    | str => cases h

theorem getKeys_leaf {ks : List Str} {db : J} (h : RunsThroughLeaf ks db) : getKeys ks db = .error .attributeError := by
  obtain ⟨pre, k, post, x, rfl, hx, hd⟩ := h
  induction pre generalizing db with
  | nil =>
    cases hx
    cases x with
    | dict d => exact absurd ⟨d, rfl⟩ hd
    | list => rfl
    | str => rfl
  | cons k' pre ih =>
    cases db with
    | dict d =>
      simp only [valueAt] at hx
      cases hk : d.get k' with
      | none => simp [hk] at hx
      | some w =>
        simp only [hk, Option.bind_some] at hx
        simp only [List.cons_append, getKeys, hk, Option.getD_some]
        exact ih hx
    | list => cases hx
    | str => cases hx

theorem getKeys_none {ks : List Str} {db : J} (h : valueAt ks db = none) (hl : ¬ RunsThroughLeaf ks db) :
    getKeys ks db = .ok J.empty := by
  induction ks generalizing db with
  | nil => cases h
  | cons k ks ih =>
    cases db with
    | dict d =>
      simp only [valueAt] at h
      cases hk : d.get k with
      | none => simp only [getKeys, hk, Option.getD_none]; exact getKeys_nil_dict ks
      | some w =>
        simp only [hk, Option.bind_some] at h
        simp only [getKeys, hk, Option.getD_some]
        refine ih h ?_
        rintro ⟨pre, k', post, x, rfl, h2, h3⟩
        exact hl ⟨k :: pre, k', post, x, rfl, by simp [valueAt, hk, h2], h3⟩
    | list xs => exact absurd ⟨[], k, ks, _, rfl, rfl, by rintro ⟨d, h⟩; cases h⟩ hl
    | str xs => exact absurd ⟨[], k, ks, _, rfl, rfl, by rintro ⟨d, h⟩; cases h⟩ hl

end Oelint

import Verif.Spec.ConstHeap
import Verif.Lemmas.Constants
/-! Merging on the heap does what merging of values does. -/
set_option linter.unusedSectionVars false
set_option linter.unusedSimpArgs false
namespace Oelint
open Spec

/-! ## frames -/

mutual
theorem Stores.frame {h h' : Heap} : (v : HVal) → (j : J) → (f : List Ref) → Stores h v j f → (∀ r ∈ f, h'[r]? = h[r]?) → Stores h' v j f
  | v, .str s, f, hs, _ => by
    simp only [Stores] at hs ⊢; exact hs
  | v, .list xs, f, hs, hf => by
    simp only [Stores] at hs ⊢
    obtain ⟨r, rfl, h1, rfl⟩ := hs
    exact ⟨r, rfl, by rw [hf r (by simp), h1], rfl⟩
  | v, .dict kv, f, hs, hf => by
    simp only [Stores] at hs ⊢
    obtain ⟨r, es, f1, rfl, h1, h2, rfl⟩ := hs
    exact ⟨r, es, f1, rfl, by rw [hf r (by simp), h1], StoresKV.frame es kv f1 h2 (fun x hx => hf x (by simp [hx])), rfl⟩
theorem StoresKV.frame {h h' : Heap} : (es : List (Str × HVal)) → (kv : KV) → (f : List Ref) → StoresKV h es kv f →
    (∀ r ∈ f, h'[r]? = h[r]?) → StoresKV h' es kv f
  | es, .nil, f, hs, _ => by simp only [StoresKV] at hs ⊢; exact hs
  | es, .cons k j kv, f, hs, hf => by
    simp only [StoresKV] at hs ⊢
    obtain ⟨v, es', f1, f2, rfl, h1, h2, rfl⟩ := hs
    exact ⟨v, es', f1, f2, rfl, Stores.frame v j f1 h1 (fun x hx => hf x (by simp [hx])),
      StoresKV.frame es' kv f2 h2 (fun x hx => hf x (by simp [hx])), rfl⟩
end

mutual
theorem Stores.bound {h : Heap} : (v : HVal) → (j : J) → (f : List Ref) → Stores h v j f → ∀ r ∈ f, r < h.length
  | v, .str s, f, hs => by
    simp only [Stores] at hs; rw [hs.2]; simp
  | v, .list xs, f, hs => by
    simp only [Stores] at hs
    obtain ⟨r, rfl, h1, rfl⟩ := hs
    intro x hx
    rw [List.mem_singleton] at hx
    subst hx
    exact (List.getElem?_eq_some_iff.1 h1).1
  | v, .dict kv, f, hs => by
    simp only [Stores] at hs
    obtain ⟨r, es, f1, rfl, h1, h2, rfl⟩ := hs
    intro x hx
    rcases List.mem_cons.1 hx with rfl | hx
    · exact (List.getElem?_eq_some_iff.1 h1).1
    · exact StoresKV.bound es kv f1 h2 x hx
theorem StoresKV.bound {h : Heap} : (es : List (Str × HVal)) → (kv : KV) → (f : List Ref) → StoresKV h es kv f → ∀ r ∈ f, r < h.length
  | es, .nil, f, hs => by simp only [StoresKV] at hs; rw [hs.2]; simp
  | es, .cons k j kv, f, hs => by
    simp only [StoresKV] at hs
    obtain ⟨v, es', f1, f2, rfl, h1, h2, rfl⟩ := hs
    intro x hx
    rcases List.mem_append.1 hx with hx | hx
    · exact Stores.bound v j f1 h1 x hx
    · exact StoresKV.bound es' kv f2 h2 x hx
end

/-- the shape of a value on the heap -/
theorem Stores.dict? {h : Heap} {v : HVal} {j : J} {f : List Ref} (hs : Stores h v j f) :
    (∃ r es kv f1, v = .ref r ∧ h[r]? = some (.dict es) ∧ j = .dict kv ∧ StoresKV h es kv f1 ∧ f = r :: f1 ∧ v.dict? h = some (r, es)) ∨
    (¬ IsDict j ∧ v.dict? h = none) := by
  cases j with
  | str s =>
    simp only [Stores] at hs
    right
    refine ⟨(by rintro ⟨d, hd⟩; cases hd), ?_⟩
    rw [hs.1]; rfl
  | list xs =>
    simp only [Stores] at hs
    obtain ⟨r, rfl, h1, rfl⟩ := hs
    right
    exact ⟨(by rintro ⟨d, hd⟩; cases hd), by simp [HVal.dict?, h1]⟩
  | dict kv =>
    simp only [Stores] at hs
    obtain ⟨r, es, f1, rfl, h1, h2, rfl⟩ := hs
    left
    exact ⟨r, es, kv, f1, rfl, h1, rfl, h2, rfl, by simp [HVal.dict?, h1]⟩

theorem StoresKV.keys {h : Heap} : {es : List (Str × HVal)} → {kv : KV} → {f : List Ref} → StoresKV h es kv f → es.map (·.1) = kv.keys
  | es, .nil, f, hs => by simp only [StoresKV] at hs; rw [hs.1]; rfl
  | es, .cons k j kv, f, hs => by
    simp only [StoresKV] at hs
    obtain ⟨v, es', f1, f2, rfl, h1, h2, rfl⟩ := hs
    simp only [List.map_cons, KV.keys, StoresKV.keys h2]

/-! ## dictionaries entry by entry -/

/-- the object `ra` is a dictionary whose entry at each key stores the value there, using the objects `φ k` -/
structure Level (h : Heap) (ra : Ref) (es : List (Str × HVal)) (kv : KV) (φ : Str → List Ref) : Prop where
  obj : h[ra]? = some (.dict es)
  keys : es.map (·.1) = kv.keys
  entry : ∀ k j, kv.get k = some j → ∃ v, dget k es = some v ∧ Stores h v j (φ k)

theorem KV.get_none {k : Str} : {kv : KV} → kv.get k = none ↔ k ∉ kv.keys
  | .nil => by simp [KV.get, KV.keys]
  | .cons k' v r => by
    by_cases hk : k' = k
    · subst hk; simp [KV.get, KV.keys]
    · simp [KV.get, KV.keys, hk, Ne.symm hk, KV.get_none (kv := r)]

theorem WFKV.nodup : {kv : KV} → WFKV kv → kv.keys.Nodup
  | .nil, _ => List.nodup_nil
  | .cons k v r, h => by
    simp only [WFKV] at h
    exact List.nodup_cons.2 ⟨KV.get_none.1 h.1, WFKV.nodup h.2.2⟩

theorem WFKV.get {k : Str} {j : J} : {kv : KV} → WFKV kv → kv.get k = some j → WF j
  | .nil, _, h => by simp [KV.get] at h
  | .cons k' v r, hw, h => by
    simp only [WFKV] at hw
    by_cases hk : k' = k
    · subst hk; simp [KV.get] at h; rw [← h]; exact hw.2.1
    · simp [KV.get, hk] at h; exact WFKV.get hw.2.2 h

/-- the objects of an entry of a dictionary -/
theorem storesKV_split {h : Heap} : {es : List (Str × HVal)} → {kv : KV} → {f : List Ref} → StoresKV h es kv f → WFKV kv → f.Nodup →
    ∃ φ : Str → List Ref, (∀ k j, kv.get k = some j → ∃ v, dget k es = some v ∧ Stores h v j (φ k)) ∧
      (∀ k, ∀ r ∈ φ k, r ∈ f) ∧ (∀ k, (φ k).Nodup) ∧ ∀ k k', k ≠ k' → ∀ r ∈ φ k, r ∉ φ k'
  | es, .nil, f, hs, _, _ => ⟨fun _ => [], by simp [KV.get], by simp, by simp, by simp⟩
  | es, .cons k0 j0 kv, f, hs, hw, hn => by
    simp only [StoresKV] at hs
    obtain ⟨v, es', f1, f2, rfl, h1, h2, rfl⟩ := hs
    simp only [WFKV] at hw
    rw [List.nodup_append] at hn
    obtain ⟨φ, p1, p2, p3, p4⟩ := storesKV_split h2 hw.2.2 hn.2.1
    refine ⟨fun k => if k = k0 then f1 else φ k, ?_, ?_, ?_, ?_⟩
    · intro k j hk
      by_cases e : k = k0
      · subst e
        simp [KV.get] at hk
        subst hk
        exact ⟨v, by simp [dget], by simpa using h1⟩
      · simp [KV.get, Ne.symm e] at hk
        obtain ⟨w, q1, q2⟩ := p1 k j hk
        exact ⟨w, by simp [dget, Ne.symm e, q1], by simpa [e] using q2⟩
    · intro k r hr
      by_cases e : k = k0
      · simp [e] at hr; simp [hr]
      · simp [e] at hr; simp [p2 k r hr]
    · intro k
      by_cases e : k = k0
      · simp [e, hn.1]
      · simp [e, p3 k]
    · intro k k' hne r hr
      by_cases e : k = k0
      · simp [e] at hr
        have e' : k' ≠ k0 := fun h => hne (e.trans h.symm)
        simp only [e', if_false]
        intro hr'
        exact hn.2.2 r hr r (p2 k' r hr') rfl
      · simp [e] at hr
        by_cases e' : k' = k0
        · simp only [e', if_true]
          intro hr'
          exact hn.2.2 r hr' r (p2 k r hr) rfl
        · simp only [e', if_false]
          exact p4 k k' hne r hr

theorem storesKV_join {h : Heap} : {es : List (Str × HVal)} → {kv : KV} → (φ : Str → List Ref) → es.map (·.1) = kv.keys → kv.keys.Nodup →
    (∀ k j, kv.get k = some j → ∃ v, dget k es = some v ∧ Stores h v j (φ k)) →
    ∃ f, StoresKV h es kv f ∧ (∀ r ∈ f, ∃ k ∈ kv.keys, r ∈ φ k) ∧
      ((∀ k, (φ k).Nodup) → (∀ k k', k ≠ k' → ∀ r ∈ φ k, r ∉ φ k') → f.Nodup)
  | es, .nil, φ, hk, _, _ => ⟨[], by simp only [StoresKV]; simpa [KV.keys] using hk, by simp, by simp⟩
  | [], .cons k j kv, φ, hk, _, _ => by simp [KV.keys] at hk
  | (k', v) :: es, .cons k j kv, φ, hk, hn, he => by
    simp only [List.map_cons, KV.keys, List.cons.injEq] at hk
    obtain ⟨rfl, hk⟩ := hk
    simp only [KV.keys, List.nodup_cons] at hn
    obtain ⟨w, q1, q2⟩ := he k' j (by simp [KV.get])
    simp [dget] at q1
    subst q1
    have he' : ∀ k j, kv.get k = some j → ∃ v, dget k es = some v ∧ Stores h v j (φ k) := by
      intro k2 j2 hg
      have hne : k' ≠ k2 := by
        rintro rfl
        rw [KV.get_none.2 hn.1] at hg; cases hg
      obtain ⟨u, r1, r2⟩ := he k2 j2 (by simpa [KV.get, hne] using hg)
      exact ⟨u, by simpa [dget, hne] using r1, r2⟩
    obtain ⟨f, g1, g2, g3⟩ := storesKV_join φ hk hn.2 he'
    refine ⟨φ k' ++ f, ?_, ?_, ?_⟩
    · simp only [StoresKV]
      exact ⟨v, es, φ k', f, rfl, q2, g1, rfl⟩
    · intro r hr
      rcases List.mem_append.1 hr with hr | hr
      · exact ⟨k', by simp [KV.keys], hr⟩
      · obtain ⟨k2, hk2, hr⟩ := g2 r hr
        exact ⟨k2, by simp [KV.keys, hk2], hr⟩
    · intro n1 n2
      rw [List.nodup_append]
      refine ⟨n1 k', g3 n1 n2, fun a ha b hb e => ?_⟩
      subst e
      obtain ⟨k2, hk2, hr⟩ := g2 a hb
      exact n2 k' k2 (fun e => hn.1 (e ▸ hk2)) a ha hr


/-! ## one item -/

theorem KV.set_keys (k : Str) (j : J) : (kv : KV) → (kv.set k j).keys = if k ∈ kv.keys then kv.keys else kv.keys ++ [k]
  | .nil => by simp [KV.set, KV.keys]
  | .cons k' v r => by
    by_cases hk : k' = k
    · subst hk; simp [KV.set, KV.keys]
    · simp only [KV.set, beq_iff_eq, hk, if_false, KV.keys, List.mem_cons, Ne.symm hk, false_or, KV.set_keys k j r]
      split <;> rfl

theorem KV.set_keys_nodup {k : Str} {j : J} {kv : KV} (h : kv.keys.Nodup) : (kv.set k j).keys.Nodup := by
  rw [KV.set_keys]; split
  · exact h
  · rename_i hk
    rw [List.nodup_append]
    refine ⟨h, by simp, ?_⟩
    intro a ha b hb
    simp at hb; subst hb; rintro rfl; exact hk ha

theorem dset_self {α} {k : Str} {v : α} {d : List (Str × α)} (h : dget k d = some v) : dset k v d = d := by
  induction d with
  | nil => simp [dget] at h
  | cons kv t ih =>
    obtain ⟨k', v'⟩ := kv
    by_cases hk : k' = k
    · subst hk; simp [dget] at h; simp [dset, h]
    · simp [dget, hk] at h; simp [dset, hk, ih h]

/-- all objects belong to exactly one entry -/
def AllOwned (φ : Str → List Ref) : Prop := (∀ k, (φ k).Nodup) ∧ ∀ k k', k ≠ k' → ∀ r ∈ φ k, r ∉ φ k'

/-- a dictionary of the database in the middle of a merge: the entries at the keys still to come are untouched and share nothing with
other entries or the caller -/
structure LevelOk (h : Heap) (ra : Ref) (es : List (Str × HVal)) (kv : KV) (φ : Str → List Ref) (C : Ref → Prop) (rem : List Str) : Prop
    extends Level h ra es kv φ where
  nodup : kv.keys.Nodup
  bound : ∀ k, ∀ r ∈ φ k, r < h.length
  notIn : ∀ k, ra ∉ φ k
  notC : ¬ C ra
  owned : ∀ k ∈ rem, ∀ j, kv.get k = some j → WF j ∧ (φ k).Nodup ∧ (∀ r ∈ φ k, ¬ C r) ∧ ∀ k', k' ≠ k → ∀ r ∈ φ k, r ∉ φ k'

/-- `φ` with another list at `k` -/
def upd (φ : Str → List Ref) (k : Str) (f : List Ref) : Str → List Ref := fun k' => if k' = k then f else φ k'

theorem upd_same (φ : Str → List Ref) (k : Str) (f : List Ref) : upd φ k f k = f := by simp [upd]
theorem upd_ne {φ : Str → List Ref} {k k' : Str} {f : List Ref} (h : k' ≠ k) : upd φ k f k' = φ k' := by simp [upd, h]

theorem LevelOk.step {h h' : Heap} {ra : Ref} {es : List (Str × HVal)} {kv : KV} {φ : Str → List Ref} {C : Ref → Prop} {k : Str} {rem : List Str}
    (hL : LevelOk h ra es kv φ C (k :: rem)) (hk : k ∉ rem) {w : HVal} {j : J} {f : List Ref}
    (hlen : h.length ≤ h'.length) (hobj : h'[ra]? = some (.dict (dset k w es))) (hw : Stores h' w j f)
    (hframe : ∀ r, r < h.length → r ≠ ra → (kv.get k ≠ none → r ∉ φ k) → h'[r]? = h[r]?)
    (hf : ∀ r ∈ f, r ∈ φ k ∧ kv.get k ≠ none ∨ C r ∨ h.length ≤ r) :
    LevelOk h' ra (dset k w es) (kv.set k j) (upd φ k f) C rem := by
  have hraL : ra < h.length := (List.getElem?_eq_some_iff.1 hL.obj).1
  have dis : ∀ k', k' ≠ k → kv.get k ≠ none → ∀ r ∈ φ k', r ∉ φ k := by
    intro k' hne hg r hr hr'
    obtain ⟨j0, hj0⟩ := Option.ne_none_iff_exists'.1 hg
    exact (hL.owned k (by simp) j0 hj0).2.2.2 k' hne r hr' hr
  refine ⟨⟨hobj, ?_, ?_⟩, KV.set_keys_nodup hL.nodup, ?_, ?_, hL.notC, ?_⟩
  · rw [dset_keys, KV.set_keys, hL.keys]
  · intro k' j' hg
    rw [KV.get_set] at hg
    by_cases e : k' = k
    · subst e
      rw [if_pos rfl] at hg
      cases hg
      exact ⟨w, dget_dset_same _ _ _, by rw [upd_same]; exact hw⟩
    · rw [if_neg e] at hg
      obtain ⟨v, q1, q2⟩ := hL.entry k' j' hg
      refine ⟨v, by rw [dget_dset_ne _ _ e]; exact q1, ?_⟩
      rw [upd_ne e]
      refine Stores.frame v j' _ q2 (fun r hr => hframe r (hL.bound k' r hr) ?_ ?_)
      · rintro rfl; exact hL.notIn k' hr
      · exact fun hg2 => dis k' e hg2 r hr
  · intro k' r hr
    by_cases e : k' = k
    · subst e; rw [upd_same] at hr; exact Stores.bound w j f hw r hr
    · rw [upd_ne e] at hr; exact Nat.lt_of_lt_of_le (hL.bound k' r hr) hlen
  · intro k' hr
    by_cases e : k' = k
    · subst e; rw [upd_same] at hr
      rcases hf ra hr with ⟨h1, _⟩ | h1 | h1
      · exact hL.notIn _ h1
      · exact hL.notC h1
      · exact Nat.not_lt.2 h1 hraL
    · rw [upd_ne e] at hr; exact hL.notIn k' hr
  · intro k' hk' j' hg
    have e : k' ≠ k := fun e => hk (e ▸ hk')
    rw [KV.get_set, if_neg e] at hg
    obtain ⟨o1, o2, o3, o4⟩ := hL.owned k' (by simp [hk']) j' hg
    rw [upd_ne e]
    refine ⟨o1, o2, o3, fun k2 hne r hr => ?_⟩
    by_cases e2 : k2 = k
    · subst e2
      rw [upd_same]
      intro hr2
      rcases hf r hr2 with ⟨h1, _⟩ | h1 | h1
      · exact o4 _ hne r hr h1
      · exact o3 r hr h1
      · exact Nat.not_lt.2 h1 (hL.bound k' r hr)
    · rw [upd_ne e2]; exact o4 k2 hne r hr

/-- what a merge into the value `a` (with the objects `fa`) leaves behind; `own`: the database got no object of the caller;
if no object of the argument (with the objects `fb`) occurs in two places, none of the result does -/
structure Merged (h h' : Heap) (C : Ref → Prop) (a : HVal) (fa : List Ref) (fb : List Ref) (j : J) (own : Prop) : Prop where
  len : h.length ≤ h'.length
  frame : ∀ r, r < h.length → r ∉ fa → h'[r]? = h[r]?
  stores : ∃ f, Stores h' a j f ∧ (∀ r ∈ f, r ∈ fa ∨ C r ∨ h.length ≤ r) ∧ (own → f.Nodup ∧ ∀ r ∈ f, r ∈ fa ∨ h.length ≤ r) ∧
    (fb.Nodup → f.Nodup ∧ ∀ r ∈ f, r ∈ fa ∨ r ∈ fb ∨ h.length ≤ r)

/-- the database gets no object of the caller -/
def Own (op : MergeOp) (db d : J) : Prop := op = .remove ∨ (op = .add ∧ KnownPaths db d)

/-- what one item does to the value of a dictionary -/
def itemMerge (op : MergeOp) (kv : KV) (k : Str) (v : J) : KV × Option PyErr :=
  match kv.get k with
  | none => (if op = .remove then kv else kv.set k v, none)
  | some ak => (kv.set k (mergeJ op ak v).1, (mergeJ op ak v).2)

theorem mergeKV_item (op : MergeOp) (kv : KV) (k : Str) (v : J) (rest : KV) : mergeKV op kv (.cons k v rest) =
    match itemMerge op kv k v with
    | (kv', none) => mergeKV op kv' rest
    | (kv', some e) => (kv', some e) := by
  unfold itemMerge
  cases hg : kv.get k with
  | none =>
    cases op <;> (rw [mergeKV, hg]; first | rfl | (intro h; cases h) | skip) <;> simp
  | some ak =>
    simp only
    cases hm : mergeJ op ak v with
    | mk x e =>
      cases op <;> (rw [mergeKV, hg]) <;> first | (intro h; cases h; done) | (simp only [hm]; cases e <;> rfl)

/-- the step an item makes -/
structure ItemStep (op : MergeOp) (h h' : Heap) (ra : Ref) (es' : List (Str × HVal)) (kv : KV) (φ φ' : Str → List Ref) (C : Ref → Prop) (k : Str)
    (v : J) (fv : List Ref) (rem : List Str) : Prop where
  ok : LevelOk h' ra es' (itemMerge op kv k v).1 φ' C rem
  len : h.length ≤ h'.length
  frame : ∀ r, r < h.length → r ≠ ra → (kv.get k ≠ none → r ∉ φ k) → h'[r]? = h[r]?
  other : ∀ k', k' ≠ k → φ' k' = φ k'
  from_ : ∀ r ∈ φ' k, r ∈ φ k ∨ C r ∨ h.length ≤ r
  own : (op = .remove ∨ op = .add ∧ ∃ w, kv.get k = some w ∧ KnownPaths w v) → AllOwned φ →
    AllOwned φ' ∧ ∀ r ∈ φ' k, r ∈ φ k ∨ h.length ≤ r
  uniq : fv.Nodup → (∀ r ∈ fv, ∀ k', r ∉ φ k') → AllOwned φ → AllOwned φ' ∧ ∀ r ∈ φ' k, r ∈ φ k ∨ r ∈ fv ∨ h.length ≤ r

theorem allOwned_upd' {φ : Str → List Ref} {k : Str} {f : List Ref} {n : Nat} (ho : AllOwned φ) (hb : ∀ k, ∀ r ∈ φ k, r < n) (hn : f.Nodup)
    (hf : ∀ r ∈ f, r ∈ φ k ∨ (∀ k', r ∉ φ k') ∨ n ≤ r) : AllOwned (upd φ k f) := by
  have hd : ∀ k', k' ≠ k → ∀ r ∈ f, r ∉ φ k' := by
    intro k' hne r hr hr'
    rcases hf r hr with h | h | h
    · exact ho.2 k k' (Ne.symm hne) r h hr'
    · exact h k' hr'
    · exact Nat.not_lt.2 h (hb k' r hr')
  refine ⟨fun k' => ?_, fun k1 k2 hne r hr => ?_⟩
  · by_cases e : k' = k
    · subst e; rw [upd_same]; exact hn
    · rw [upd_ne e]; exact ho.1 k'
  · by_cases e : k1 = k
    · subst e
      rw [upd_same] at hr
      rw [upd_ne (Ne.symm hne)]
      exact hd k2 (Ne.symm hne) r hr
    · rw [upd_ne e] at hr
      by_cases e2 : k2 = k
      · subst e2; rw [upd_same]; exact fun hr2 => hd k1 e r hr2 hr
      · rw [upd_ne e2]; exact ho.2 k1 k2 hne r hr

theorem allOwned_upd {φ : Str → List Ref} {k : Str} {f : List Ref} {n : Nat} (ho : AllOwned φ) (hb : ∀ k, ∀ r ∈ φ k, r < n) (hn : f.Nodup)
    (hf : ∀ r ∈ f, r ∈ φ k ∨ n ≤ r) : AllOwned (upd φ k f) :=
  allOwned_upd' ho hb hn (fun r hr => (hf r hr).imp id Or.inr)

theorem step_some {op : MergeOp} {h h' : Heap} {ra : Ref} {es : List (Str × HVal)} {kv : KV} {φ : Str → List Ref} {C : Ref → Prop} {k : Str}
    {rem : List Str} {ak v : J} {fv : List Ref} (hL : LevelOk h ra es kv φ C (k :: rem)) (hk : k ∉ rem) (hg : kv.get k = some ak) {w : HVal} {f : List Ref}
    (hlen : h.length ≤ h'.length) (hobj : h'[ra]? = some (.dict (dset k w es))) (hw : Stores h' w (mergeJ op ak v).1 f)
    (hframe : ∀ r, r < h.length → r ≠ ra → r ∉ φ k → h'[r]? = h[r]?)
    (hf : ∀ r ∈ f, r ∈ φ k ∨ C r ∨ h.length ≤ r)
    (hown : (op = .remove ∨ op = .add ∧ KnownPaths ak v) → f.Nodup ∧ ∀ r ∈ f, r ∈ φ k ∨ h.length ≤ r)
    (huniq : fv.Nodup → f.Nodup ∧ ∀ r ∈ f, r ∈ φ k ∨ r ∈ fv ∨ h.length ≤ r) :
    ItemStep op h h' ra (dset k w es) kv φ (upd φ k f) C k v fv rem := by
  have hne : kv.get k ≠ none := by rw [hg]; exact fun h => by cases h
  refine ⟨?_, hlen, fun r q1 q2 q3 => hframe r q1 q2 (q3 hne), fun k' h => upd_ne h, ?_, ?_, ?_⟩
  · have : (itemMerge op kv k v).1 = kv.set k (mergeJ op ak v).1 := by unfold itemMerge; rw [hg]
    rw [this]
    refine hL.step hk hlen hobj hw (fun r h1 h2 h3 => hframe r h1 h2 (h3 hne)) (fun r hr => ?_)
    rcases hf r hr with h | h
    · exact Or.inl ⟨h, hne⟩
    · exact Or.inr h
  · intro r hr; rw [upd_same] at hr; exact hf r hr
  · intro ho hall
    have ho' : op = .remove ∨ op = .add ∧ KnownPaths ak v := by
      rcases ho with h | ⟨h1, x, h2, h3⟩
      · exact Or.inl h
      · rw [hg] at h2; cases h2; exact Or.inr ⟨h1, h3⟩
    obtain ⟨n1, n2⟩ := hown ho'
    exact ⟨allOwned_upd hall hL.bound n1 n2, fun r hr => by rw [upd_same] at hr; exact n2 r hr⟩
  · intro hfv hdis hall
    obtain ⟨n1, n2⟩ := huniq hfv
    exact ⟨allOwned_upd' hall hL.bound n1 (fun r hr => (n2 r hr).imp id (Or.imp (hdis r) id)), fun r hr => by rw [upd_same] at hr; exact n2 r hr⟩


theorem heap_set_same {h : Heap} {r : Ref} {o : HObj} (hr : r < h.length) : (h.set r o)[r]? = some o := by
  rw [List.getElem?_set_self hr]

theorem heap_set_ne {h : Heap} {r x : Ref} {o : HObj} (hr : x ≠ r) : (h.set r o)[x]? = h[x]? := List.getElem?_set_ne (Ne.symm hr)

theorem elems_stores {h : Heap} {v : HVal} {f : List Ref} : {j : J} → Stores h v j f → v.elems h = (match j with
    | .list xs => xs
    | .dict d => d.keys
    | .str s => s.map ([·]))
  | .str s, hs => by simp only [Stores] at hs; rw [hs.1]; rfl
  | .list xs, hs => by
    simp only [Stores] at hs
    obtain ⟨r, rfl, h1, rfl⟩ := hs
    simp [HVal.elems, h1]
  | .dict kv, hs => by
    simp only [Stores] at hs
    obtain ⟨r, es, f1, rfl, h1, h2, rfl⟩ := hs
    simp [HVal.elems, h1, Oelint.StoresKV.keys h2]

/-- `x in j` -/
def jHas (x : Str) : J → Bool
  | .list xs => xs.contains x
  | .dict d => d.keys.contains x
  | .str s => hasSub x s

theorem has_stores {h : Heap} {v : HVal} {f : List Ref} {j : J} (x : Str) (hs : Stores h v j f) : v.has h x = jHas x j := by
  have he := elems_stores hs
  cases j with
  | str s => simp only [Stores] at hs; rw [hs.1]; rfl
  | list xs =>
    simp only [Stores] at hs
    obtain ⟨r, rfl, h1, rfl⟩ := hs
    rw [HVal.has, he]
    · rfl
    · intro s hs; cases hs
  | dict kv =>
    simp only [Stores] at hs
    obtain ⟨r, es, f1, rfl, h1, h2, rfl⟩ := hs
    rw [HVal.has, he]
    · rfl
    · intro s hs; cases hs

theorem minus_stores {h : Heap} {w v : HVal} {f1 f2 : List Ref} {a b : J} (hw : Stores h w a f1) (hv : Stores h v b f2) :
    J.list ((w.elems h).filter (fun x => !v.has h x)) = minusEq a b := by
  rw [elems_stores hw]
  have : (fun x => !v.has h x) = fun x => !jHas x b := by funext x; rw [has_stores x hv]
  rw [this]
  unfold minusEq
  cases b <;> rfl

theorem Stores.ref_or_str {h : Heap} {v : HVal} {f : List Ref} {j : J} (hs : Stores h v j f) : (∃ s, v = .str s ∧ j = .str s) ∨ ∃ r, v = .ref r := by
  cases j with
  | str s => simp only [Stores] at hs; exact Or.inl ⟨s, hs.1, rfl⟩
  | list xs => simp only [Stores] at hs; obtain ⟨r, rfl, _⟩ := hs; exact Or.inr ⟨r, rfl⟩
  | dict kv => simp only [Stores] at hs; obtain ⟨r, _, _, rfl, _⟩ := hs; exact Or.inr ⟨r, rfl⟩

section item
variable {op : MergeOp} {h : Heap} {ra : Ref} {es : List (Str × HVal)} {kv : KV} {φ : Str → List Ref} {C : Ref → Prop} {k : Str} {rem : List Str}

/-- nothing changes -/
theorem step_same {ak jv : J} {w : HVal} {fv : List Ref} (hL : LevelOk h ra es kv φ C (k :: rem)) (hk : k ∉ rem) (hg : kv.get k = some ak)
    (hd : dget k es = some w) (hw : Stores h w ak (φ k)) (hm : (mergeJ op ak jv).1 = ak) :
    ∃ es' φ', ItemStep op h h ra es' kv φ φ' C k jv fv rem := by
  have hn := (hL.owned k (by simp) ak hg).2.1
  refine ⟨dset k w es, upd φ k (φ k), step_some hL hk hg (Nat.le_refl _) ?_ (by rw [hm]; exact hw) (fun _ _ _ _ => rfl)
    (fun r hr => Or.inl hr) (fun _ => ⟨hn, fun r hr => Or.inl hr⟩) (fun _ => ⟨hn, fun r hr => Or.inl hr⟩)⟩
  rw [dset_self hd, hL.obj]

theorem leaf_spec {ak jv : J} {w v : HVal} {fv : List Ref} (hL : LevelOk h ra es kv φ C (k :: rem)) (hk : k ∉ rem) (hg : kv.get k = some ak)
    (hd : dget k es = some w) (hw : Stores h w ak (φ k)) (hv : Stores h v jv fv) (hC : ∀ r ∈ fv, C r) (hnd : ¬ IsDict jv) :
    ∃ h' es' φ', hLeaf op ra es k w v h = ((mergeJ op ak jv).2, h') ∧ ItemStep op h h' ra es' kv φ φ' C k jv fv rem := by
  have hraL : ra < h.length := (List.getElem?_eq_some_iff.1 hL.obj).1
  have hn := (hL.owned k (by simp) ak hg).2.1
  have hleaf : mergeJ op ak jv = match leafMerge op ak jv with | .ok r => (r, none) | .error e => (ak, some e) := by
    cases jv with
    | dict d => exact absurd ⟨d, rfl⟩ hnd
    | list ys => exact mergeJ_list op ak ys
    | str s => exact mergeJ_str op ak s
  cases op with
  | override =>
    have hm : mergeJ .override ak jv = (jv, none) := by rw [hleaf]; rfl
    refine ⟨_, _, _, by rw [hm]; rfl, step_some hL hk hg (by simp) (heap_set_same hraL) (f := fv) ?_
      (fun r _ h2 _ => heap_set_ne h2) (fun r hr => Or.inr (Or.inl (hC r hr))) (fun h => by rcases h with h | ⟨h, _⟩ <;> cases h)
      (fun hn => ⟨hn, fun r hr => Or.inr (Or.inl hr)⟩)⟩
    rw [hm]
    exact Stores.frame _ _ _ hv (fun r hr => heap_set_ne (fun e => hL.notC (e ▸ hC r hr)))
  | remove =>
    have hm : mergeJ .remove ak jv = (minusEq ak jv, none) := by rw [hleaf]; rfl
    have hx := minus_stores hw hv
    have hne : h.length ≠ ra := fun e => absurd hraL (by rw [← e]; exact Nat.lt_irrefl _)
    refine ⟨_, _, _, by rw [hm]; rfl, step_some hL hk hg (w := .ref h.length) (f := [h.length]) (by simp) ?_ ?_ ?_ (fun r hr => ?_) (fun _ => ⟨by simp, fun r hr => ?_⟩)
      (fun _ => ⟨by simp, fun r hr => ?_⟩)⟩
    · exact heap_set_same (by simp; exact Nat.lt_succ_of_lt hraL)
    · rw [hm]
      rw [← hx]
      simp only [Stores]
      refine ⟨h.length, rfl, ?_, rfl⟩
      rw [heap_set_ne hne]
      simp
    · intro r h1 h2 _
      rw [heap_set_ne h2]
      exact List.getElem?_append_left h1
    · rw [List.mem_singleton] at hr; subst hr; exact Or.inr (Or.inr (Nat.le_refl _))
    · rw [List.mem_singleton] at hr; subst hr; exact Or.inr (Nat.le_refl _)
    · rw [List.mem_singleton] at hr; subst hr; exact Or.inr (Or.inr (Nat.le_refl _))
  | add =>
    cases ak with
    | str s =>
      simp only [Stores] at hw
      obtain ⟨rfl, hφ⟩ := hw
      cases jv with
      | dict d => exact absurd ⟨d, rfl⟩ hnd
      | str t =>
        simp only [Stores] at hv
        obtain ⟨rfl, hfv⟩ := hv
        have hm : mergeJ .add (.str s) (.str t) = (.str (s ++ t), none) := by rw [hleaf]; rfl
        refine ⟨_, _, _, by rw [hm]; rfl, step_some hL hk hg (f := []) (by simp) (heap_set_same hraL) ?_ (fun r _ h2 _ => heap_set_ne h2)
          (fun r hr => by cases hr) (fun _ => ⟨by simp, fun r hr => by cases hr⟩) (fun _ => ⟨by simp, fun r hr => by cases hr⟩)⟩
        rw [hm]; simp [Stores]
      | list ys =>
        have hm : mergeJ .add (.str s) (.list ys) = (.str s, some .typeError) := by rw [hleaf]; rfl
        obtain ⟨es', φ', hst⟩ := step_same hL hk hg hd (by simp [Stores, hφ]) (jv := .list ys) (by rw [hm])
        simp only [Stores] at hv
        obtain ⟨r, rfl, _⟩ := hv
        exact ⟨h, es', φ', by rw [hm]; rfl, hst⟩
    | dict d =>
      have hm : mergeJ .add (.dict d) jv = (.dict d, some .typeError) := by
        rw [hleaf]
        cases jv with
        | dict d => exact absurd ⟨d, rfl⟩ hnd
        | list ys => rfl
        | str s => rfl
      obtain ⟨es', φ', hst⟩ := step_same hL hk hg hd hw (jv := jv) (by rw [hm])
      simp only [Stores] at hw
      obtain ⟨r, es1, f1, rfl, h1, _⟩ := hw
      refine ⟨h, es', φ', ?_, hst⟩
      rw [hm]
      simp only [hLeaf, h1]
    | list xs =>
      simp only [Stores] at hw
      obtain ⟨r, rfl, h1, hφ⟩ := hw
      have hrL : r < h.length := (List.getElem?_eq_some_iff.1 h1).1
      have hm : mergeJ .add (.list xs) jv = (.list (xs ++ v.elems h), none) := by
        rw [hleaf, elems_stores hv]
        cases jv with
        | dict d => exact absurd ⟨d, rfl⟩ hnd
        | list ys => rfl
        | str s => rfl
      have hrra : r ≠ ra := by
        rintro rfl
        exact hL.notIn k (by rw [hφ]; simp)
      refine ⟨h.set r (.list (xs ++ v.elems h)), dset k (.ref r) es, upd φ k [r], ?_, step_some hL hk hg (by simp) ?_ ?_ ?_ (fun x hx => Or.inl (by rw [hφ]; exact hx))
        (fun _ => ⟨by simp, fun x hx => Or.inl (by rw [hφ]; exact hx)⟩) (fun _ => ⟨by simp, fun x hx => Or.inl (by rw [hφ]; exact hx)⟩)⟩
      · rw [hm]
        simp only [hLeaf, h1]
      · rw [heap_set_ne (Ne.symm hrra), hL.obj, dset_self hd]
      · rw [hm]; simp only [Stores]
        exact ⟨r, rfl, heap_set_same hrL, rfl⟩
      · intro x _ _ hx
        rw [hφ] at hx
        exact heap_set_ne (by simpa using hx)

theorem item_spec {rec : HVal → Ref → HM} {v : HVal} {jv : J} {fv : List Ref} (hL : LevelOk h ra es kv φ C (k :: rem)) (hk : k ∉ rem)
    (hv : Stores h v jv fv) (hC : ∀ r ∈ fv, C r)
    (hrec : IsDict jv → ∀ vr, v = .ref vr → ∀ w jw fw, Stores h w jw fw → fw.Nodup → WF jw → (∀ r ∈ fw, ¬ C r) →
      ∃ h', rec w vr h = ((mergeJ op jw jv).2, h') ∧ Merged h h' C w fw fv (mergeJ op jw jv).1 (Own op jw jv)) :
    ∃ h' es' φ', hItem rec op (.ref ra) k v h = ((itemMerge op kv k jv).2, h') ∧ ItemStep op h h' ra es' kv φ φ' C k jv fv rem := by
  have hraL : ra < h.length := (List.getElem?_eq_some_iff.1 hL.obj).1
  have ha : HVal.dict? h (.ref ra) = some (ra, es) := by simp [HVal.dict?, hL.obj]
  unfold hItem
  rw [ha]
  simp only
  cases hg : kv.get k with
  | none =>
    have hd : dget k es = none := by
      rw [dget_eq_none_iff, hL.keys]; exact KV.get_none.1 hg
    rw [hd]
    simp only
    by_cases ho : op = .remove
    · subst ho
      have hi : itemMerge .remove kv k jv = (kv, none) := by simp [itemMerge, hg]
      refine ⟨h, es, φ, by simp [hi], ?_, Nat.le_refl _, fun _ _ _ _ => rfl, fun _ _ => rfl, fun r hr => Or.inl hr, fun _ ho => ⟨ho, fun r hr => Or.inl hr⟩,
        fun _ _ ho => ⟨ho, fun r hr => Or.inl hr⟩⟩
      rw [hi]
      exact ⟨hL.toLevel, hL.nodup, hL.bound, hL.notIn, hL.notC, fun k' hk' => hL.owned k' (by simp [hk'])⟩
    · have hi : itemMerge op kv k jv = (kv.set k jv, none) := by simp [itemMerge, hg, ho]
      refine ⟨h.set ra (.dict (dset k v es)), dset k v es, upd φ k fv, by simp [hi, ho], ?_, by simp, fun r _ h2 _ => heap_set_ne h2, fun k' h => upd_ne h, ?_, ?_, ?_⟩
      · rw [hi]
        exact hL.step hk (by simp) (heap_set_same hraL)
          (Stores.frame _ _ _ hv (fun r hr => heap_set_ne (fun e => hL.notC (e ▸ hC r hr)))) (fun r _ h2 _ => heap_set_ne h2)
          (fun r hr => Or.inr (Or.inl (hC r hr)))
      · intro r hr; rw [upd_same] at hr; exact Or.inr (Or.inl (hC r hr))
      · rintro (h | ⟨_, w, hw, _⟩)
        · exact absurd h ho
        · rw [hg] at hw; cases hw
      · intro hfv hdis hall
        exact ⟨allOwned_upd' hall hL.bound hfv (fun r hr => Or.inr (Or.inl (hdis r hr))), fun r hr => by rw [upd_same] at hr; exact Or.inr (Or.inl hr)⟩
  | some ak =>
    obtain ⟨w, hd, hw⟩ := hL.entry k ak hg
    obtain ⟨o1, o2, o3, o4⟩ := hL.owned k (by simp) ak hg
    have hi : itemMerge op kv k jv = (kv.set k (mergeJ op ak jv).1, (mergeJ op ak jv).2) := by simp [itemMerge, hg]
    rw [hd]
    simp only
    rcases Oelint.Stores.dict? hv with ⟨vr, ves, vkv, vf, rfl, hvr, rfl, _, _, hdv⟩ | ⟨hnd, hdv⟩
    · rw [hdv]
      simp only
      obtain ⟨h', h1, hM⟩ := hrec ⟨_, rfl⟩ vr rfl w ak (φ k) hw o2 o1 o3
      obtain ⟨f, g1, g2, g3, g4⟩ := hM.stores
      refine ⟨h', dset k w es, upd φ k f, by rw [h1, hi], step_some hL hk hg hM.len ?_ g1 (fun r q1 _ q3 => hM.frame r q1 q3) g2 g3 g4⟩
      rw [hM.frame ra hraL (hL.notIn k), hL.obj, dset_self hd]
    · rw [hdv]
      simp only
      rw [hi]
      exact leaf_spec hL hk hg hd hw hv hC hnd

end item


/-! ## the loop -/

theorem LevelOk.weaken {h : Heap} {ra : Ref} {es : List (Str × HVal)} {kv : KV} {φ : Str → List Ref} {C : Ref → Prop} {rem : List Str}
    (hL : LevelOk h ra es kv φ C rem) : LevelOk h ra es kv φ C [] :=
  ⟨hL.toLevel, hL.nodup, hL.bound, hL.notIn, hL.notC, by simp⟩

theorem own_item {op : MergeOp} {kv rest : KV} {k : Str} {v : J} (ho : Own op (.dict kv) (.dict (.cons k v rest))) :
    op = .remove ∨ op = .add ∧ ∃ w, kv.get k = some w ∧ KnownPaths w v := by
  rcases ho with h | ⟨h, hp⟩
  · exact Or.inl h
  · right
    refine ⟨h, ?_⟩
    obtain ⟨w, hw⟩ := hp [k] v (by simp [valueAt, KV.get])
    cases hg : kv.get k with
    | none => simp [valueAt, hg] at hw
    | some w =>
      refine ⟨w, rfl, fun ks y hy => ?_⟩
      obtain ⟨x, hx⟩ := hp (k :: ks) y (by simpa [valueAt, KV.get] using hy)
      exact ⟨x, by simpa [valueAt, hg] using hx⟩

theorem own_rest {op : MergeOp} {kv rest : KV} {k : Str} {v : J} (hk : rest.get k = none) (ho : Own op (.dict kv) (.dict (.cons k v rest))) :
    Own op (.dict (itemMerge op kv k v).1) (.dict rest) := by
  rcases ho with h | ⟨h, hp⟩
  · exact Or.inl h
  · right
    refine ⟨h, fun ks y hy => ?_⟩
    cases ks with
    | nil => exact ⟨_, rfl⟩
    | cons k2 ks =>
      have hne : k2 ≠ k := by
        rintro rfl
        simp [valueAt, hk] at hy
      obtain ⟨x, hx⟩ := hp (k2 :: ks) y (by simpa [valueAt, KV.get, Ne.symm hne] using hy)
      refine ⟨x, ?_⟩
      have : (itemMerge op kv k v).1.get k2 = kv.get k2 := by
        unfold itemMerge
        cases hg : kv.get k with
        | none => simp only; split <;> simp [KV.get_set, hne]
        | some w => simp [KV.get_set, hne]
      simpa [valueAt, this] using hx

/-- the recursive calls do what they should -/
def RecOk (op : MergeOp) (C : Ref → Prop) (fuel : Nat) (rec : HVal → Ref → HM) : Prop :=
  ∀ h a ja fa b kd fb, depthKV kd < fuel → Stores h (.ref b) (.dict kd) fb → (∀ r ∈ fb, C r) → WFKV kd → Stores h a ja fa → fa.Nodup → WF ja →
    (∀ r ∈ fa, ¬ C r) → ∃ h', rec a b h = ((mergeJ op ja (.dict kd)).2, h') ∧
      Merged h h' C a fa fb (mergeJ op ja (.dict kd)).1 (Own op ja (.dict kd))

structure LoopDone (h h' : Heap) (ra : Ref) (es' : List (Str × HVal)) (φ φ' : Str → List Ref) (C : Ref → Prop) (f2 : List Ref) (kv' : KV) (own : Prop) : Prop where
  ok : LevelOk h' ra es' kv' φ' C []
  len : h.length ≤ h'.length
  frame : ∀ r, r < h.length → r ≠ ra → (∀ k, r ∉ φ k) → h'[r]? = h[r]?
  callers : ∀ r, r < h.length → C r → h'[r]? = h[r]?
  from_ : ∀ k, ∀ r ∈ φ' k, (∃ k', r ∈ φ k') ∨ C r ∨ h.length ≤ r
  own : own → AllOwned φ → AllOwned φ' ∧ ∀ k, ∀ r ∈ φ' k, (∃ k', r ∈ φ k') ∨ h.length ≤ r
  uniq : f2.Nodup → (∀ r ∈ f2, ∀ k, r ∉ φ k) → AllOwned φ → AllOwned φ' ∧ ∀ k, ∀ r ∈ φ' k, (∃ k', r ∈ φ k') ∨ r ∈ f2 ∨ h.length ≤ r

theorem loop_spec {op : MergeOp} {C : Ref → Prop} {fuel : Nat} {rec : HVal → Ref → HM} (hrec : RecOk op C fuel rec) {b ra : Ref} {bes : List (Str × HVal)}
    (hCb : C b) : (kd : KV) → (pre es2 : List (Str × HVal)) → bes = pre ++ es2 → (f2 : List Ref) → (h : Heap) → (es : List (Str × HVal)) → (kv : KV) →
    (φ : Str → List Ref) → depthKV kd ≤ fuel → h[b]? = some (.dict bes) → StoresKV h es2 kd f2 → (∀ r ∈ f2, C r) → WFKV kd →
    LevelOk h ra es kv φ C kd.keys →
    ∃ h' es' φ', hLoop rec op (.ref ra) b bes.length es2.length h = ((mergeKV op kv kd).2, h') ∧
      LoopDone h h' ra es' φ φ' C f2 (mergeKV op kv kd).1 (Own op (.dict kv) (.dict kd))
  | .nil, pre, es2, hb, f2, h, es, kv, φ, _, hbh, hs, _, _, hL => by
    simp only [StoresKV] at hs
    obtain ⟨rfl, rfl⟩ := hs
    have hm : mergeKV op kv .nil = (kv, none) := by rw [mergeKV]
    refine ⟨h, es, φ, ?_, ?_⟩
    · rw [hm]; simp [hLoop, hItems, hbh]
    · rw [hm]
      exact ⟨hL.weaken, Nat.le_refl _, fun _ _ _ _ => rfl, fun _ _ _ => rfl, fun k r hr => Or.inl ⟨k, hr⟩, fun _ ho => ⟨ho, fun k r hr => Or.inl ⟨k, hr⟩⟩,
        fun _ _ ho => ⟨ho, fun k r hr => Or.inl ⟨k, hr⟩⟩⟩
  | .cons k v rest, pre, es2, hb, f2, h, es, kv, φ, hd, hbh, hs, hC, hw, hL => by
    simp only [StoresKV] at hs
    obtain ⟨hv, es3, f3, f4, rfl, h1, h2, rfl⟩ := hs
    simp only [WFKV] at hw
    simp only [depthKV] at hd
    have hk : k ∉ rest.keys := KV.get_none.1 hw.1
    obtain ⟨h', es', φ', e1, hst⟩ := item_spec (op := op) (rec := rec) (h := h) (ra := ra) (es := es) (kv := kv) (φ := φ) (C := C) (k := k)
      (rem := rest.keys) hL hk h1 (fun r hr => hC r (by simp [hr])) (by
        rintro ⟨d, rfl⟩ vr rfl w jw fw g1 g2 g3 g4
        exact hrec h w jw fw vr d f3 (by simp only [depthJ] at hd; omega) h1 (fun r hr => hC r (by simp [hr])) (by simpa only [WF] using hw.2.1) g1 g2 g3 g4)
    have hcall : ∀ r, r < h.length → C r → h'[r]? = h[r]? := by
      intro r hr hc
      refine hst.frame r hr (fun e => hL.notC (e ▸ hc)) (fun hg hr' => ?_)
      obtain ⟨j0, hj0⟩ := Option.ne_none_iff_exists'.1 hg
      exact (hL.owned k (by simp [KV.keys]) j0 hj0).2.2.1 r hr' hc
    have hidx : bes[bes.length - (es3.length + 1)]? = some (k, hv) := by
      rw [hb]
      simp
    have hloop : hLoop rec op (.ref ra) b bes.length ((k, hv) :: es3).length h = match (itemMerge op kv k v).2 with
        | some e => (some e, h')
        | none => hLoop rec op (.ref ra) b bes.length es3.length h' := by
      simp only [List.length_cons, hLoop, hItems, hbh, if_true, hidx, e1]
      cases (itemMerge op kv k v).2 <;> rfl
    rw [hloop, mergeKV_item]
    cases hi : itemMerge op kv k v with
    | mk kv' e =>
      have hok := hst.ok
      have hr2 := fun ho => own_rest (op := op) (kv := kv) (v := v) hw.1 ho
      rw [hi] at hok hr2
      cases e with
      | some e =>
        refine ⟨h', es', φ', rfl, hok.weaken, hst.len, fun r q1 q2 q3 => hst.frame r q1 q2 (fun _ => q3 k), hcall, ?_, ?_, ?_⟩
        · intro k2 r hr
          by_cases e : k2 = k
          · subst e; rcases hst.from_ r hr with h | h
            · exact Or.inl ⟨_, h⟩
            · exact Or.inr h
          · rw [hst.other k2 e] at hr; exact Or.inl ⟨_, hr⟩
        · intro ho hall
          obtain ⟨a1, a2⟩ := hst.own (own_item ho) hall
          refine ⟨a1, fun k2 r hr => ?_⟩
          by_cases e : k2 = k
          · subst e; rcases a2 r hr with h | h
            · exact Or.inl ⟨_, h⟩
            · exact Or.inr h
          · rw [hst.other k2 e] at hr; exact Or.inl ⟨_, hr⟩
        · intro hn hdis hall
          rw [List.nodup_append] at hn
          obtain ⟨a1, a2⟩ := hst.uniq hn.1 (fun r hr => hdis r (by simp [hr])) hall
          refine ⟨a1, fun k2 r hr => ?_⟩
          by_cases e : k2 = k
          · subst e; rcases a2 r hr with h | h | h
            · exact Or.inl ⟨_, h⟩
            · exact Or.inr (Or.inl (by simp [h]))
            · exact Or.inr (Or.inr h)
          · rw [hst.other k2 e] at hr; exact Or.inl ⟨_, hr⟩
      | none =>
        have hbL : b < h.length := (List.getElem?_eq_some_iff.1 hbh).1
        have hb2 := StoresKV.bound _ _ _ h2
        obtain ⟨h'', es'', φ'', e2, hlo⟩ := loop_spec (bes := bes) hrec hCb rest (pre ++ [(k, hv)]) es3 (by simp [hb]) f4 h' es' kv' φ' (by omega)
          (by rw [hcall b hbL hCb]; exact hbh)
          (StoresKV.frame _ _ _ h2 (fun r hr => hcall r (hb2 r hr) (hC r (by simp [hr])))) (fun r hr => hC r (by simp [hr])) hw.2.2 hok
        have hfr : ∀ k2, ∀ r ∈ φ' k2, (∃ k', r ∈ φ k') ∨ C r ∨ h.length ≤ r := by
          intro k2 r hr
          by_cases e : k2 = k
          · subst e; rcases hst.from_ r hr with h | h
            · exact Or.inl ⟨_, h⟩
            · exact Or.inr h
          · rw [hst.other k2 e] at hr; exact Or.inl ⟨_, hr⟩
        refine ⟨h'', es'', φ'', e2, hlo.ok, Nat.le_trans hst.len hlo.len, ?_, ?_, ?_, ?_, ?_⟩
        · intro r q1 q2 q3
          rw [← hst.frame r q1 q2 (fun _ => q3 k)]
          by_cases hc : C r
          · exact hlo.callers r (Nat.lt_of_lt_of_le q1 hst.len) hc
          · refine hlo.frame r (Nat.lt_of_lt_of_le q1 hst.len) q2 (fun k2 hr => ?_)
            rcases hfr k2 r hr with ⟨k3, h⟩ | h | h
            · exact q3 k3 h
            · exact hc h
            · exact Nat.not_lt.2 h q1
        · intro r q1 q2
          rw [hlo.callers r (Nat.lt_of_lt_of_le q1 hst.len) q2, hcall r q1 q2]
        · intro k2 r hr
          rcases hlo.from_ k2 r hr with ⟨k3, h⟩ | h | h
          · exact hfr k3 r h
          · exact Or.inr (Or.inl h)
          · exact Or.inr (Or.inr (Nat.le_trans hst.len h))
        · intro ho hall
          obtain ⟨a1, a2⟩ := hst.own (own_item ho) hall
          obtain ⟨b1, b2⟩ := hlo.own (hr2 ho) a1
          refine ⟨b1, fun k2 r hr => ?_⟩
          rcases b2 k2 r hr with ⟨k3, h⟩ | h
          · by_cases e : k3 = k
            · subst e; rcases a2 r h with h | h
              · exact Or.inl ⟨_, h⟩
              · exact Or.inr h
            · rw [hst.other k3 e] at h; exact Or.inl ⟨_, h⟩
          · exact Or.inr (Nat.le_trans hst.len h)
        · intro hn hdis hall
          rw [List.nodup_append] at hn
          obtain ⟨a1, a2⟩ := hst.uniq hn.1 (fun r hr => hdis r (by simp [hr])) hall
          have a3 : ∀ k2, ∀ r ∈ φ' k2, (∃ k', r ∈ φ k') ∨ r ∈ f3 ∨ h.length ≤ r := by
            intro k2 r hr
            by_cases e : k2 = k
            · subst e; exact (a2 r hr).imp (fun h => ⟨_, h⟩) id
            · rw [hst.other k2 e] at hr; exact Or.inl ⟨_, hr⟩
          obtain ⟨b1, b2⟩ := hlo.uniq hn.2.1 (fun r hr k2 hr2 => by
            rcases a3 k2 r hr2 with ⟨k3, h⟩ | h | h
            · exact hdis r (by simp [hr]) k3 h
            · exact hn.2.2 r h r hr rfl
            · exact Nat.not_lt.2 h (hb2 r hr)) a1
          refine ⟨b1, fun k2 r hr => ?_⟩
          rcases b2 k2 r hr with ⟨k3, h⟩ | h | h
          · rcases a3 k3 r h with h | h | h
            · exact Or.inl h
            · exact Or.inr (Or.inl (by simp [h]))
            · exact Or.inr (Or.inr h)
          · exact Or.inr (Or.inl (by simp [h]))
          · exact Or.inr (Or.inr (Nat.le_trans hst.len h))

/-- descending into a list or a string -/
theorem loop_descend {op : MergeOp} {rec : HVal → Ref → HM} {b : Ref} {bes : List (Str × HVal)} {h : Heap} {a : HVal} {ja : J} {fa : List Ref}
    (ha : Stores h a ja fa) (hn : ¬ IsDict ja) (hbh : h[b]? = some (.dict bes)) : (pre es2 : List (Str × HVal)) → bes = pre ++ es2 →
    hLoop rec op a b bes.length es2.length h = (descendErr op ja (es2.map (·.1)), h)
  | pre, [], hb => by simp [hLoop, hItems, hbh, descendErr]
  | pre, (k, v) :: es3, hb => by
    have hidx : bes[bes.length - (es3.length + 1)]? = some (k, v) := by
      rw [hb]
      simp
    have hd : a.dict? h = none := by
      rcases Oelint.Stores.dict? ha with ⟨_, _, _, _, _, _, rfl, _⟩ | ⟨_, h⟩
      · exact absurd ⟨_, rfl⟩ hn
      · exact h
    simp only [List.length_cons, hLoop, hItems, hbh, if_true, hidx, hItem, hd, has_stores k ha, List.map_cons]
    have hp : ∀ ks, descendErr op ja (k :: ks) = if jHas k ja || op != .remove then some .typeError else descendErr op ja ks := by
      intro ks
      rw [descendErr.eq_def]
      cases ja with
      | str s => rfl
      | list xs => rfl
      | dict d => exact absurd ⟨_, rfl⟩ hn
    rw [hp]
    by_cases hx : (jHas k ja || op != .remove) = true
    · simp only [hx, if_true]
    · simp only [hx]
      exact loop_descend ha hn hbh (pre ++ [(k, v)]) es3 (by simp [hb])

theorem hMerge_spec (op : MergeOp) (C : Ref → Prop) : (fuel : Nat) → RecOk op C fuel (hMerge op fuel)
  | 0 => fun h a ja fa b kd fb hd => absurd hd (Nat.not_lt_zero _)
  | fuel + 1 => fun h a ja fa b kd fb hd hb hCb hwd ha hfa hwa hCa => by
    simp only [Stores] at hb
    obtain ⟨r, bes, f, hr, hbh, hs, rfl⟩ := hb
    cases hr
    have hM : hMerge op (fuel + 1) a b h = hLoop (hMerge op fuel) op a b bes.length bes.length h := by
      simp only [hMerge, hbh]
    rw [hM]
    rcases Oelint.Stores.dict? ha with ⟨ra, es, kv, f1, rfl, hra, rfl, hs1, rfl, _⟩ | ⟨hn, _⟩
    · rw [List.nodup_cons] at hfa
      simp only [WF] at hwa
      obtain ⟨φ, p1, p2, p3, p4⟩ := storesKV_split hs1 hwa hfa.2
      have hL : LevelOk h ra es kv φ C kd.keys := by
        refine ⟨⟨hra, Oelint.StoresKV.keys hs1, p1⟩, WFKV.nodup hwa, fun k r hr => StoresKV.bound _ _ _ hs1 r (p2 k r hr), fun k hr => hfa.1 (p2 k ra hr),
          hCa ra (by simp), fun k _ j hg => ⟨WFKV.get hwa hg, p3 k, fun r hr => hCa r (by simp [p2 k r hr]), fun k' hne r hr => p4 k k' (Ne.symm hne) r hr⟩⟩
      obtain ⟨h', es', φ', e1, hlo⟩ := loop_spec (hMerge_spec op C fuel) (hCb b (by simp)) kd [] bes rfl f h es kv φ (by omega) hbh hs
        (fun r hr => hCb r (by simp [hr])) hwd hL
      have hm : mergeJ op (.dict kv) (.dict kd) = (.dict (mergeKV op kv kd).1, (mergeKV op kv kd).2) := by
        rw [mergeJ]
      rw [hm]
      refine ⟨h', e1, hlo.len, fun r q1 q2 => hlo.frame r q1 (by rintro rfl; exact q2 (by simp)) (fun k hr => q2 (by simp [p2 k r hr])), ?_⟩
      obtain ⟨g, g1, g2, g3⟩ := storesKV_join φ' hlo.ok.keys hlo.ok.nodup hlo.ok.entry
      refine ⟨ra :: g, ?_, ?_, ?_, ?_⟩
      · simp only [Stores]
        exact ⟨ra, es', g, rfl, hlo.ok.obj, g1, rfl⟩
      · intro r hr
        rcases List.mem_cons.1 hr with rfl | hr
        · simp
        · obtain ⟨k, _, hr⟩ := g2 r hr
          rcases hlo.from_ k r hr with ⟨k', h⟩ | h
          · exact Or.inl (by simp [p2 k' r h])
          · exact Or.inr h
      · intro ho
        obtain ⟨a1, a2⟩ := hlo.own ho ⟨p3, p4⟩
        refine ⟨?_, ?_⟩
        · rw [List.nodup_cons]
          refine ⟨fun hr => ?_, g3 a1.1 a1.2⟩
          obtain ⟨k, _, hr⟩ := g2 ra hr
          exact hlo.ok.notIn k hr
        · intro r hr
          rcases List.mem_cons.1 hr with rfl | hr
          · simp
          · obtain ⟨k, _, hr⟩ := g2 r hr
            rcases a2 k r hr with ⟨k', h⟩ | h
            · exact Or.inl (by simp [p2 k' r h])
            · exact Or.inr h
      · intro hn
        obtain ⟨a1, a2⟩ := hlo.uniq (List.nodup_cons.1 hn).2 (fun r hr k hr2 => hCa r (by simp [p2 k r hr2]) (hCb r (by simp [hr]))) ⟨p3, p4⟩
        refine ⟨?_, ?_⟩
        · rw [List.nodup_cons]
          refine ⟨fun hr => ?_, g3 a1.1 a1.2⟩
          obtain ⟨k, _, hr⟩ := g2 ra hr
          exact hlo.ok.notIn k hr
        · intro r hr
          rcases List.mem_cons.1 hr with rfl | hr
          · simp
          · obtain ⟨k, _, hr⟩ := g2 r hr
            rcases a2 k r hr with ⟨k', h⟩ | h | h
            · exact Or.inl (by simp [p2 k' r h])
            · exact Or.inr (Or.inl (by simp [h]))
            · exact Or.inr (Or.inr h)
    · have hm : mergeJ op ja (.dict kd) = (ja, descendErr op ja kd.keys) := by
        cases ja with
        | str s => rw [mergeJ]; intro a h; cases h
        | list s => rw [mergeJ]; intro a h; cases h
        | dict d => exact absurd ⟨_, rfl⟩ hn
      rw [hm, ← Oelint.StoresKV.keys hs]
      refine ⟨h, loop_descend ha hn hbh [] bes rfl, Nat.le_refl _, fun _ _ _ => rfl, fa, ha, fun r hr => Or.inl hr, fun _ => ⟨hfa, fun r hr => Or.inl hr⟩,
        fun _ => ⟨hfa, fun r hr => Or.inl hr⟩⟩


/-! ## results have no key twice -/

theorem KV.set_wf {k : Str} {j : J} (hj : WF j) : {kv : KV} → WFKV kv → WFKV (kv.set k j)
  | .nil, _ => by simp only [KV.set, WFKV]; exact ⟨rfl, hj, trivial⟩
  | .cons k' v r, hw => by
    simp only [WFKV] at hw
    by_cases hk : k' = k
    · subst hk; simp only [KV.set, beq_self_eq_true, if_true, WFKV]; exact ⟨hw.1, hj, hw.2.2⟩
    · simp only [KV.set, beq_iff_eq, hk, if_false, WFKV]
      exact ⟨by rw [KV.get_set, if_neg hk]; exact hw.1, hw.2.1, KV.set_wf hj hw.2.2⟩

theorem leafMerge_wf {op : MergeOp} {a b r : J} (hb : WF b) (h : leafMerge op a b = .ok r) : WF r := by
  cases op with
  | override => simp [leafMerge] at h; rw [← h]; exact hb
  | remove =>
    simp only [leafMerge, Except.ok.injEq] at h
    rw [← h]; unfold minusEq; cases a <;> cases b <;> simp only [WF]
  | add =>
    cases a <;> cases b <;> simp [leafMerge, plusEq] at h <;> (try rw [← h]) <;> simp only [WF]

mutual
theorem mergeJ_wf (op : MergeOp) (a : J) : (b : J) → WF b → WF a → WF (mergeJ op a b).1
  | .dict d, hb, ha => by
    cases a with
    | dict kv =>
      rw [mergeJ]
      simp only [WF] at hb ha ⊢
      exact mergeKV_wf op kv d hb ha
    | str s => rw [mergeJ]; · exact ha
               · intro a h; cases h
    | list s => rw [mergeJ]; · exact ha
                · intro a h; cases h
  | .list ys, hb, ha => by
    rw [mergeJ_list]
    cases h : leafMerge op a (.list ys) with
    | ok r => exact leafMerge_wf hb h
    | error e => exact ha
  | .str ys, hb, ha => by
    rw [mergeJ_str]
    cases h : leafMerge op a (.str ys) with
    | ok r => exact leafMerge_wf hb h
    | error e => exact ha
theorem mergeKV_wf (op : MergeOp) (a : KV) : (b : KV) → WFKV b → WFKV a → WFKV (mergeKV op a b).1
  | .nil, _, ha => by rw [mergeKV]; exact ha
  | .cons k v rest, hb, ha => by
    simp only [WFKV] at hb
    rw [mergeKV_item]
    have hi : WFKV (itemMerge op a k v).1 := by
      unfold itemMerge
      cases hg : a.get k with
      | none =>
        simp only
        split
        · exact ha
        · exact KV.set_wf hb.2.1 ha
      | some ak => exact KV.set_wf (mergeJ_wf op ak v hb.2.1 (WFKV.get ha hg)) ha
    cases h : itemMerge op a k v with
    | mk kv' e =>
      rw [h] at hi
      cases e with
      | none => exact mergeKV_wf op kv' rest hb.2.2 hi
      | some e => exact hi
end

/-! ## sequences of calls -/

theorem hCalls_known {fuel : Nat} {db : Ref} {C : Ref → Prop} : (calls : List (MergeOp × Ref × KV)) → (h : Heap) → (j : J) → (fdb : List Ref) →
    Stores h (.ref db) j fdb → fdb.Nodup → WF j → (∀ r ∈ fdb, ¬ C r) →
    (∀ c ∈ calls, depthKV c.2.2 < fuel ∧ WFKV c.2.2 ∧ ∃ fd, Stores h (.ref c.2.1) (.dict c.2.2) fd ∧ ∀ r ∈ fd, C r) →
    OnlyKnown j (calls.map fun c => (c.1, c.2.2)) →
    ∃ f', Stores (hCalls fuel db (calls.map fun c => (c.1, c.2.1)) h) (.ref db) (afterCalls j (calls.map fun c => (c.1, c.2.2))) f' ∧ f'.Nodup ∧
      (∀ r ∈ f', r ∈ fdb ∨ h.length ≤ r) ∧
      ∀ r, r < h.length → r ∉ fdb → (hCalls fuel db (calls.map fun c => (c.1, c.2.1)) h)[r]? = h[r]?
  | [], h, j, fdb, hs, hn, _, _, _, _ => ⟨fdb, hs, hn, fun r hr => Or.inl hr, fun _ _ _ => rfl⟩
  | (op, d, kd) :: rest, h, j, fdb, hs, hn, hw, hC, hc, ho => by
    obtain ⟨c1, c2, fd, c3, c4⟩ := hc _ (List.mem_cons_self ..)
    simp only [List.map_cons, OnlyKnown] at ho
    -- apply the one call with the new objects not counted as the caller's
    obtain ⟨h', e1, hM⟩ := hMerge_spec op (fun r => C r ∧ r < h.length) fuel h (.ref db) j fdb d kd fd c1 c3
      (fun r hr => ⟨c4 r hr, Stores.bound _ _ _ c3 r hr⟩) c2 hs hn hw (fun r hr hc => hC r hr hc.1)
    obtain ⟨f, g1, g2, g3, _⟩ := hM.stores
    obtain ⟨g4, g5⟩ := g3 ho.1
    have hd : ∀ r, r < h.length → r ∉ fdb → h'[r]? = h[r]? := hM.frame
    have hwf : WF (mergeDb op j kd).1 := mergeJ_wf op j (.dict kd) (by simpa only [WF] using c2) hw
    have hCt : ∀ r, r < h.length → C r → h'[r]? = h[r]? := fun r q1 q2 => hd r q1 (fun hr => hC r hr q2)
    obtain ⟨f', i1, i2, i3, i4⟩ := hCalls_known (C := fun r => C r ∧ r < h.length) rest h' (mergeDb op j kd).1 f g1 g4 hwf
      (fun r hr hc => by
        rcases g5 r hr with h | h
        · exact hC r h hc.1
        · exact Nat.not_lt.2 h hc.2)
      (fun c hcm => by
        obtain ⟨d1, d2, fd', d3, d4⟩ := hc c (List.mem_cons_of_mem _ hcm)
        exact ⟨d1, d2, fd', Stores.frame _ _ _ d3 (fun r hr => hCt r (Stores.bound _ _ _ d3 r hr) (d4 r hr)),
          fun r hr => ⟨d4 r hr, Stores.bound _ _ _ d3 r hr⟩⟩) ho.2
    simp only [List.map_cons, hCalls, afterCalls, e1]
    refine ⟨f', i1, i2, fun r hr => ?_, fun r q1 q2 => ?_⟩
    · rcases i3 r hr with h | h
      · exact g5 r h
      · exact Or.inr (Nat.le_trans hM.len h)
    · rw [i4 r (Nat.lt_of_lt_of_le q1 hM.len) (fun hr => ?_), hd r q1 q2]
      rcases g5 r hr with h | h
      · exact q2 h
      · exact Nat.not_lt.2 h q1

/-! ## objects out of reach -/

/-- a set of objects that with an object has all objects it holds -/
def ClosedIn (S : Ref → Prop) (h : Heap) : Prop := ∀ r x, S r → Holds h r x → S x

/-- what is left of a program that works on the objects of `S` only -/
structure Within (S : Ref → Prop) (h h' : Heap) : Prop where
  closed : ClosedIn S h'
  frame : ∀ r, ¬ S r → h'[r]? = h[r]?
  len : h.length ≤ h'.length

theorem Within.refl {S : Ref → Prop} {h : Heap} (hc : ClosedIn S h) : Within S h h := ⟨hc, fun _ _ => rfl, Nat.le_refl _⟩

theorem Within.trans {S : Ref → Prop} {h h' h'' : Heap} (h1 : Within S h h') (h2 : Within S h' h'') : Within S h h'' :=
  ⟨h2.closed, fun r hr => by rw [h2.frame r hr, h1.frame r hr], Nat.le_trans h1.len h2.len⟩

theorem within_set {S : Ref → Prop} {h : Heap} {r : Ref} {o : HObj} (hc : ClosedIn S h) (hr : S r) (ho : ∀ es k x, o = .dict es → (k, HVal.ref x) ∈ es → S x) :
    Within S h (h.set r o) := by
  refine ⟨?_, fun x hx => heap_set_ne (fun e => hx (e ▸ hr)), by simp⟩
  rintro y x hy ⟨es, k, h1, h2⟩
  by_cases e : y = r
  · subst e
    by_cases hl : y < h.length
    · rw [heap_set_same hl] at h1
      cases h1
      exact ho es k x rfl h2
    · rw [List.set_eq_of_length_le (Nat.le_of_not_lt hl)] at h1
      exact hc y x hy ⟨es, k, h1, h2⟩
  · rw [heap_set_ne e] at h1
    exact hc y x hy ⟨es, k, h1, h2⟩

theorem within_alloc {S : Ref → Prop} {h : Heap} {xs : List Str} (hc : ClosedIn S h) (hS : ∀ r, h.length ≤ r → S r) :
    Within S h (h ++ [HObj.list xs]) := by
  refine ⟨?_, fun x hx => ?_, by simp⟩
  · rintro y x hy ⟨es, k, h1, h2⟩
    by_cases hl : y < h.length
    · rw [List.getElem?_append_left hl] at h1
      exact hc y x hy ⟨es, k, h1, h2⟩
    · rw [List.getElem?_append_right (Nat.le_of_not_lt hl)] at h1
      cases hy2 : y - h.length with
      | zero => rw [hy2] at h1; simp at h1
      | succ n => rw [hy2] at h1; simp at h1
  · have hl : x < h.length := Nat.lt_of_not_le (fun h => hx (hS x h))
    exact List.getElem?_append_left hl

/-- the objects a value refers to are in `S` -/
def ValIn (S : Ref → Prop) (v : HVal) : Prop := ∀ r, v = .ref r → S r

theorem mem_dset {α} {k k' : Str} {v w : α} {es : List (Str × α)} (h : (k', w) ∈ dset k v es) : w = v ∨ (k', w) ∈ es := by
  induction es with
  | nil => simp [dset] at h; exact Or.inl h.2
  | cons e t ih =>
    obtain ⟨k0, v0⟩ := e
    by_cases hk : k0 = k
    · simp [dset, hk] at h
      rcases h with h | h
      · exact Or.inl h.2
      · exact Or.inr (by simp [h])
    · simp [dset, hk] at h
      rcases h with h | h
      · exact Or.inr (by simp [h])
      · rcases ih h with h | h
        · exact Or.inl h
        · exact Or.inr (by simp [h])

theorem within_dset {S : Ref → Prop} {h : Heap} {r : Ref} {es : List (Str × HVal)} {k : Str} {v : HVal} (hc : ClosedIn S h) (hr : S r)
    (hes : ∀ k x, (k, HVal.ref x) ∈ es → S x) (hv : ValIn S v) : Within S h (h.set r (.dict (dset k v es))) := by
  refine within_set hc hr ?_
  rintro es' k' x h1 h2
  cases h1
  rcases mem_dset h2 with h | h
  · exact hv x h.symm
  · exact hes k' x h

/-- a program on values of `S` works within `S` -/
def ProgIn (S : Ref → Prop) (n : Nat) (m : HM) : Prop := ∀ h, n ≤ h.length → ClosedIn S h → Within S h (m h).2

variable {S : Ref → Prop} {n : Nat}

theorem hLeaf_in (hS : ∀ r, n ≤ r → S r) {op : MergeOp} {a : Ref} {es : List (Str × HVal)} {k : Str} {w v : HVal} (ha : S a)
    (hes : ∀ k x, (k, HVal.ref x) ∈ es → S x) (hw : ValIn S w) (hv : ValIn S v) : ProgIn S n (hLeaf op a es k w v) := by
  intro h hn hc
  cases op with
  | add =>
    cases w with
    | str s =>
      cases v with
      | str t => exact within_dset hc ha hes (by rintro r hr; cases hr)
      | ref r => exact Within.refl hc
    | ref r =>
      simp only [hLeaf]
      cases hr : h[r]? with
      | none => exact Within.refl hc
      | some o =>
        cases o with
        | dict es => exact Within.refl hc
        | list xs => exact within_set hc (hw r rfl) (by rintro _ _ _ h; cases h)
  | remove =>
    simp only [hLeaf]
    have h1 := within_alloc (xs := (w.elems h).filter (fun x => !v.has h x)) hc (fun r hr => hS r (Nat.le_trans hn hr))
    exact h1.trans (within_dset h1.closed ha hes (by rintro r hr; cases hr; exact hS _ hn))
  | override => exact within_dset hc ha hes hv

theorem hItem_in (hS : ∀ r, n ≤ r → S r) {rec : HVal → Ref → HM} (hrec : ∀ w r, ValIn S w → S r → ProgIn S n (rec w r)) {op : MergeOp} {a : HVal} {k : Str}
    {v : HVal} (ha : ValIn S a) (hv : ValIn S v) : ProgIn S n (hItem rec op a k v) := by
  intro h hn hc
  unfold hItem
  cases hd : a.dict? h with
  | none => simp only; split <;> exact Within.refl hc
  | some re =>
    obtain ⟨r, es⟩ := re
    have hr : a = .ref r ∧ h[r]? = some (.dict es) := by
      cases a with
      | str s => simp [HVal.dict?] at hd
      | ref r0 =>
        simp only [HVal.dict?] at hd
        cases ho : h[r0]? with
        | none => simp [ho] at hd
        | some o =>
          cases o with
          | list xs => simp [ho] at hd
          | dict es0 => simp [ho] at hd; obtain ⟨rfl, rfl⟩ := hd; exact ⟨rfl, ho⟩
    have hSr := ha r hr.1
    have hes : ∀ k x, (k, HVal.ref x) ∈ es → S x := fun k x hx => hc r x hSr ⟨es, k, hr.2, hx⟩
    simp only
    cases hg : dget k es with
    | none =>
      simp only
      split
      · exact Within.refl hc
      · exact within_dset hc hSr hes hv
    | some w =>
      have hw : ValIn S w := by
        rintro x rfl
        exact hes k x (dget_mem hg)
      simp only
      cases hv2 : v.dict? h with
      | none => exact hLeaf_in hS hSr hes hw hv h hn hc
      | some ve =>
        obtain ⟨vr, ves⟩ := ve
        have : v = .ref vr := by
          cases v with
          | str s => simp [HVal.dict?] at hv2
          | ref r0 =>
            simp only [HVal.dict?] at hv2
            split at hv2
            · simp at hv2; rw [hv2.1]
            · cases hv2
        exact hrec w vr hw (hv vr this) h hn hc

theorem hLoop_in (hS : ∀ r, n ≤ r → S r) {rec : HVal → Ref → HM} (hrec : ∀ w r, ValIn S w → S r → ProgIn S n (rec w r)) {op : MergeOp} {a : HVal} {b : Ref}
    {m : Nat} (ha : ValIn S a) (hb : S b) : (todo : Nat) → ProgIn S n (hLoop rec op a b m todo)
  | 0 => by
    intro h _ hc
    simp only [hLoop]
    split <;> exact Within.refl hc
  | todo + 1 => by
    intro h hn hc
    simp only [hLoop]
    cases hi : hItems b m h with
    | error e => exact Within.refl hc
    | ok es =>
      simp only
      have hbes : h[b]? = some (.dict es) := by
        unfold hItems at hi
        split at hi
        · rename_i es' he
          split at hi
          · cases hi; exact he
          · cases hi
        · cases hi
      cases he : es[m - (todo + 1)]? with
      | none => exact Within.refl hc
      | some kv =>
        obtain ⟨k, v⟩ := kv
        have hv : ValIn S v := by
          rintro x rfl
          exact hc b x hb ⟨es, k, hbes, List.mem_of_getElem? he⟩
        have h1 := hItem_in hS hrec (op := op) (k := k) ha hv h hn hc
        simp only
        cases hx : hItem rec op a k v h with
        | mk e h' =>
          rw [hx] at h1
          cases e with
          | some e => exact h1
          | none => exact h1.trans (hLoop_in hS hrec ha hb todo h' (Nat.le_trans hn h1.len) h1.closed)

theorem hMerge_in (hS : ∀ r, n ≤ r → S r) (op : MergeOp) : (fuel : Nat) → (w : HVal) → (r : Ref) → ValIn S w → S r → ProgIn S n (hMerge op fuel w r)
  | 0, w, r, _, _ => fun h _ hc => Within.refl hc
  | fuel + 1, w, r, hw, hr => by
    intro h hn hc
    simp only [hMerge]
    split
    · exact hLoop_in hS (hMerge_in hS op fuel) hw hr _ h hn hc
    · exact Within.refl hc

theorem hCalls_in (hS : ∀ r, n ≤ r → S r) {fuel : Nat} {db : Ref} (hdb : S db) : (calls : List (MergeOp × Ref)) → (∀ c ∈ calls, S c.2) → (h : Heap) → n ≤ h.length →
    ClosedIn S h → Within S h (hCalls fuel db calls h)
  | [], _, h, _, hc => Within.refl hc
  | (op, d) :: rest, hall, h, hn, hc => by
    have h1 := hMerge_in hS op fuel (.ref db) d (by rintro r hr; cases hr; exact hdb) (hall _ (List.mem_cons_self ..)) h hn hc
    exact h1.trans (hCalls_in hS hdb rest (fun c hcm => hall c (List.mem_cons_of_mem _ hcm)) _ (Nat.le_trans hn h1.len) h1.closed)

end Oelint

import Verif.Spec.Known
import Verif.Props.Constants
/-! Lemmas for the documented constants and the names a layer makes known. -/
set_option linter.unusedSectionVars false
set_option linter.unusedSimpArgs false
namespace Oelint
open Spec

/-- the property of `Constants` that reads a constant -/
def readKnown : Known → J → Except PyErr J
  | .functionsKnown => functionsKnown
  | .functionsOrder => functionsOrder
  | .classIgnore => classIgnore
  | .includeIgnore => includeIgnore
  | .imagesClasses => imagesClasses
  | .imagesVariables => imagesVariables
  | .distrosKnown => distrosKnown
  | .machinesKnown => machinesKnown
  | .mirrorsKnown => mirrorsKnown
  | .setsBase => setsBase
  | .variablesKnown => variablesKnown

theorem known_path (k : Known) : readKnown k = fun db => getByPath db (k.sec ++ '/' :: k.key) := by
  cases k <;> rfl

theorem known_pieces (k : Known) : '/' ∉ k.sec ∧ '/' ∉ k.key ∧ (k.sec ++ '/' :: k.key).getLast? ≠ some '/' := by
  cases k <;> decide

theorem known_inj {k k' : Known} (h1 : k.sec = k'.sec) (h2 : k.key = k'.key) : k = k' := by
  revert h1 h2; cases k <;> cases k' <;> decide

theorem valueAt_two {db : J} {a b : Str} (h : Readable db) : ¬ RunsThroughLeaf [a, b] db := by
  rintro ⟨pre, k, post, x, h1, h2, h3⟩
  rcases pre with _ | ⟨p, _ | ⟨q, pre⟩⟩
  · cases h2; exact h3 h.1
  · cases h1; exact h3 (h.2 _ _ h2)
  · simp at h1

theorem readKnown_eq (k : Known) {db : J} (h : Readable db) :
    readKnown k db = .ok ((valueAt [k.sec, k.key] db).getD (.dict .nil)) := by
  rw [known_path]
  obtain ⟨h1, h2, h3⟩ := known_pieces k
  have hp : Pieces '/' (k.sec ++ '/' :: k.key) [k.sec, k.key] :=
    ⟨by simp, by simp [joinS], by simp [h1, h2]⟩
  obtain ⟨c1, -, c3⟩ := C30_get_by_path db _ 0 _ h3 hp
  simp only [List.replicate_zero, List.append_nil] at c1 c3
  cases hv : valueAt [k.sec, k.key] db with
  | some v => exact c1 v hv
  | none => exact c3 hv (valueAt_two h)

theorem entry_wf (a b : Str) {v : J} (hv : WF v) : WF (.dict (entry a b v)) := ⟨rfl, ⟨rfl, hv, trivial⟩, trivial⟩

theorem entry_value (a b : Str) (v : J) (ks : List Str) :
    valueAt ks (.dict (entry a b v)) = match ks with
      | [] => some (.dict (entry a b v))
      | [k] => if k = a then some (.dict (.cons b v .nil)) else none
      | k :: k' :: rest => if k = a ∧ k' = b then valueAt rest v else none := by
  rcases ks with _ | ⟨k, _ | ⟨k', rest⟩⟩
  · rfl
  · simp only [valueAt, entry, KV.get]
    by_cases h : k = a
    · simp [h]
    · simp [h, Ne.symm h]
  · simp only [valueAt, entry, KV.get]
    by_cases h : k = a <;> by_cases h' : k' = b
    · simp [h, h', valueAt, KV.get]
    · simp [h, h', Ne.symm h', valueAt, KV.get]
    · simp [h, h', Ne.symm h, valueAt, KV.get]
    · simp [h, h', Ne.symm h, valueAt, KV.get]


/-- a list can be added, removed or put at a place with a list or nothing -/
theorem entry_compatible {db : J} {a b : Str} {l : List Str} (h : IsDict db) (h' : ∀ x, valueAt [a] db = some x → IsDict x)
    (hl : ∀ x, valueAt [a, b] db = some x → ∃ xs, x = .list xs) : Compatible db (.dict (entry a b (.list l))) := by
  intro ks x y hx hy
  rw [entry_value] at hy
  rcases ks with _ | ⟨k, _ | ⟨k', rest⟩⟩
  · cases hx; cases hy; exact Or.inl ⟨h, _, rfl⟩
  · simp only at hy
    split at hy
    · rename_i hka
      subst hka
      cases hy; exact Or.inl ⟨h' _ hx, _, rfl⟩
    · cases hy
  · simp only at hy
    split at hy
    · rename_i hab
      obtain ⟨rfl, rfl⟩ := hab
      cases rest with
      | nil => cases hy; obtain ⟨xs, rfl⟩ := hl x hx; exact Or.inr ⟨xs, l, rfl, rfl⟩
      | cons r rest => cases hy
    · cases hy

theorem entry_overridable {db : J} {a b : Str} {l : List Str} (h : Readable db) :
    Overridable db (.dict (entry a b (.list l))) := by
  intro ks x y hx hy hd
  rw [entry_value] at hy
  rcases ks with _ | ⟨k, _ | ⟨k', rest⟩⟩
  · cases hx; exact h.1
  · exact h.2 _ _ hx
  · simp only at hy
    split at hy
    · cases rest with
      | nil => cases hy; obtain ⟨d, hd⟩ := hd; cases hd
      | cons r rest => cases hy
    · cases hy

/-- what the three operations leave, for a list at one place -/
theorem entry_add {db : J} {a b : Str} {l : List Str} (h : IsDict db) (h' : ∀ x, valueAt [a] db = some x → IsDict x)
    (hl : ∀ x, valueAt [a, b] db = some x → ∃ xs, x = .list xs) :
    (addConstants db (entry a b (.list l))).2 = none ∧ IsDict (addConstants db (entry a b (.list l))).1 ∧
    (∀ x, valueAt [a] (addConstants db (entry a b (.list l))).1 = some x → IsDict x) ∧
    (∀ xs, valueAt [a, b] db = some (.list xs) →
      valueAt [a, b] (addConstants db (entry a b (.list l))).1 = some (.list (xs ++ l))) ∧
    (valueAt [a, b] db = none → valueAt [a, b] (addConstants db (entry a b (.list l))).1 = some (.list l)) ∧
    ∀ ks, ks ≠ [] → ks ≠ [a] → ks ≠ [a, b] → valueAt ks (addConstants db (entry a b (.list l))).1 = valueAt ks db := by
  obtain ⟨h1, h2⟩ := C27_add_constants db (entry a b (.list l)) (entry_wf _ _ trivial) (entry_compatible h h' hl)
  refine ⟨h1, ?_, fun x hx => ?_, fun xs hxs => ?_, fun hn => ?_, fun ks k1 k2 k3 => ?_⟩
  · have := h2 []
    obtain ⟨d, rfl⟩ := h
    obtain ⟨r, hr⟩ := this
    exact ⟨r, Option.some.inj hr⟩
  · have := h2 [a]
    rw [entry_value] at this
    simp only at this
    rw [if_pos trivial] at this
    cases ho : valueAt [a] db with
    | none => rw [ho] at this; simp only at this; rw [this] at hx; cases hx; exact ⟨_, rfl⟩
    | some y =>
      obtain ⟨d, rfl⟩ := h' _ ho
      rw [ho] at this
      obtain ⟨r, hr⟩ := this
      rw [hr] at hx; cases hx; exact ⟨_, rfl⟩
  · have := h2 [a, b]
    rw [entry_value, hxs] at this
    simpa [valueAt] using this
  · have := h2 [a, b]
    rw [entry_value, hn] at this
    simpa [valueAt] using this
  · have := h2 ks
    have he : valueAt ks (.dict (entry a b (.list l))) = none := by
      rw [entry_value]
      rcases ks with _ | ⟨k, _ | ⟨k', _ | ⟨r, rest⟩⟩⟩
      · exact absurd rfl k1
      · simp only; rw [if_neg (fun e => k2 (by rw [e]))]
      · simp only; rw [if_neg (fun e => k3 (by rw [e.1, e.2]))]
      · simp only [valueAt]; split <;> rfl
    rw [he] at this
    exact this

theorem entry_add_readable {db : J} {a b : Str} {l : List Str} (h : Readable db)
    (hl : ∀ x, valueAt [a, b] db = some x → ∃ xs, x = .list xs) : Readable (addConstants db (entry a b (.list l))).1 := by
  obtain ⟨-, h1, h2, -, -, h3⟩ := entry_add (l := l) h.1 (fun x hx => h.2 a x hx) hl
  refine ⟨h1, fun k x hx => ?_⟩
  by_cases hk : k = a
  · subst hk; exact h2 x hx
  · rw [h3 [k] (by simp) (by simpa using hk) (by simp)] at hx
    exact h.2 k x hx

theorem entry_remove {db : J} {a b : Str} {l xs : List Str} (h : Readable db) (hl : valueAt [a, b] db = some (.list xs)) :
    (removeConstants db (entry a b (.list l))).2 = none ∧ Readable (removeConstants db (entry a b (.list l))).1 ∧
    (∃ r, valueAt [a, b] (removeConstants db (entry a b (.list l))).1 = some (.list r) ∧ r.Sublist xs ∧
      ∀ x, r.count x = if x ∈ l then 0 else xs.count x) ∧
    ∀ ks, ks ≠ [] → ks ≠ [a] → ks ≠ [a, b] → valueAt ks (removeConstants db (entry a b (.list l))).1 = valueAt ks db := by
  obtain ⟨h1, h2⟩ := C28_remove_constants db (entry a b (.list l)) (entry_wf _ _ trivial)
    (entry_compatible h.1 (fun x hx => h.2 a x hx) fun x hx => by rw [hl] at hx; cases hx; exact ⟨_, rfl⟩)
  refine ⟨h1, ⟨?_, fun k x hx => ?_⟩, ?_, fun ks k1 k2 k3 => ?_⟩
  · have := h2 []
    obtain ⟨d, rfl⟩ := h.1
    obtain ⟨r, hr⟩ := this
    exact ⟨r, Option.some.inj hr⟩
  · have := h2 [k]
    rw [entry_value] at this
    simp only at this
    by_cases hk : k = a
    · rw [if_pos hk] at this
      cases ho : valueAt [k] db with
      | none => rw [ho] at this; simp only at this; rw [this] at hx; cases hx
      | some y =>
        obtain ⟨d, rfl⟩ := h.2 _ _ ho
        rw [ho] at this
        obtain ⟨r, hr⟩ := this
        rw [hr] at hx; cases hx; exact ⟨_, rfl⟩
    · rw [if_neg hk] at this
      simp only at this
      rw [this] at hx; exact h.2 _ _ hx
  · have := h2 [a, b]
    rw [entry_value, hl] at this
    simpa [valueAt] using this
  · have := h2 ks
    have he : valueAt ks (.dict (entry a b (.list l))) = none := by
      rw [entry_value]
      rcases ks with _ | ⟨k, _ | ⟨k', _ | ⟨r, rest⟩⟩⟩
      · exact absurd rfl k1
      · simp only; rw [if_neg (fun e => k2 (by rw [e]))]
      · simp only; rw [if_neg (fun e => k3 (by rw [e.1, e.2]))]
      · simp only [valueAt]; split <;> rfl
    rw [he] at this
    exact this

theorem entry_override {db : J} {a b : Str} {l : List Str} (h : Readable db) :
    (overrideConstants db (entry a b (.list l))).2 = none ∧ Readable (overrideConstants db (entry a b (.list l))).1 ∧
    valueAt [a, b] (overrideConstants db (entry a b (.list l))).1 = some (.list l) ∧
    ∀ k k', ¬ (k = a ∧ k' = b) → valueAt [k, k'] (overrideConstants db (entry a b (.list l))).1 = valueAt [k, k'] db := by
  obtain ⟨h1, h2, -⟩ := C29_override_constants db (entry a b (.list l)) (entry_wf _ _ trivial) (entry_overridable h)
  have hleaf : ∀ ks, ks = [] ∨ (∃ k, ks = [k]) ∨ (∃ k k', ks = [k, k']) → ¬ RunsThroughLeaf ks (.dict (entry a b (.list l))) := by
    rintro ks hks ⟨pre, k, post, x, he, hx, hn⟩
    rw [entry_value] at hx
    rcases pre with _ | ⟨p, _ | ⟨q, pre⟩⟩
    · cases hx; exact hn ⟨_, rfl⟩
    · simp only at hx
      split at hx
      · cases hx; exact hn ⟨_, rfl⟩
      · cases hx
    · rcases hks with rfl | ⟨k, rfl⟩ | ⟨k, k', rfl⟩ <;> simp at he
  refine ⟨h1, ⟨?_, fun k x hx => ?_⟩, ?_, fun k k' hk => ?_⟩
  · have := h2 []
    obtain ⟨d, rfl⟩ := h.1
    obtain ⟨r, hr⟩ := this
    exact ⟨r, Option.some.inj hr⟩
  · have := h2 [k]
    have hlf := hleaf [k] (Or.inr (Or.inl ⟨k, rfl⟩))
    rw [entry_value] at this
    simp only at this
    by_cases hk : k = a
    · rw [if_pos hk] at this
      cases ho : valueAt [k] db with
      | none => rw [ho] at this; simp only at this; rw [this] at hx; cases hx; exact ⟨_, rfl⟩
      | some y =>
        rw [ho] at this
        obtain ⟨r, hr⟩ := this
        rw [hr] at hx; cases hx; exact ⟨_, rfl⟩
    · rw [if_neg hk] at this
      simp only at this
      rw [this.2 hlf] at hx; exact h.2 _ _ hx
  · have := h2 [a, b]
    rw [entry_value] at this
    simpa [valueAt] using this
  · have := h2 [k, k']
    have hlf := hleaf [k, k'] (Or.inr (Or.inr ⟨k, k', rfl⟩))
    rw [entry_value] at this
    simp only at this
    rw [if_neg hk] at this
    exact this.2 hlf

end Oelint

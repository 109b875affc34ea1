import Verif.Spec.Paths
import Verif.Lemmas.Parser
/-! Looking for files in layers (C12, C59). -/
set_option linter.unusedSectionVars false
set_option linter.unusedSimpArgs false
namespace Oelint
variable [Uni]
open Spec

theorem layerOf_unique {W : World} {d r r' : Str} (h : LayerOf W d r) (h' : LayerOf W d r') : r = r' := by
  induction h with
  | here hd hr h =>
    cases h' with
    | here => rfl
    | up _ _ h2 _ => rw [h] at h2; cases h2
  | up hd hr h hu ih =>
    cases h' with
    | here _ _ h2 => rw [h] at h2; cases h2
    | up _ _ _ h2 => exact ih h2

theorem finds_unique {W : World} {d n p q : Str} (h : Finds W d n p) (h' : Finds W d n q) : p = q := by
  rcases h with ⟨h1, h2⟩ | ⟨h1, r, h2, h3, h4⟩ <;> rcases h' with ⟨g1, g2⟩ | ⟨g1, r', g2, g3, g4⟩
  · rw [h2, g2]
  · rw [h1] at g1; cases g1
  · rw [h1] at g1; cases g1
  · rw [h4, g4, layerOf_unique h2 g2]

theorem findsClass_unique {W : World} {d n p q : Str} {locs : List Str} (h : FindsClass W d n locs p)
    (h' : FindsClass W d n locs q) : p = q := by
  induction h with
  | here h hp =>
    cases h' with
    | here g _ => exact finds_unique h g
    | next g _ => exact absurd (g _ h) hp
  | next h _ ih =>
    cases h' with
    | here g gp => exact absurd (h _ g) gp
    | next _ g => exact ih g

theorem findLoop_spec {W : World} {name : Str} (n : Nat) {d p : Str} (h : findLoop W name n d = some p) :
    (p ≠ [] → ∃ r, LayerOf W d r ∧ W.pathExists (pathJoin r name) = true ∧ p = pathJoin r name) ∧
    (p = [] → ∀ r, LayerOf W d r → W.pathExists (pathJoin r name) = true → pathJoin r name = []) := by
  induction n generalizing d with
  | zero => cases h
  | succ n ih =>
    rw [findLoop] at h
    simp only at h
    by_cases hd : W.isDir d = true
    · rw [if_pos hd] at h
      by_cases hr : d = c!"/"
      · rw [if_pos (by simp [hr])] at h
        cases h
        refine ⟨fun h => absurd rfl h, fun _ r hl => ?_⟩
        cases hl with
        | here _ h => exact absurd hr h
        | up _ h => exact absurd hr h
      · rw [if_neg (by simpa using hr)] at h
        by_cases hc : W.pathExists (pathJoin (dirname d) c!"conf/layer.conf") = true
        · rw [if_pos hc] at h
          by_cases hn : W.pathExists (pathJoin (dirname d) name) = true
          · rw [if_pos hn] at h
            cases h
            refine ⟨fun _ => ⟨dirname d, .here hd hr hc, hn, rfl⟩, fun he r hl _ => ?_⟩
            rw [layerOf_unique hl (.here hd hr hc)]; exact he
          · rw [if_neg hn] at h
            cases h
            refine ⟨fun h => absurd rfl h, fun _ r hl hx => ?_⟩
            rw [layerOf_unique hl (.here hd hr hc)] at hx
            exact absurd hx hn
        · rw [if_neg hc] at h
          have hc : W.pathExists (pathJoin (dirname d) c!"conf/layer.conf") = false := by simpa using hc
          obtain ⟨h1, h2⟩ := ih h
          refine ⟨fun hp => ?_, fun hp r hl => ?_⟩
          · obtain ⟨r, h3, h4⟩ := h1 hp
            exact ⟨r, .up hd hr hc h3, h4⟩
          · cases hl with
            | here _ _ h => rw [hc] at h; cases h
            | up _ _ _ hu => exact h2 hp r hu
    · rw [if_neg hd] at h
      cases h
      refine ⟨fun h => absurd rfl h, fun _ r hl => ?_⟩
      cases hl with
      | here h => exact absurd h hd
      | up h => exact absurd h hd

theorem findLocalOrLayer_spec {W : World} {name d p : Str} (h : findLocalOrLayer W name d = .ok p) :
    (p ≠ [] → Finds W d name p) ∧ (p = [] → ∀ q, Finds W d name q → q = []) := by
  unfold findLocalOrLayer at h
  split at h
  · rename_i hx
    cases h
    refine ⟨fun _ => Or.inl ⟨hx, rfl⟩, fun hp q hq => ?_⟩
    rw [finds_unique hq (Or.inl ⟨hx, rfl⟩)]; exact hp
  · rename_i hx
    have hx : W.pathExists (pathJoin d name) = false := by simpa using hx
    split at h
    · rename_i r hr
      cases h
      obtain ⟨h1, h2⟩ := findLoop_spec _ hr
      refine ⟨fun hp => Or.inr ⟨hx, h1 hp⟩, fun hp q hq => ?_⟩
      rcases hq with ⟨h3, _⟩ | ⟨_, r, h3, h4, rfl⟩
      · rw [hx] at h3; cases h3
      · exact h2 hp r h3 h4
    · cases h

theorem findClass_spec {W : World} {name d p : Str} (locs : List Str) (h : findClass W d name locs = .ok p) :
    (p ≠ [] → FindsClass W d name locs p) ∧ (p = [] → ∀ q, ¬ FindsClass W d name locs q) := by
  induction locs with
  | nil =>
    cases h
    refine ⟨fun h => absurd rfl h, fun _ q hq => ?_⟩
    cases hq
  | cons loc locs ih =>
    rw [findClass] at h
    split at h
    · cases h
    · rename_i q hq
      obtain ⟨h1, h2⟩ := findLocalOrLayer_spec hq
      split at h
      · rename_i he
        have he : q = [] := by simpa using he
        obtain ⟨i1, i2⟩ := ih h
        refine ⟨fun hp => .next (h2 he) (i1 hp), fun hp x hx => ?_⟩
        cases hx with
        | here h hp => exact hp (h2 he _ h)
        | next _ hn => exact i2 hp x hn
      · rename_i he
        have he : q ≠ [] := by simpa using he
        cases h
        exact ⟨fun hp => .here (h1 hp) hp, fun hp => absurd hp he⟩

theorem classFile_withBbclass (word : Str) : ClassFile word (withBbclass word) := by
  unfold ClassFile withBbclass endsWith
  by_cases h : c!".bbclass" <:+ word
  · rw [if_pos (List.isSuffixOf_iff_suffix.2 h)]; exact Or.inl ⟨h, rfl⟩
  · rw [if_neg (fun hh => h (List.isSuffixOf_iff_suffix.1 hh))]; exact Or.inr ⟨h, rfl⟩

end Oelint

import Verif.Lemmas.Paths
/-! Termination of the loops over the enclosing directories (C59). -/
set_option linter.unusedSectionVars false
set_option linter.unusedSimpArgs false
namespace Oelint
variable [Uni]
open Spec

theorem dropWhile_suffix_len {α} (p : α → Bool) (l : List α) : (l.dropWhile p).length ≤ l.length :=
  (List.dropWhile_suffix p).length_le

theorem dirHead_prefix (p : Str) : (p.reverse.dropWhile (· != '/')).reverse <+: p := by
  rw [← List.reverse_suffix, List.reverse_reverse]
  exact List.dropWhile_suffix _

theorem dirname_prefix (p : Str) : dirname p <+: p := by
  unfold dirname
  simp only
  split
  · exact dirHead_prefix p
  · exact (rstripP_prefix _ _).trans (dirHead_prefix p)

theorem head_dropWhile {α} (p : α → Bool) (l : List α) (x : α) (xs : List α) (h : l.dropWhile p = x :: xs) : p x = false := by
  induction l with
  | nil => cases h
  | cons a l ih =>
    rw [List.dropWhile_cons] at h
    split at h
    · exact ih h
    · rename_i hp
      cases h
      simpa using hp

/-- a path that is not made of slashes only has a shorter directory -/
theorem dirname_lt {p : Str} (h : p.all (· == '/') = false) : (dirname p).length < p.length := by
  have hpre := dirHead_prefix p
  unfold dirname
  simp only
  split
  · rename_i ha
    rcases Nat.lt_or_ge (p.reverse.dropWhile (· != '/')).reverse.length p.length with hl | hl
    · exact hl
    · rw [hpre.eq_of_length_le hl, h] at ha; cases ha
  · rename_i ha
    refine Nat.lt_of_lt_of_le ?_ hpre.length_le
    unfold rstripP
    rw [List.reverse_reverse, List.length_reverse, List.length_reverse]
    cases hd : p.reverse.dropWhile (· != '/') with
    | nil => rw [hd] at ha; simp at ha
    | cons x xs =>
      have hx := head_dropWhile _ _ _ _ hd
      have hx : x = '/' := by simpa using hx
      subst hx
      rw [List.dropWhile_cons_of_pos (by simp)]
      exact Nat.lt_succ_of_le (dropWhile_suffix_len _ _)

/-- neither of the loops is stuck at this directory -/
def Climbs (d : Str) : Prop := ¬ c!"//" <+: d

theorem Climbs.dirname {d : Str} (h : Climbs d) : Climbs (dirname d) := fun hh => h (hh.trans (dirname_prefix d))

theorem Climbs.lt {d : Str} (h : Climbs d) (h0 : d ≠ []) (h1 : d ≠ c!"/") : (Oelint.dirname d).length < d.length := by
  refine dirname_lt ?_
  cases d with
  | nil => exact absurd rfl h0
  | cons a d =>
    cases d with
    | nil =>
      simp only [List.all_cons, List.all_nil, Bool.and_true]
      have : a ≠ '/' := fun hh => h1 (by subst hh; rfl)
      simpa using this
    | cons b d =>
      rw [← Bool.not_eq_true]
      intro hh
      simp only [List.all_cons, Bool.and_eq_true, beq_iff_eq] at hh
      exact h (by rw [hh.1, hh.2.1]; exact ⟨d, rfl⟩)

theorem layerRootLoop_ends {W : World} (hw : W.isDir [] = false) {n : Nat} {d : Str} (hn : d.length < n) (h : Climbs d) :
    layerRootLoop W n d ≠ none := by
  induction n generalizing d with
  | zero => omega
  | succ n ih =>
    rw [layerRootLoop]
    split
    · rename_i hd
      split
      · simp
      · rename_i hr
        have h0 : d ≠ [] := by rintro rfl; rw [hw] at hd; cases hd
        have := h.lt h0 (by simpa using hr)
        simp only
        split
        · simp
        · exact ih (by omega) h.dirname
    · simp

theorem findLoop_ends {W : World} {name : Str} (hw : W.isDir [] = false) {n : Nat} {d : Str} (hn : d.length < n)
    (h : Climbs d) : findLoop W name n d ≠ none := by
  induction n generalizing d with
  | zero => omega
  | succ n ih =>
    rw [findLoop]
    split
    · rename_i hd
      split
      · simp
      · rename_i hr
        have h0 : d ≠ [] := by rintro rfl; rw [hw] at hd; cases hd
        have := h.lt h0 (by simpa using hr)
        simp only
        split
        · split <;> simp
        · exact ih (by omega) h.dirname
    · simp

theorem findLocalOrLayer_ends {W : World} {name d : Str} (hw : W.isDir [] = false) (h : Climbs d) :
    ∃ p, findLocalOrLayer W name d = .ok p := by
  unfold findLocalOrLayer
  split
  · exact ⟨_, rfl⟩
  · split
    · exact ⟨_, rfl⟩
    · rename_i hn; exact absurd hn (findLoop_ends hw (by omega) h)

theorem findClass_ends {W : World} {name d : Str} (hw : W.isDir [] = false) (h : Climbs d) (locs : List Str) :
    ∃ p, findClass W d name locs = .ok p := by
  induction locs with
  | nil => exact ⟨_, rfl⟩
  | cons l ls ih =>
    rw [findClass]
    obtain ⟨p, hp⟩ := findLocalOrLayer_ends (name := pathJoin l name) hw h
    rw [hp]
    simp only
    split
    · exact ih
    · exact ⟨_, rfl⟩

theorem Climbs.start {W : World} {name : Str} (h : Climbs name) : Climbs (layerStart W name) := by
  unfold layerStart; split
  · exact h.dirname
  · exact h

theorem layerStart_len (W : World) (name : Str) : (layerStart W name).length ≤ name.length := by
  unfold layerStart; split
  · exact (dirname_prefix name).length_le
  · exact Nat.le_refl _

theorem getLayerRoot_ends {W : World} {name : Str} (hw : W.isDir [] = false) (h : Climbs name) :
    ∃ p, getLayerRoot W name = .ok p := by
  unfold getLayerRoot
  have := layerStart_len W name
  split
  · exact ⟨_, rfl⟩
  · rename_i hn; exact absurd hn (layerRootLoop_ends hw (by omega) h.start)

theorem layerRootLoop_spec {W : World} (n : Nat) {d p : Str} (h : layerRootLoop W n d = some p) :
    (p ≠ [] → LayerOf W d p) ∧ (p = [] → ∀ r, LayerOf W d r → r = []) := by
  induction n generalizing d with
  | zero => cases h
  | succ n ih =>
    rw [layerRootLoop] at h
    split at h
    · rename_i hd
      split at h
      · rename_i hr
        have hr : d = c!"/" := by simpa using hr
        cases h
        refine ⟨fun h => absurd rfl h, fun _ r hl => ?_⟩
        cases hl with
        | here _ h => exact absurd hr h
        | up _ h => exact absurd hr h
      · rename_i hr
        have hr : d ≠ c!"/" := by simpa using hr
        simp only at h
        split at h
        · rename_i hc
          cases h
          refine ⟨fun _ => .here hd hr hc, fun hp r hl => ?_⟩
          rw [← hp]; exact layerOf_unique hl (.here hd hr hc)
        · rename_i hc
          have hc : W.pathExists (pathJoin (dirname d) c!"conf/layer.conf") = false := by simpa using hc
          obtain ⟨h1, h2⟩ := ih h
          refine ⟨fun hp => .up hd hr hc (h1 hp), fun hp r hl => ?_⟩
          cases hl with
          | here _ _ h => rw [hc] at h; cases h
          | up _ _ _ h => exact h2 hp r h
    · rename_i hd
      cases h
      refine ⟨fun h => absurd rfl h, fun _ r hl => ?_⟩
      cases hl with
      | here h => exact absurd h hd
      | up h => exact absurd h hd

theorem getLayerRoot_spec {W : World} {name p : Str} (h : getLayerRoot W name = .ok p) :
    (p ≠ [] → LayerOf W (layerStart W name) p) ∧ (p = [] → ∀ r, LayerOf W (layerStart W name) r → r = []) := by
  unfold getLayerRoot at h
  split at h
  · rename_i hr; cases h; exact layerRootLoop_spec _ hr
  · cases h

theorem layerOf_iff {W : World} {d r : Str} : LayerOf W d r ↔
    ∃ k, r = upDir (k + 1) d ∧ W.pathExists (pathJoin r c!"conf/layer.conf") = true ∧
      (∀ j ≤ k, W.isDir (upDir j d) = true ∧ upDir j d ≠ c!"/") ∧
      ∀ j < k, W.pathExists (pathJoin (upDir (j + 1) d) c!"conf/layer.conf") = false := by
  constructor
  · intro h
    induction h with
    | here hd hr h =>
      refine ⟨0, rfl, h, fun j hj => ?_, fun j hj => absurd hj (by omega)⟩
      obtain rfl : j = 0 := by omega
      exact ⟨hd, hr⟩
    | up hd hr h hu ih =>
      obtain ⟨k, h1, h2, h3, h4⟩ := ih
      refine ⟨k + 1, h1, h2, fun j hj => ?_, fun j hj => ?_⟩
      · cases j with
        | zero => exact ⟨hd, hr⟩
        | succ j => exact h3 j (by omega)
      · cases j with
        | zero => exact h
        | succ j => exact h4 j (by omega)
  · rintro ⟨k, h1, h2, h3, h4⟩
    induction k generalizing d with
    | zero =>
      have hr : r = dirname d := h1
      subst hr
      exact .here (h3 0 (by omega)).1 (h3 0 (by omega)).2 h2
    | succ k ih =>
      refine .up (h3 0 (by omega)).1 (h3 0 (by omega)).2 (h4 0 (by omega)) (ih h1 (fun j hj => h3 (j + 1) (by omega))
        (fun j hj => h4 (j + 1) (by omega)))

end Oelint

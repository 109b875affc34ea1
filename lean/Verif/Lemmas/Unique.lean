import Verif.Lemmas.Uids
import Verif.Lemmas.History
import Verif.Lemmas.Queries
import Verif.Spec.Unique
/-! All items of a stash are different objects (for C79). -/
set_option linter.unusedSectionVars false
set_option linter.unusedSimpArgs false
namespace Oelint
variable [Uni]
open Spec

/-- all items of the stash are different objects, made before -/
structure Distinct (s : Stash) : Prop where
  nodup : (s.items.map (·.uid)).Nodup
  below : ∀ x ∈ s.items, x.uid < s.nextUid

theorem Distinct.ext {s s' : Stash} {l : List Item} (h : Distinct s) (he : Ext s s' l) : Distinct s' := by
  obtain ⟨old, new, h1, h2, h3, h4, h5⟩ := he
  have hold : ∀ x ∈ old, x.uid < s.nextUid := by
    refine uid_range (P := fun u => u < s.nextUid) h2.uids fun u hu => ?_
    obtain ⟨y, hy, rfl⟩ := List.mem_map.1 hu
    exact h.below y hy
  constructor
  · rw [h1, List.map_append, List.nodup_append']
    refine ⟨by rw [h2.uids]; exact h.nodup, ?_, fun u hu hv => ?_⟩
    · rw [List.map_append] at h3; exact h3.of_append_left
    · obtain ⟨x, hx, rfl⟩ := List.mem_map.1 hu
      obtain ⟨y, hy, he⟩ := List.mem_map.1 hv
      have := hold x hx
      have := (h4 y (by simp [hy])).1
      omega
  · intro x hx
    rw [h1] at hx
    rcases List.mem_append.1 hx with hx | hx
    · have := hold x hx; omega
    · exact (h4 x (by simp [hx])).2

theorem removeItems_sublist (l : List Item) (s : Stash) : (removeItems l s).2.items.Sublist s.items ∧
    (removeItems l s).2.nextUid = s.nextUid := by
  induction l generalizing s with
  | nil => exact ⟨List.Sublist.refl _, rfl⟩
  | cons x xs ih =>
    rw [removeItems_cons]
    split
    · obtain ⟨h1, h2⟩ := ih { s with items := s.items.erase x }
      exact ⟨h1.trans (List.erase_sublist ..), h2⟩
    · exact ⟨List.Sublist.refl _, rfl⟩

theorem Distinct.finalize {s : Stash} (h : Distinct s) (W : World) : Distinct (finalize W s).2 := by
  obtain ⟨items, map, he, hg⟩ := finalize_frame W s
  have hu : items.map (·.uid) = s.items.map (·.uid) := map_eq_of_forall₂ (R := Grown) (fun a b h => by
    obtain ⟨fs, rfl⟩ := h; rfl) hg
  rw [he]
  refine ⟨by show (items.map (·.uid)).Nodup; rw [hu]; exact h.nodup, ?_⟩
  refine uid_range (P := fun u => u < s.nextUid) hu fun u hm => ?_
  obtain ⟨y, hy, rfl⟩ := List.mem_map.1 hm
  exact h.below y hy

theorem Distinct.items {s : Stash} (h : Distinct s) : s.items.Nodup := h.nodup.of_map _

theorem getItemsFor_perm {s : Stash} (h : Distinct s) (W : World) (f : Filter) [DecidablePred (Selected s f)] :
    (getItemsFor W s f).Perm (s.items.filter (fun x => decide (Selected s f x))) := by
  refine (List.perm_ext_iff_of_nodup (reduceL_nodup W s s.items f) (h.items.filter _)).2 fun x => ?_
  rw [List.mem_filter, decide_eq_true_iff]
  exact mem_getItemsFor W s f x

theorem selected_all (s : Stash) (x : Item) : Selected s {} x := ⟨by simp, by simp [given], by simp [given]⟩

theorem getItemsFor_all {s : Stash} (h : Distinct s) (W : World) : (getItemsFor W s {}).Perm s.items :=
  (List.perm_ext_iff_of_nodup (reduceL_nodup W s s.items {}) h.items).2 fun x => by
    rw [show (x ∈ reduceL W s s.items {} ↔ _) from mem_getItemsFor W s {} x]
    exact ⟨fun hx => hx.1, fun hx => ⟨hx, selected_all s x⟩⟩

theorem Relined.noLine {a b : List Item} (h : Relined a b) : b.map noLine = a.map noLine := h.map_eq (fun _ _ => rfl)

theorem history_distinct {W : World} {s s' : Stash} (h : History W Call.own s s') (hs : Distinct s) : Distinct s' := by
  induction h with
  | nil => exact hs
  | snoc h depth c hc ih =>
    cases c with
    | addFile p o fo => exact ih.ext (addFile_uids W depth p o fo _).1
    | append l => cases hc
    | remove l =>
      obtain ⟨h1, h2⟩ := removeItems_sublist l _
      exact ⟨ih.nodup.sublist (h1.map _), fun x hx => h2 ▸ ih.below x (h1.mem hx)⟩
    | finalize =>
      exact ih.finalize W
end Oelint

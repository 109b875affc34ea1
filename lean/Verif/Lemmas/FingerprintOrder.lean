import Verif.Lemmas.Reproducible
import Verif.Lemmas.History
import Verif.Lemmas.ReprItems
/-! The fingerprints of two runs (C91). -/
set_option linter.unusedSectionVars false
set_option linter.unusedSimpArgs false
namespace Oelint
variable [Uni]
open Spec

/-- if no `inherit` loads more than one class, a second run gives the same fingerprint -/
theorem addFile_fingerprint {W : World} {io : List Item → List Item} {hio : ∀ l, (io l).Perm l} {so : List Str → List Str}
    {hso : ∀ l, (so l).Perm l} {n : Nat} {path : Str} {off : Int} {forced : Option Str} {s : Stash}
    (hone : ∀ x ∈ (addFile W n path off forced s).2.items, OneClass x) {l : List Item}
    (h1 : (addFile (reordered W io hio so hso) n path off forced s).1 = (addFile W n path off forced s).1)
    (h2 : (addFile W n path off forced s).2.hashed = s.hashed ++ (l.map W.repr).flatten)
    (h3 : (addFile (reordered W io hio so hso) n path off forced s).2 =
        { (addFile W n path off forced s).2 with hashed := s.hashed ++ (l.map (reordered W io hio so hso).repr).flatten }) :
    addFile (reordered W io hio so hso) n path off forced s = addFile W n path off forced s := by
  obtain ⟨added, h4, h5, h6⟩ := addFile_hashesNew W n path off forced s
  rw [h2] at h4
  have hs := itemsRepr_inj W.strOrder_perm W.strOrder_perm (List.append_cancel_left h4)
  have h7 : ∀ y ∈ added, OneClass y := by
    intro y hy
    have h8 : ∃ z ∈ (addFile W n path off forced s).2.items, z = { y with line := z.line } := by
      have hm : y ∈ s.items ++ added := List.mem_append_right _ hy
      unfold Relined at h5
      generalize (addFile W n path off forced s).2.items = b at h5
      generalize s.items ++ added = a at h5 hm
      clear hone
      induction h5 with
      | nil => cases hm
      | @cons a b as bs hab _ ih =>
        rcases List.mem_cons.1 hm with rfl | hm
        · exact ⟨b, by simp, hab⟩
        · obtain ⟨z, hz, e⟩ := ih hm
          exact ⟨z, List.mem_cons_of_mem _ hz, e⟩
    obtain ⟨z, hz, e⟩ := h8
    have := hone z hz
    rw [e] at this
    exact this
  have h8 : l.map (reordered W io hio so hso).repr = l.map W.repr := by
    clear h2 h3 h4 h5
    induction hs with
    | nil => rfl
    | @cons x y xs ys hxy _ ih =>
      rw [List.map_cons, List.map_cons, ih (fun x hx => h6 x (by simp [hx])) (fun x hx => h7 x (by simp [hx]))]
      congr 1
      exact itemRepr_order W.strOrder_perm hso hxy (h6 y (by simp)) (h7 y (by simp))
  refine Prod.ext h1 (h3.trans ?_)
  rw [h8, ← h2]

end Oelint

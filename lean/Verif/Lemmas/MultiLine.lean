import Verif.Lemmas.File
import Verif.Spec.MultiLine
/-! Lines of an item (for C80). -/
set_option linter.unusedSectionVars false
set_option linter.unusedSimpArgs false
namespace Oelint
variable [Uni]
open Spec

theorem groups_mem {ls : List Str} {gs : List (List Str)} (h : Groups ls gs) {g : List Str} (hg : g ∈ gs) :
    ∃ rest, IsGroup g rest ∧ ∀ l ∈ g, l ∈ ls := by
  induction h with
  | nil => cases hg
  | @cons g' rest gs h1 _ ih =>
    rcases List.mem_cons.1 hg with rfl | hg
    · exact ⟨rest, h1, fun l hl => List.mem_append_left _ hl⟩
    · obtain ⟨r, h2, h3⟩ := ih hg
      exact ⟨r, h2, fun l hl => List.mem_append_right _ (h3 l hl)⟩

/-- a line other than the last one of a group ends in a newline -/
theorem groups_mem_nl {ls : List Str} {gs : List (List Str)} (h : Groups ls gs) (hl : ∀ l ∈ ls.dropLast, l.getLast? = some '\n')
    {g : List Str} (hg : g ∈ gs) : ∀ l ∈ g.dropLast, l.getLast? = some '\n' := by
  induction h with
  | nil => cases hg
  | @cons g' rest gs h1 _ ih =>
    have hsub : ∀ l ∈ g'.dropLast, l ∈ (g' ++ rest).dropLast := by
      intro l hl
      by_cases hr : rest = []
      · rw [hr, List.append_nil]; exact hl
      · rw [List.dropLast_append_of_ne_nil hr]; exact List.mem_append_left _ (List.mem_of_mem_dropLast hl)
    have hsub2 : ∀ l ∈ rest.dropLast, l ∈ (g' ++ rest).dropLast := by
      intro l hl
      have hr : rest ≠ [] := by rintro rfl; cases hl
      rw [List.dropLast_append_of_ne_nil hr]; exact List.mem_append_right _ hl
    rcases List.mem_cons.1 hg with rfl | hg
    · exact fun l h => hl l (hsub l h)
    · exact ih (fun l h => hl l (hsub2 l h)) hg

/-- the item and its group -/
theorem FileOk.group {W : World} {fuel : Nat} {file t : Str} {off : Int} {ns neg : Bool} {res : List Item}
    (ok : FileOk W fuel file t off ns neg res) {it : Item} (hi : it ∈ res) :
    ∃ g rest, it.realRaw = g.flatten ∧ IsGroup g rest ∧ (∀ l ∈ g, IsLine l) ∧ ∀ l ∈ g.dropLast, l.getLast? = some '\n' := by
  have : it.realRaw ∈ ok.gs.map List.flatten := by
    rw [← ok.realRaw]; exact List.mem_map_of_mem hi
  obtain ⟨g, hg, he⟩ := List.mem_map.1 this
  obtain ⟨rest, h1, h2⟩ := groups_mem ok.groups hg
  exact ⟨g, rest, he.symm, h1, fun l hl => readlines_isLine (h2 l hl), groups_mem_nl ok.groups (readlines_isLines _).2.2.2 hg⟩

/-- two lines are many lines -/
theorem manyLines_of_two {g : List Str} (hl : ∀ l ∈ g, IsLine l) (hn : ∀ l ∈ g.dropLast, l.getLast? = some '\n') {a b : Str} {r : List Str}
    (hg : g = a :: b :: r) : ManyLines g.flatten := by
  subst hg
  have h1 := hn a (by simp)
  have h2 := (hl b (by simp)).1
  rw [List.getLast?_eq_some_iff] at h1
  obtain ⟨ys, rfl⟩ := h1
  refine ⟨ys, b ++ r.flatten, by simp, by simp [h2]⟩

theorem not_manyLines_line {l : Str} (h : IsLine l) : ¬ ManyLines l := by
  rintro ⟨a, b, rfl, hb⟩
  refine h.2 ?_
  rw [List.dropLast_append_of_ne_nil (by simp)]
  obtain ⟨x, b, rfl⟩ := List.exists_cons_of_ne_nil hb
  simp

theorem continued_of_infix {l : Str} (h : IsLine l) (hi : c!"\\\n" <:+: l) : Continued l := by
  obtain ⟨a, b, e⟩ := hi
  have hb : b = [] := by
    by_contra hb
    exact not_manyLines_line h ⟨a ++ ['\\'], b, by rw [← e]; simp, hb⟩
  subst hb
  exact ⟨a, [], by rw [← e]; simp, by simp⟩

theorem funcHeader_append {l r : Str} (h : FuncHeader l) : FuncHeader (l ++ r) := by
  obtain ⟨a, w1, w2, b, rfl, h1, h2⟩ := h
  exact ⟨a, w1, w2, b ++ r, by simp, h1, h2⟩

theorem defLine_append {l r : Str} (h : DefLine l) : DefLine (l ++ r) := by
  obtain ⟨a, w1, x, b, rfl, h1, h2⟩ := h
  exact ⟨a, w1, x, b ++ r, by simp, h1, h2⟩

end Oelint

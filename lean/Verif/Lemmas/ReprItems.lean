import Verif.Lemmas.Repr
import Verif.Lemmas.History
import Verif.Lemmas.File
/-! # The items that make up a fingerprint -/
set_option linter.unusedSectionVars false
set_option linter.unusedSimpArgs false
namespace Oelint
variable [Uni]
open Spec

/-- `AddFile` hashes the items it adds, and those do not say yet what includes them -/
def HashesNew (W : World) (s s' : Stash) : Prop :=
  ∃ added : List Item, s'.hashed = s.hashed ++ (added.map W.repr).flatten ∧ Relined (s.items ++ added) s'.items ∧
    ∀ x ∈ added, x.includedFrom = []

theorem addFile_res_includedFrom {W : World} {fuel : Nat} {path : Str} {off : Int} {forced : Option Str} {s s' : Stash}
    {res : List Item} (h : addFile W fuel path off forced s = (.ok res, s')) : ∀ x ∈ res, x.includedFrom = [] := by
  rcases addFile_cases h with rfl | ⟨t, h1, h2, n, ⟨ok⟩⟩
  · simp
  · intro x hx
    rw [ok.res_eq] at hx
    unfold shiftLines at hx
    obtain ⟨y, hy, rfl⟩ := List.mem_map.1 hx
    have ho := traced_itemOf W _ (addPos_addFile W n) (Int.le_refl 0) ok.traced
    show y.includedFrom = []
    clear hx
    generalize chunksFrom off s.negative 1 ok.gs = cs at ho
    generalize ok.its = its at ho hy
    induction ho with
    | nil => cases hy
    | cons h _ ih =>
      rcases List.mem_cons.1 hy with rfl | hy
      · exact h.includedFrom
      · exact ih hy

theorem addFile_hashesNew (W : World) (fuel : Nat) (path : Str) (off : Int) (forced : Option Str) :
    M.Rel (HashesNew W) (addFile W fuel path off forced) := by
  have keep : ∀ s s' : Stash, s'.hashed = s.hashed → Relined s.items s'.items → HashesNew W s s' :=
    fun s s' h1 h2 => ⟨[], by simpa using h1, by simpa using h2, by simp⟩
  have hr : ∀ a : Stash, HashesNew W a a := fun a => keep a a rfl (Relined.refl _)
  have ht : ∀ a b c : Stash, HashesNew W a b → HashesNew W b c → HashesNew W a c := by
    rintro a b c ⟨l1, h1, h2, h3⟩ ⟨l2, h4, h5, h6⟩
    refine ⟨l1 ++ l2, by rw [h4, h1]; simp, ?_, ?_⟩
    · rw [← List.append_assoc]
      exact Relined.trans (Relined.append h2 (Relined.refl _)) h5
    · intro x hx
      rcases List.mem_append.1 hx with hx | hx
      · exact h3 x hx
      · exact h6 x hx
  induction fuel generalizing path off forced with
  | zero => exact M.Rel.raise hr _
  | succ fuel ih =>
    intro s
    by_cases hs : alreadySeen s (abspath W.cwd path) = true
    · rw [addFile_seen off forced hs]; exact hr s
    · rcases addFile_step (R := HashesNew W) ht W off forced (by simpa using hs)
        (fun o ns neg => getItems_rel hr ht (fun s => keep _ _ rfl (Relined.refl _)) W _ (fun p o f => ih p o f) o ns neg)
        (fun s => keep _ _ rfl (Relined.refl _))
        (crossLink_rel hr ht (fun s l h => keep _ _ rfl h) (fun s _ _ => keep _ _ rfl (Relined.refl _)) _)
        (addDistroMachine_rel hr ht (fun s _ => keep _ _ rfl (Relined.refl _)) W _) with ⟨e, s', he, hR⟩ | ⟨res, s4, he, hR⟩
      · rw [he]; exact hR
      · rw [he]
        exact ht _ _ _ hR ⟨res, rfl, Relined.refl _, addFile_res_includedFrom he⟩

/-! ## items that are shown in one way -/

theorem mem_strset {x : Item} {n : Str} {l : List Str} (h : (n, Attr.strset l) ∈ x.getAttributes) :
    l = x.includedFrom ∨ ∃ st cl, x.payload = .inherit st cl l := by
  obtain ⟨uid, line, raw, origin, inFileLine, includedFrom, inlineBlocks, realRaw, delim, p⟩ := x
  cases p <;>
    simp only [Item.getAttributes, ownAttributes, baseAttributes, List.cons_append, List.nil_append, List.mem_cons, Prod.mk.injEq,
      reduceCtorEq, and_false, false_or, or_false, List.not_mem_nil, Attr.strset.injEq, List.append_nil] at h
  all_goals first
    | exact Or.inl h.2
    | (rcases h with h | h
       · exact Or.inr ⟨_, _, by rw [h.2]⟩
       · exact Or.inl h.2)

theorem attrRepr_order {p : Char → Bool} {o o' : List Str → List Str} (ho : ∀ l, (o l).Perm l) (ho' : ∀ l, (o' l).Perm l)
    {n : Str} {a : Attr} (h : ∀ l, a = .strset l → l.length ≤ 1) : a.repr p o' n = a.repr p o n := by
  cases a with
  | strset l =>
    have key : ∀ o : List Str → List Str, (∀ l, (o l).Perm l) → o l = l := by
      intro o ho
      have hl := h l rfl
      cases l with
      | nil => exact List.Perm.eq_nil (ho [])
      | cons a t =>
        cases t with
        | nil => exact List.perm_singleton.1 (ho [a])
        | cons b t => simp at hl
    simp only [Attr.repr, key o ho, key o' ho']
  | _ => rfl

/-- `SameContent` carries over that an item is shown in one way -/
theorem itemRepr_order {p : Char → Bool} {o o' : List Str → List Str} (ho : ∀ l, (o l).Perm l) (ho' : ∀ l, (o' l).Perm l)
    {x y : Item} (h : SameContent x y) (h1 : y.includedFrom = []) (h2 : OneClass y) : x.repr p o' = x.repr p o := by
  have key : ∀ n l, (n, Attr.strset l) ∈ x.getAttributes → l.length ≤ 1 := by
    intro n l hm
    have hy : ∃ l', (n, Attr.strset l') ∈ y.getAttributes ∧ l.Perm l' := by
      have hf := h.2
      generalize x.getAttributes = a at hf hm
      generalize y.getAttributes = b at hf
      induction hf with
      | nil => cases hm
      | @cons a b as bs hab _ ih =>
        rcases List.mem_cons.1 hm with e | hm
        · subst e
          obtain ⟨m, v⟩ := b
          obtain ⟨hn, hv⟩ := hab
          simp only at hn hv
          subst hn
          cases v with
          | strset l' => exact ⟨l', by simp, hv⟩
          | _ => cases hv
        · obtain ⟨l', h1, h2⟩ := ih hm
          exact ⟨l', List.mem_cons_of_mem _ h1, h2⟩
    obtain ⟨l', hm', hp⟩ := hy
    rw [hp.length_eq]
    rcases mem_strset hm' with rfl | ⟨st, cl, e⟩
    · rw [h1]; simp
    · exact h2 _ _ _ e
  unfold Item.repr
  congr 2
  refine congrArg reprSeq (List.map_congr_left fun a ha => ?_)
  obtain ⟨n, v⟩ := a
  simp only
  rw [attrRepr_order ho ho' (fun l e => key n l (e ▸ ha))]

end Oelint

import Verif.Lemmas.Context
import Verif.Lemmas.FingerprintOrder
/-! Adding files whose loaded files are named with references (C91). -/
set_option linter.unusedSectionVars false
set_option linter.unusedSimpArgs false
namespace Oelint
variable [Uni]
open Spec

section
variable {W : World} {io : List Item → List Item} {hio : ∀ l, (io l).Perm l} {so : List Str → List Str} {hso : ∀ l, (so l).Perm l}

/-- the states of two runs, and the constants are those of `db` up to the known distros and machines -/
def SameButHashOf (W W' : World) (h : Str) (db : J) (s s' : Stash) : Prop := SameButHash W W' h s s' ∧ ConstsOf db s

theorem alikeIf_order {V : Str → Prop} {db : J} (hw : ∀ f, FileWithin W V f) (hv : KeepsTo db V) (hh : Str) :
    AlikeIf (NoneAssigned V) W (reordered W io hio so hso) (SameButHashOf W (reordered W io hio so hso) hh db) where
  cwd := rfl
  find := fun n d => by unfold findLocalOrLayer; rw [findLoop_order]; rfl
  root := fun n => by unfold getLayerRoot layerStart; rw [layerRootLoop_order]; rfl
  glob := fun _ => rfl
  core := by rintro s _ ⟨⟨l, e, rfl⟩, -⟩; exact ⟨rfl, rfl, rfl, rfl, rfl, rfl⟩
  set := by rintro s _ ⟨⟨l, e, rfl⟩, k⟩; intros; exact ⟨⟨l, e, rfl⟩, k⟩
  say := by rintro s _ ⟨⟨l, e, rfl⟩, k⟩ f; exact ⟨⟨l, e, rfl⟩, k⟩
  hash := by
    rintro s _ ⟨⟨l, e, rfl⟩, k⟩ i
    exact ⟨⟨l ++ i, by simp [e], by simp⟩, k⟩
  conf := by
    rintro s _ ⟨⟨l, e, rfl⟩, k⟩ key fn hk
    refine ⟨rfl, ⟨l, e, rfl⟩, ?_⟩
    obtain ⟨db1, a1, a2, -, -, a3, -⟩ := addConstants_name k.1 (fn := fn) hk
    refine ⟨by rw [a1]; exact a2, fun ks k1 k2 k3 k4 => ?_⟩
    show valueAt ks (addConstants s.consts (replConst key fn)).1 = _
    rw [a1, a3 ks k1 k2 k3 k4, k.2 ks k1 k2 k3 k4]
  ignoreClass := by rintro s _ ⟨⟨l, e, rfl⟩, k⟩; rfl
  ignoreInclude := by rintro s _ ⟨⟨l, e, rfl⟩, k⟩; rfl
  functions := by rintro s _ ⟨⟨l, e, rfl⟩, k⟩; rfl
  prep := by rintro s _ ⟨⟨l, e, rfl⟩, k⟩ f off; rfl
  step := unassigned_step W V
  expand := by
    rintro s _ ⟨⟨l, e, rfl⟩, k⟩ u f n hn
    exact (expandTerm_within (s := s) (s' := { s with hashed := hh ++ (l.map (reordered W io hio so hso).repr).flatten }) rfl
      (hv.setsWithin W k) u u f (hw f n hn)).symm

/-- the second run, up to the fingerprint -/
theorem addFile_order {V : Str → Prop} (hw : ∀ f, FileWithin W V f) {s : Stash} (hc : UsableConstants s.consts)
    (hs : SetsWithin s.consts V) (n : Nat) (path : Str) (off : Int) (forced : Option Str)
    (hv : NoneAssigned V (addFile W n path off forced s).2) :
    (addFile (reordered W io hio so hso) n path off forced s).1 = (addFile W n path off forced s).1 ∧
    ∃ l : List Item, (addFile W n path off forced s).2.hashed = s.hashed ++ (l.map W.repr).flatten ∧
      (addFile (reordered W io hio so hso) n path off forced s).2 =
        { (addFile W n path off forced s).2 with hashed := s.hashed ++ (l.map (reordered W io hio so hso).repr).flatten } := by
  obtain ⟨h1, ⟨l, h2, h3⟩, -⟩ := (alikeIf_order (io := io) (hio := hio) (so := so) (hso := hso) hw ⟨hc, hs⟩ s.hashed).addFile_sim n path off
    forced s s ⟨⟨[], by simp, by simp⟩, hc, fun _ _ _ _ _ => rfl⟩ hv
  exact ⟨h1.symm, l, h2, h3⟩

theorem addCalls_down {G : Stash → Prop} (h : StepRel W (fun s t => G t → G s)) (l : List FileCall) (s : Stash) :
    G (addCalls W l s).2 → G s := by
  induction l generalizing s with
  | nil => exact id
  | cons c l ih => exact fun g => addFile_rel h c.depth c.path c.off c.forced s (ih _ g)

/-- several calls, up to the fingerprint -/
theorem addCalls_order {V : Str → Prop} {db : J} (hw : ∀ f, FileWithin W V f) (hv : KeepsTo db V) (hh : Str) (l : List FileCall) (s s' : Stash)
    (hr : SameButHashOf W (reordered W io hio so hso) hh db s s') (hn : NoneAssigned V (addCalls W l s).2) :
    (addCalls (reordered W io hio so hso) l s').1 = (addCalls W l s).1 ∧
    SameButHashOf W (reordered W io hio so hso) hh db (addCalls W l s).2 (addCalls (reordered W io hio so hso) l s').2 := by
  induction l generalizing s s' with
  | nil => exact ⟨rfl, hr⟩
  | cons c l ih =>
    obtain ⟨h1, h2⟩ := (alikeIf_order hw hv hh).addFile_sim c.depth c.path c.off c.forced s s' hr
      (addCalls_down (unassigned_step W V) l _ hn)
    obtain ⟨h3, h4⟩ := ih _ _ h2 hn
    exact ⟨by rw [addCalls, addCalls, h1, h3], h4⟩

theorem oneClass_step (W : World) : StepRel W (fun s t => (∀ x ∈ t.items, OneClass x) → ∀ x ∈ s.items, OneClass x) := by
  refine ⟨fun _ h => h, fun _ _ _ h1 h2 h => h1 (h2 h), fun _ h => h, fun _ _ h => h, fun _ _ _ h => h, fun _ _ _ h => h,
    fun s l h u => ?_, fun _ _ h => h, fun _ l h x hx => h x (List.mem_append_left l hx)⟩
  change ∀ x ∈ l, OneClass x at u
  unfold Relined at h
  generalize s.items = k at h
  induction h with
  | nil => exact fun x hx => nomatch hx
  | @cons a b k l hab _ ih =>
    intro x hx
    rcases List.mem_cons.1 hx with rfl | hx
    · have := u b (by simp)
      rw [hab] at this
      exact this
    · exact ih (fun x hx => u x (by simp [hx])) x hx

theorem addFile_constsOf_any {db : J} {s : Stash} (k : ConstsOf db s) (n : Nat) (p : Str) (o : Int) (f : Option Str) :
    ConstsOf db (addFile W n p o f s).2 := by
  obtain ⟨h1, h2, -⟩ := addFile_grow W n p o f s k.1
  exact ⟨h1, fun ks k1 k2 k3 k4 => (h2.1 ks k1 k2 k3 k4).trans (k.2 ks k1 k2 k3 k4)⟩

/-- several calls, with the fingerprint -/
theorem addCalls_fingerprint {V : Str → Prop} {db : J} (hw : ∀ f, FileWithin W V f) (hv : KeepsTo db V) (l : List FileCall) (s : Stash)
    (k : ConstsOf db s) (hn : NoneAssigned V (addCalls W l s).2) (hone : ∀ x ∈ (addCalls W l s).2.items, OneClass x) :
    addCalls (reordered W io hio so hso) l s = addCalls W l s := by
  induction l generalizing s with
  | nil => rfl
  | cons c l ih =>
    have k1 := addFile_constsOf_any (W := W) k c.depth c.path c.off c.forced
    have e : addFile (reordered W io hio so hso) c.depth c.path c.off c.forced s = addFile W c.depth c.path c.off c.forced s := by
      obtain ⟨h1, l, h2, h3⟩ := addFile_order (io := io) (hio := hio) (so := so) (hso := hso) hw k.1 (hv.setsWithin W k) c.depth c.path c.off
        c.forced (addCalls_down (unassigned_step W V) l _ hn)
      exact addFile_fingerprint (addCalls_down (oneClass_step W) _ _ hone) h1 h2 h3
    rw [addCalls, addCalls, e, ih _ k1 hn hone]

end
end Oelint

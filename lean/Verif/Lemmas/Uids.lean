import Verif.Lemmas.Succeeds
import Mathlib.Data.List.Nodup
/-! Every item is an object of its own: identities are never used twice (for C79). -/
set_option linter.unusedSectionVars false
set_option linter.unusedSimpArgs false
namespace Oelint
variable [Uni]
open Spec

/-- the stash `s'` has the items of `s` (with other `Line`s) and further ones; these and the items `l` held outside of the stash
are objects that did not exist before -/
def Ext (s s' : Stash) (l : List Item) : Prop :=
  ∃ old new, s'.items = old ++ new ∧ Relined s.items old ∧ ((new ++ l).map (·.uid)).Nodup ∧
    (∀ x ∈ new ++ l, s.nextUid ≤ x.uid ∧ x.uid < s'.nextUid) ∧ s.nextUid ≤ s'.nextUid

theorem Relined.length {a b : List Item} (h : Relined a b) : a.length = b.length := List.Forall₂.length_eq h

theorem Relined.split {a b c : List Item} (h : Relined (a ++ b) c) : ∃ a' b', c = a' ++ b' ∧ Relined a a' ∧ Relined b b' := by
  induction a generalizing c with
  | nil => exact ⟨[], c, rfl, .nil, h⟩
  | cons x a ih =>
    cases h with
    | cons hx h =>
      obtain ⟨a', b', rfl, h1, h2⟩ := ih h
      exact ⟨_ :: a', b', rfl, .cons hx h1, h2⟩

theorem Relined.uids {a b : List Item} (h : Relined a b) : b.map (·.uid) = a.map (·.uid) :=
  h.map_eq (fun _ _ => rfl)

theorem Ext.refl (s : Stash) : Ext s s [] := ⟨s.items, [], by simp, Relined.refl _, by simp, by simp, le_refl _⟩

theorem Ext.of_same {s s' : Stash} (h1 : s'.items = s.items) (h2 : s'.nextUid = s.nextUid) : Ext s s' [] :=
  ⟨s.items, [], by simp [h1], Relined.refl _, by simp, by simp, by omega⟩

theorem Ext.drop {s s' : Stash} {l : List Item} (h : Ext s s' l) : Ext s s' [] := by
  obtain ⟨old, new, h1, h2, h3, h4, h5⟩ := h
  refine ⟨old, new, h1, h2, ?_, fun x hx => h4 x (by simp at hx; simp [hx]), h5⟩
  rw [List.map_append] at h3
  simpa using h3.of_append_left

/-- the uids of a list, known up to a range -/
theorem uid_range {l : List Item} {us : List Nat} (h : l.map (·.uid) = us) {P : Nat → Prop} (hp : ∀ u ∈ us, P u) :
    ∀ x ∈ l, P x.uid := fun x hx => hp _ (by rw [← h]; exact List.mem_map.2 ⟨x, hx, rfl⟩)

theorem Ext.trans {s s1 s2 : Stash} {l1 l2 : List Item} (h1 : Ext s s1 l1) (h2 : Ext s1 s2 l2) : Ext s s2 (l1 ++ l2) := by
  obtain ⟨o1, n1, a1, a2, a3, a4, a5⟩ := h1
  obtain ⟨o2, n2, b1, b2, b3, b4, b5⟩ := h2
  rw [a1] at b2
  obtain ⟨p, q, rfl, c1, c2⟩ := b2.split
  have hq : ∀ x ∈ q, s.nextUid ≤ x.uid ∧ x.uid < s1.nextUid := by
    refine uid_range (P := fun u => s.nextUid ≤ u ∧ u < s1.nextUid) c2.uids fun u hu => ?_
    obtain ⟨y, hy, rfl⟩ := List.mem_map.1 hu
    exact a4 y (by simp [hy])
  refine ⟨p, q ++ n2, by rw [b1]; simp, Relined.trans a2 c1, ?_, ?_, by omega⟩
  · have e : ((q ++ n2 ++ (l1 ++ l2)).map (·.uid)).Perm (((n1 ++ l1).map (·.uid)) ++ ((n2 ++ l2).map (·.uid))) := by
      simp only [List.map_append, c2.uids]
      rw [List.append_assoc, List.append_assoc]
      refine List.Perm.append_left _ ?_
      rw [← List.append_assoc, ← List.append_assoc]
      exact List.Perm.append_right _ (List.perm_append_comm)
    rw [e.nodup_iff, List.nodup_append']
    refine ⟨a3, b3, ?_⟩
    intro u hu hv
    obtain ⟨x, hx, rfl⟩ := List.mem_map.1 hu
    obtain ⟨y, hy, he⟩ := List.mem_map.1 hv
    have := (a4 x hx).2
    have := (b4 y hy).1
    omega
  · intro x hx
    simp only [List.mem_append] at hx
    rcases hx with (hx | hx) | (hx | hx)
    · have := hq x hx; omega
    · have := b4 x (by simp [hx]); omega
    · have := a4 x (by simp [hx]); omega
    · have := b4 x (by simp [hx]); omega

/-- the items held outside of the stash by the result of a computation -/
def held {α : Type} (l : α → List Item) : Except PyErr α → List Item
  | .ok a => l a
  | .error _ => []

/-- a computation only makes new objects -/
def Uids {α : Type} (l : α → List Item) (x : M α) : Prop := ∀ s, Ext s (x s).2 (held l (x s).1)

section
variable {α β : Type}

theorem Uids.pure {l : α → List Item} (a : α) (h : l a = []) : Uids l (pure a : M α) := fun s => by
  show Ext s s (l a); rw [h]; exact Ext.refl s

theorem Uids.bind {l : β → List Item} {x : M α} {f : α → M β} (hx : Uids (fun _ => []) x) (hf : ∀ a, Uids l (f a)) :
    Uids l (x >>= f) := by
  intro s
  have h1 := hx s
  rw [M.bind_def]
  rcases he : x s with ⟨r, s1⟩
  rw [he] at h1
  cases r with
  | error e => exact h1
  | ok a => exact Ext.trans (l1 := []) h1 (hf a s1)

theorem Uids.ask {f : Stash → Except PyErr α} : Uids (fun _ => []) (M.ask f) := fun s => by
  show Ext s s (held _ (f s))
  cases f s <;> exact Ext.refl s

theorem Uids.lift {f : Except PyErr α} : Uids (fun _ => []) (M.lift f) := fun s => by
  show Ext s s (held _ f)
  cases f <;> exact Ext.refl s

theorem Uids.drop {l : α → List Item} {x : M α} (h : Uids l x) : Uids (fun _ => []) x := fun s => by
  have : ∀ r : Except PyErr α, held (fun _ : α => []) r = [] := fun r => by cases r <;> rfl
  rw [this]
  exact (h s).drop

theorem Uids.rel {x : M α} (h : M.Rel (fun s s' => Ext s s' []) x) : Uids (fun _ => []) x := fun s => by
  have : ∀ r : Except PyErr α, held (fun _ : α => []) r = [] := fun r => by cases r <;> rfl
  rw [this]
  exact h s

theorem Uids.fresh {l : α → List Item} (g : Nat → α) (h : ∀ u, ∃ it, l (g u) = [it] ∧ it.uid = u) :
    Uids l (do let uid ← freshUid; Pure.pure (g uid)) := fun s => by
  obtain ⟨it, h1, h2⟩ := h s.nextUid
  show Ext s { s with nextUid := s.nextUid + 1 } (l (g s.nextUid))
  rw [h1]
  exact ⟨s.items, [], by simp, Relined.refl _, by simp, by simp [h2], by simp⟩

end

/-- the item of a result of the parser -/
def heldOpt : Option (Item × Int) → List Item
  | none => []
  | some r => [r.1]

theorem mkItem_uid (uid : Nat) (p : Params) (pl : Payload) : (mkItem uid p pl).uid = uid := rfl
theorem mkVariable_uid (uid : Nat) (p : Params) (n v o : Str) : (mkVariable uid p n v o).uid = uid := by unfold mkVariable; rfl
theorem mkFunction_uid (k : Str → Bool) (uid : Nat) (p : Params) (n : Option Str) (b : Str) (py fr : Option Str) :
    (mkFunction k uid p n b py fr).uid = uid := by unfold mkFunction; rfl
theorem mkTaskAdd_uid (uid : Nat) (p : Params) (n : Str) (b a c : Option Str) : (mkTaskAdd uid p n b a c).uid = uid := by
  unfold mkTaskAdd; rfl
theorem mkTaskDel_uid (uid : Nat) (p : Params) (n : Str) (c : Option Str) : (mkTaskDel uid p n c).uid = uid := by
  unfold mkTaskDel; rfl

section parser
variable (W : World) {add : AddFn} (file : Str) (hadd : ∀ p o f, Uids (fun _ => []) (add p o f))
include hadd

theorem inheritLoop_uids (lineno : Int) (inhname : Str) (locs l found : List Str) (off : Int) :
    Uids (fun _ => []) (inheritLoop W add file lineno inhname locs l found off) := by
  induction l generalizing found off with
  | nil => exact Uids.pure _ rfl
  | cons inh rest ih =>
    unfold inheritLoop
    refine Uids.bind Uids.lift fun path => ?_
    split
    · exact ih _ _
    · refine Uids.bind Uids.ask fun ign => ?_
      split
      · exact ih _ _
      · exact Uids.bind (hadd _ _ _) fun tmp => ih _ _

theorem handleKind_uids (lineno : Int) (p : Params) (k : Kind) (pat : Pattern) (m : Mt) :
    Uids heldOpt (handleKind W add file lineno p k pat m) := by
  have hsimple : ∀ pl : Payload, Uids heldOpt (do let uid ← freshUid; pure (some (mkItem uid p pl, (0 : Int)))) :=
    fun pl => Uids.fresh (fun uid => some (mkItem uid p pl, (0 : Int))) fun u => ⟨_, rfl, rfl⟩
  unfold handleKind
  cases k <;> simp only
  case inherit =>
    refine Uids.bind Uids.ask fun inhname => ?_
    refine Uids.bind (inheritLoop_uids W file hadd _ _ _ _ _ _) fun r => ?_
    exact Uids.fresh (fun uid => some (mkItem uid p _, r.2)) fun u => ⟨_, rfl, rfl⟩
  case inheritGlob =>
    refine Uids.bind Uids.ask fun inhname => ?_
    refine Uids.bind (inheritLoop_uids W file hadd _ _ _ _ _ _) fun r => ?_
    exact Uids.fresh (fun uid => some (mkItem uid p _, r.2)) fun u => ⟨_, rfl, rfl⟩
  case «include» =>
    refine Uids.bind Uids.ask fun name => ?_
    refine Uids.bind Uids.lift fun path => ?_
    split
    · exact hsimple _
    · refine Uids.bind Uids.ask fun ign => ?_
      split
      · exact Uids.pure _ rfl
      · refine Uids.bind (hadd _ _ _) fun tmp => ?_
        exact Uids.fresh (fun uid => some (mkItem uid p _, maxInFileLine tmp)) fun u => ⟨_, rfl, rfl⟩
  case addtask =>
    split
    · exact Uids.pure _ rfl
    · exact Uids.fresh (fun uid => some (mkTaskAdd uid p _ _ _ _, 0)) fun u => ⟨_, rfl, mkTaskAdd_uid _ _ _ _ _ _⟩
  case deltask => exact Uids.fresh (fun uid => some (mkTaskDel uid p _ _, 0)) fun u => ⟨_, rfl, mkTaskDel_uid _ _ _ _⟩
  case func =>
    refine Uids.bind Uids.ask fun known => ?_
    exact Uids.fresh (fun uid => some (mkFunction known.has uid p _ _ _ _, 0)) fun u => ⟨_, rfl, mkFunction_uid _ _ _ _ _ _ _⟩
  case vars => exact Uids.fresh (fun uid => some (mkVariable uid p _ _ _, 0)) fun u => ⟨_, rfl, mkVariable_uid _ _ _ _ _⟩
  all_goals exact hsimple _

theorem classify_uids (lineno : Int) (p : Params) (cnt : Str) (l : List (Kind × Pattern)) :
    Uids (fun r => [r.1]) (classify W add file lineno p cnt l) := by
  induction l with
  | nil => exact Uids.fresh (fun uid => (mkItem uid p .item, (0 : Int))) fun u => ⟨_, rfl, rfl⟩
  | cons kp rest ih =>
    obtain ⟨k, pat⟩ := kp
    unfold classify
    split
    · exact ih
    · rename_i m _
      intro s
      have h1 := handleKind_uids W file hadd lineno p k pat m s
      rw [M.bind_def]
      rcases he : handleKind W add file lineno p k pat m s with ⟨r, s1⟩
      rw [he] at h1
      cases r with
      | error e => exact h1
      | ok a =>
        cases a with
        | some r => exact h1
        | none => exact Ext.trans (l1 := []) h1 (ih s1)

theorem itemsLoop_uids (lineOffset off : Int) (ns : Bool) (cs : List Chunk) :
    Uids id (itemsLoop W add file lineOffset off ns cs) := by
  induction cs generalizing off ns with
  | nil => exact Uids.pure _ rfl
  | cons c cs ih =>
    intro s
    unfold itemsLoop
    have h1 := classify_uids W file hadd c.line (chunkParams file lineOffset off ns c) c.cnt parseOrder s
    rw [M.bind_def]
    rcases he : classify W add file c.line (chunkParams file lineOffset off ns c) c.cnt parseOrder s with ⟨r, s1⟩
    rw [he] at h1
    cases r with
    | error e => exact h1
    | ok a =>
      obtain ⟨it, o⟩ := a
      simp only
      have h2 := ih (off + o) (ns || it.isNewStyle) s1
      rw [M.bind_def]
      rcases he2 : itemsLoop W add file lineOffset (off + o) (ns || it.isNewStyle) cs s1 with ⟨r, s2⟩
      rw [he2] at h2
      cases r with
      | error e => exact (Ext.trans h1 h2).drop
      | ok its => exact Ext.trans h1 h2

theorem getItems_uids (lineOffset : Int) (ns neg : Bool) : Uids id (getItems W add file lineOffset ns neg) := by
  unfold getItems
  exact Uids.bind Uids.lift fun _ => itemsLoop_uids W _ hadd _ _ _ _

end parser

/-- what `AddFile` does to the items: those of before stay, with other `Line`s perhaps; then come those of the files loaded on the way,
then those returned; all the new ones are different objects -/
theorem addFile_uids (W : World) (fuel : Nat) (path : Str) (off : Int) (forced : Option Str) (s : Stash) :
    Ext s (addFile W fuel path off forced s).2 [] ∧
    ∀ res s', addFile W fuel path off forced s = (.ok res, s') →
      ∃ old nested, s'.items = old ++ nested ++ res ∧ Relined s.items old ∧ ((nested ++ res).map (·.uid)).Nodup ∧
        ∀ x ∈ nested ++ res, s.nextUid ≤ x.uid ∧ x.uid < s'.nextUid := by
  induction fuel generalizing path off forced s with
  | zero => exact ⟨Ext.refl s, fun res s' h => by cases h⟩
  | succ fuel ih =>
    by_cases hs : alreadySeen s (abspath W.cwd path) = true
    · rw [addFile_seen off forced hs]
      exact ⟨Ext.refl s, fun res s' h => by cases h; exact ⟨s.items, [], by simp, Relined.refl _, by simp, by simp⟩⟩
    · have hs : alreadySeen s (abspath W.cwd path) = false := by simpa using hs
      rw [addFile_eq W fuel path off forced s hs]
      have hadd : ∀ p o f, Uids (fun _ => []) (addFile W fuel p o f) := fun p o f => Uids.rel fun s => (ih p o f s).1
      have h1 := getItems_uids W (abspath W.cwd path) hadd off s.newStyle s.negative (markSeen s (abspath W.cwd path))
      rcases hx : getItems W (addFile W fuel) (abspath W.cwd path) off s.newStyle s.negative (markSeen s (abspath W.cwd path)) with ⟨r, s1⟩
      rw [hx] at h1
      have hsame : Ext s (markSeen s (abspath W.cwd path)) [] := by
        unfold markSeen
        split <;> exact Ext.of_same rfl rfl
      cases r with
      | error e => exact ⟨Ext.trans (l1 := []) hsame h1, fun res s' h => by cases h⟩
      | ok its =>
        simp only
        have h1 : Ext s s1 its := Ext.trans (l1 := []) hsame h1
        have h1' : Ext s { s1 with map := enterMap s1.map (abspath W.cwd path) forced } its := h1
        have h2 := crossLink_rel (R := fun s s' => s'.nextUid = s.nextUid ∧ Relined s.items s'.items) (fun a => ⟨rfl, Relined.refl _⟩)
          (fun a b c h h' => ⟨h'.1.trans h.1, h.2.trans h'.2⟩) (fun s l hl => ⟨rfl, hl⟩) (fun s k x => ⟨rfl, Relined.refl _⟩)
          (abspath W.cwd path) its { s1 with map := enterMap s1.map (abspath W.cwd path) forced }
        have hpost := crossLink_post (abspath W.cwd path) its
        have hE : ∀ s3 : Stash, s3.nextUid = s1.nextUid → Relined s1.items s3.items → Ext s s3 its := by
          intro s3 e1 e2
          have : Ext s1 s3 [] := ⟨s3.items, [], by simp, e2, by simp, by simp, by omega⟩
          simpa using Ext.trans h1 this
        rcases hy : crossLink (abspath W.cwd path) its { s1 with map := enterMap s1.map (abspath W.cwd path) forced } with ⟨r, s3⟩
        rw [hy] at h2
        have h3 : Ext s s3 its := hE s3 h2.1 h2.2
        cases r with
        | error e => exact ⟨h3.drop, fun res s' h => by cases h⟩
        | ok res =>
          simp only
          obtain ⟨mx, -, hres, -⟩ := hpost _ _ _ hy
          have h4 := addDistroMachine_rel (R := fun s s' => s'.nextUid = s.nextUid ∧ s'.items = s.items) (fun a => ⟨rfl, rfl⟩)
            (fun a b c h h' => ⟨h'.1.trans h.1, h'.2.trans h.2⟩) (fun s db => ⟨rfl, rfl⟩) W (abspath W.cwd path) s3
          rcases hz : addDistroMachine W (abspath W.cwd path) s3 with ⟨r, s4⟩
          rw [hz] at h4
          have h5 : Ext s s4 its := by
            obtain ⟨old, new, a1, a2, a3, a4, a5⟩ := h3
            exact ⟨old, new, by rw [h4.2, a1], a2, a3, by rw [h4.1]; exact a4, by rw [h4.1]; exact a5⟩
          cases r with
          | error e => exact ⟨h5.drop, fun res s' h => by cases h⟩
          | ok u =>
            have hru : res.map (·.uid) = its.map (·.uid) := by rw [hres]; simp [shiftLines]
            obtain ⟨old, new, a1, a2, a3, a4, a5⟩ := h5
            have hnd : ((new ++ res).map (·.uid)).Nodup := by
              rw [List.map_append, hru, ← List.map_append]; exact a3
            have hrange : ∀ x ∈ new ++ res, s.nextUid ≤ x.uid ∧ x.uid < s4.nextUid := by
              intro x hx'
              rcases List.mem_append.1 hx' with hx' | hx'
              · exact a4 x (by simp [hx'])
              · exact uid_range hru (P := fun u => s.nextUid ≤ u ∧ u < s4.nextUid) (fun u hu => by
                  obtain ⟨y, hy, rfl⟩ := List.mem_map.1 hu
                  exact a4 y (by simp [hy])) x hx'
            refine ⟨⟨old, new ++ res, ?_, a2, by simpa using hnd, by rw [List.append_nil]; exact hrange, a5⟩, fun r' s' h => ?_⟩
            · show s4.items ++ res = _; rw [a1]; simp
            · cases h
              exact ⟨old, new, by show s4.items ++ res = _; rw [a1], a2, hnd, hrange⟩

end Oelint

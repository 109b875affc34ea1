import Verif.Lemmas.Deaf
import Verif.Lemmas.Places
/-! A disk that changes while a stash is used (C101). -/
set_option linter.unusedSectionVars false
set_option linter.unusedSimpArgs false
namespace Oelint
variable [Uni]
open Spec

theorem Spec.SameButDisk.form {W W' : World} (h : SameButDisk W W') :
    ∃ d hd, W' = W.apart d hd W'.file W'.pathExists W'.isFile W'.isDir W'.glob ∧ d = W.cwd :=
  ⟨W'.cwd, W'.cwd_abs, apart_form h.itemOrder h.strOrder h.urlparse h.printable h.sha1, h.cwd⟩

theorem Spec.SameButDisk.symm {W W' : World} (h : SameButDisk W W') : SameButDisk W' W :=
  ⟨h.cwd.symm, h.itemOrder.symm, h.strOrder.symm, h.urlparse.symm, h.printable.symm, h.sha1.symm⟩

theorem Spec.SameButDisk.trans {W W' W'' : World} (h : SameButDisk W W') (h' : SameButDisk W' W'') : SameButDisk W W'' :=
  ⟨h'.cwd.trans h.cwd, h'.itemOrder.trans h.itemOrder, h'.strOrder.trans h.strOrder, h'.urlparse.trans h.urlparse,
    h'.printable.trans h.printable, h'.sha1.trans h.sha1⟩

section
set_option smartUnfolding false

theorem disk_freshVal {W W' : World} (h : SameButDisk W W') (s : Stash) (k : CKey) (hk : k.diskless = true) (hk' : k.kept = true) :
    freshVal W' s k = freshVal W s k := by
  obtain ⟨d, hd, hw, -⟩ := h.form
  rw [hw]
  cases k with
  | files f p => cases hk
  | packageNames f b => cases hk
  | layerRoot n => cases hk
  | found n d => cases hk
  | packagesDynamic f => cases hk'
  | isDynamicPackage f n => cases hk'
  | bbClasses => cases hk'
  | _ => rfl

theorem disk_question {W W' : World} (h : SameButDisk W W') (q : Question) (hq : q.offline = true) : q.ask W' = q.ask W := by
  obtain ⟨d, hd, hw, -⟩ := h.form
  rw [hw]
  cases q with
  | files f p => cases hq
  | expandTerm f v sp => cases hq
  | expandVar f a v n => cases hq
  | packageNames f b => cases hq
  | packagesDynamic f => cases hq
  | isDynamicPackage f n => cases hq
  | _ => rfl

theorem disk_call {W W' : World} (h : SameButDisk W W') (d : Nat) (k : Call) (hk : ∀ p o f, k ≠ .addFile p o f) :
    k.perform W' d = k.perform W d := by
  obtain ⟨d', hd, hw, -⟩ := h.form
  rw [hw]
  cases k with
  | addFile p o f => exact absurd rfl (hk p o f)
  | _ => rfl
end

/-- everything that depends on the disk -/
def CKey.onDisk (k : CKey) : Bool := !k.diskless

/-- what depends on the disk, but for the places of files -/
def CKey.onDiskNotPlace (k : CKey) : Bool := !k.diskless && !k.place

theorem onDisk_off : ∀ k : CKey, k.diskless = true → k.onDisk = false := fun k h => by unfold CKey.onDisk; rw [h]; rfl
theorem onDiskNotPlace_off : ∀ k : CKey, k.diskless = true → k.onDiskNotPlace = false := fun k h => by
  unfold CKey.onDiskNotPlace; rw [h]; rfl
theorem onDiskNotPlace_place : ∀ k : CKey, k.place = true → k.onDiskNotPlace = false := fun k h => by
  unfold CKey.onDiskNotPlace; rw [h]; simp

/-- what is remembered and does not depend on the disk is right -/
def ValidD (W : World) (c : CStash) : Prop := Valid W (c.forget CKey.onDisk)

theorem mem_forget {P : CKey → Bool} {c : CStash} {e : CKey × CVal} : e ∈ (c.forget P).tab ↔ e ∈ c.tab ∧ P e.1 = false := by
  show e ∈ c.tab.filter _ ↔ _
  rw [List.mem_filter]
  simp

theorem ValidD.world {W W' : World} (h : SameButDisk W W') {c : CStash} (hc : ValidD W c) : ValidD W' c := by
  intro e he hk
  have hd : e.1.diskless = true := by
    have := (mem_forget.1 he).2
    unfold CKey.onDisk at this
    simpa using this
  rw [disk_freshVal h _ _ hd hk]
  exact hc e he hk

theorem Valid.validD {W : World} {c : CStash} {P : CKey → Bool} (hP : ∀ k, P k = true → k.onDisk = true) (hc : Valid W (c.forget P)) : ValidD W c := by
  intro e he hk
  obtain ⟨h1, h2⟩ := mem_forget.1 he
  refine hc e (mem_forget.2 ⟨h1, ?_⟩) hk
  cases hp : P e.1 with
  | false => rfl
  | true => rw [hP _ hp] at h2; cases h2

theorem ValidD.places {W : World} {c : CStash} (hc : ValidD W c) (hp : PlacesRight W c) : Valid W (c.forget CKey.onDiskNotPlace) := by
  rintro ⟨k, v⟩ he hk
  obtain ⟨h1, h2⟩ := mem_forget.1 he
  cases hd : k.onDisk with
  | false => exact hc _ (mem_forget.2 ⟨h1, hd⟩) hk
  | true =>
    cases k with
    | layerRoot n =>
      obtain ⟨r, rfl, hr⟩ := hp.1 n v h1
      show (getLayerRoot W n).map _ = _
      rw [hr]; rfl
    | found n d =>
      obtain ⟨r, rfl, hr⟩ := hp.2 n d v h1
      show (findLocalOrLayer W n d).map _ = _
      rw [hr]; rfl
    | files f p => cases h2
    | packageNames f b => cases h2
    | _ => cases hd

/-- remembering something that is forgotten -/
theorem memo_forgotten {W : World} {k : CKey} {x : CM CVal} {P : CKey → Bool} (hk : P k = true) (hx : Deaf P x) (hv : CKeeps W x)
    {c : CStash} (hc : Valid W (c.forget P)) :
    (memo k x c).2.base = c.base ∧ Valid W ((memo k x c).2.forget P) := by
  unfold memo
  cases c.tab.lookup k with
  | some w => exact ⟨rfl, hc⟩
  | none =>
    simp only
    have h := hv _ hc
    rw [hx c] at h
    rcases hxc : x c with ⟨r, c'⟩
    rw [hxc] at h
    cases r with
    | error e => exact h
    | ok a =>
      refine ⟨h.1, ?_⟩
      simp only [CStash.forget, List.filter_cons, hk, Bool.not_true, Bool.false_eq_true, if_false]
      exact h.2

theorem bind_pure_snd {α β : Type} (x : CM α) (f : α → β) (c : CStash) :
    ((do let a ← x; pure (f a) : CM β) c).2 = (x c).2 := by
  rw [CM.bind_def]
  rcases x c with ⟨r, c'⟩
  cases r <;> rfl

theorem validD_question {W : World} (q : Question) {c : CStash} (hc : ValidD W c) :
    (q.ask W c).2.base = c.base ∧ ValidD W (q.ask W c).2 := by
  cases hq : q.remembersDisk with
  | false =>
    have h := keeps_question (W := W) q _ hc
    rw [deaf_question W onDisk_off q hq c] at h
    exact h
  | true =>
    have hoff := onDisk_off
    cases q with
    | files f p =>
      show ((cFiles W f p >>= fun a => (pure (Answer.names a) : CM Answer)) c).2.base = _ ∧ ValidD W ((cFiles W f p >>= fun a => (pure (Answer.names a) : CM Answer)) c).2
      rw [bind_pure_snd]
      unfold cFiles
      rw [bind_pure_snd]
      refine memo_forgotten rfl ?_ ?_ hc
      · exact deaf_bind (deaf_itemsFor W hoff _) (fun _ => deaf_bind
          (deaf_map (fun _ => deaf_bind (deaf_itemsFor W hoff _) (fun _ => deaf_pure _)) _) (fun _ => deaf_pure _))
      · exact CKeeps.bind (reads_itemsFor _).keeps (fun us => CKeeps.bind (reads_cMap (g := fun i s =>
          (getItemsFor W s { filename := some i.origin }).map (fun (x : Item) => dirname x.origin ++ c!"/*/" ++ p))
          (fun i => CReads.mapOk _ (reads_itemsFor _)) us).keeps (fun _ => (CReads.pure _).keeps))
    | packageNames f b =>
      show ((cPackageNames W f b >>= fun a => (pure (Answer.names a) : CM Answer)) c).2.base = _ ∧ ValidD W ((cPackageNames W f b >>= fun a => (pure (Answer.names a) : CM Answer)) c).2
      rw [bind_pure_snd]
      unfold cPackageNames
      rw [bind_pure_snd]
      refine memo_forgotten rfl ?_ ?_ hc
      · exact deaf_bind (deaf_itemsFor W hoff _) (fun _ => deaf_bind (deaf_itemsFor W hoff _)
          (fun _ => deaf_bind (deaf_packageLoop W hoff _ _ _ _ _) (fun _ => deaf_bind (deaf_packageLoop W hoff _ _ _ _ _)
          (fun _ => deaf_pure _))))
      · exact CKeeps.bind (reads_itemsFor _).keeps (fun _ => CKeeps.bind (reads_itemsFor _).keeps
          (fun _ => CKeeps.bind (reads_packageLoop _ _ _ _ _).keeps (fun _ => CKeeps.bind (reads_packageLoop _ _ _ _ _).keeps
          (fun _ => (CReads.pure _).keeps))))
    | _ => cases hq

theorem onDisk_of {k : CKey} (h : k.onDiskNotPlace = true) : k.onDisk = true := by
  unfold CKey.onDiskNotPlace at h
  unfold CKey.onDisk
  simp only [Bool.and_eq_true] at h
  exact h.1

theorem validD_call {W : World} {k : Call} {d : Nat} {c c' : CStash} {r : List Item} (hc : ValidD W c) (hp : PlacesRight W c)
    (h : k.perform W d c = (.ok r, c')) : Valid W (c'.forget CKey.onDiskNotPlace) := by
  have hd := deaf_call W onDiskNotPlace_off onDiskNotPlace_place d k c
  rw [h] at hd
  exact valid_call (hc.places hp) hd

theorem validD_failed {W : World} {p : Str} {o : Int} {f : Option Str} {d : Nat} {c c' : CStash} {e : PyErr} (hc : ValidD W c) (hp : PlacesRight W c)
    (h : (Call.addFile p o f).perform W d c = (.error e, c')) (he : PyErr.early e = true) : Valid W (c'.forget CKey.onDiskNotPlace) := by
  have hd := deaf_call W onDiskNotPlace_off onDiskNotPlace_place d (.addFile p o f) c
  rw [h] at hd
  exact valid_failed (hc.places hp) hd he

theorem validD_livedOver {W : World} {c0 c : CStash} (h : LivedOver W c0 c) (h0 : ValidD W c0) : ValidD W c := by
  induction h with
  | nil => exact h0
  | call h hw hp hk ih => exact ((validD_call (ih.world hw) hp hk).validD fun _ => onDisk_of).world hw.symm
  | failed h hw hp hk he ih => exact ((validD_failed (ih.world hw) hp hk he).validD fun _ => onDisk_of).world hw.symm
  | ask h hw q ih => exact (validD_question q (ih.world hw)).2.world hw.symm

/-- the answer to a question that remembers nothing of the disk -/
theorem disk_answer {W : World} {c : CStash} (hc : ValidD W c) (q : Question) (h1 : q.neverCleared = false) (h2 : q.remembersDisk = false) :
    (q.ask W c).1 = q.fresh W c.base := by
  obtain ⟨c', h, -⟩ := reads_question (W := W) q h1 _ hc
  rw [deaf_question W onDisk_off q h2 c] at h
  exact (Prod.mk.inj h).1

/-- after a call that emptied the caches everything is right again -/
theorem disk_emptied {W : World} {c : CStash} (hc : Valid W (c.forget CKey.onDiskNotPlace)) (hn : NoCleared c) : Valid W c := by
  intro e he hk
  refine hc e (mem_forget.2 ⟨he, ?_⟩) hk
  have := hn e he
  obtain ⟨k, v⟩ := e
  cases k with
  | files f p => cases this
  | packageNames f b => cases this
  | _ => rfl

theorem disk_sim {W : World} {k : Call} {d : Nat} (hk : k ≠ .finalize) {c : CStash} (hc : ValidD W c) (hp : PlacesRight W c) :
    (k.perform W d c).1 = (k.plain W d c.base).1 ∧ (k.perform W d c).2.base = (k.plain W d c.base).2 := by
  obtain ⟨r, c', h1, h2, -⟩ := sim_call (W := W) k d hk _ (hc.places hp)
  rw [deaf_call W onDiskNotPlace_off onDiskNotPlace_place d k c] at h1
  have e1 := (Prod.mk.inj h1).1
  have e2 : ((k.perform W d c).2.forget CKey.onDiskNotPlace).base = c'.base := congrArg CStash.base (Prod.mk.inj h1).2
  replace e2 : (k.perform W d c).2.base = c'.base := e2
  have e3 : (c.forget CKey.onDiskNotPlace).base = c.base := rfl
  rw [e3] at h2
  rw [h2, e1, e2]
  exact ⟨rfl, rfl⟩

section
set_option smartUnfolding false
theorem tree_places {W W' : World} (h : SameTree W W') (c : CStash) (hc : PlacesRight W c) : PlacesRight W' c := by
  have e1 : getLayerRoot W' = getLayerRoot W := by
    obtain ⟨d, hd, hw, e⟩ := h.disk.form
    rw [h.pathExists, h.isFile, h.isDir] at hw
    subst e
    rw [hw]
    rfl
  have e2 : findLocalOrLayer W' = findLocalOrLayer W := by
    obtain ⟨d, hd, hw, e⟩ := h.disk.form
    rw [h.pathExists, h.isFile, h.isDir] at hw
    subst e
    rw [hw]
    rfl
  unfold PlacesRight
  rw [e1, e2]
  exact hc
end

end Oelint

import Verif.Lemmas.State
/-! Which files a successful `AddFile` loads. -/
set_option linter.unusedSectionVars false
set_option linter.unusedSimpArgs false
namespace Oelint
variable [Uni]
open Spec

/-- the successful calls of `AddFile` from the items of a file -/
inductive Loads (add : AddFn) (file : Str) : Stash → List Str → Stash → Prop
  | done {s} : Loads add file s [] s
  | uid {s ps s'} : Loads add file { s with nextUid := s.nextUid + 1 } ps s' → Loads add file s ps s'
  | load {s p off tmp s1 ps s2} : add p off (some file) s = (.ok tmp, s1) → Loads add file s1 ps s2 →
      Loads add file s (p :: ps) s2

/-- the paths an item has loaded: `FileIncluded` resp. `FilePaths` -/
def Payload.loaded : Payload → List Str
  | .include _ path _ => if path.isEmpty then [] else [path]
  | .inherit _ _ paths => paths
  | _ => []

theorem Loads.append {add : AddFn} {file : Str} {s s1 s2 : Stash} {a b : List Str} (h1 : Loads add file s a s1)
    (h2 : Loads add file s1 b s2) : Loads add file s (a ++ b) s2 := by
  induction h1 with
  | done => exact h2
  | uid _ ih => exact .uid (ih h2)
  | load h _ ih => exact .load h (ih h2)

theorem Loads.rel {add : AddFn} {file : Str} {R : Stash → Stash → Prop} (hr : ∀ a, R a a)
    (ht : ∀ a b c, R a b → R b c → R a c) (hu : ∀ s, R s { s with nextUid := s.nextUid + 1 })
    (ha : ∀ p o f s tmp s', add p o f s = (.ok tmp, s') → R s s') {s s' : Stash} {ps : List Str}
    (h : Loads add file s ps s') : R s s' := by
  induction h with
  | done => exact hr _
  | uid _ ih => exact ht _ _ _ (hu _) ih
  | load h _ ih => exact ht _ _ _ (ha _ _ _ _ _ _ h) ih

/-- each loaded file was added at some moment between -/
theorem Loads.mem {add : AddFn} {file : Str} {R : Stash → Stash → Prop} (hr : ∀ a, R a a)
    (ht : ∀ a b c, R a b → R b c → R a c) (hu : ∀ s, R s { s with nextUid := s.nextUid + 1 })
    (ha : ∀ p o f s tmp s', add p o f s = (.ok tmp, s') → R s s') {s s' : Stash} {ps : List Str}
    (h : Loads add file s ps s') {p : Str} (hp : p ∈ ps) :
    ∃ s1 off tmp s2, R s s1 ∧ add p off (some file) s1 = (.ok tmp, s2) ∧ R s2 s' := by
  induction h with
  | done => cases hp
  | uid _ ih =>
    obtain ⟨s1, off, tmp, s2, h1, h2, h3⟩ := ih hp
    exact ⟨s1, off, tmp, s2, ht _ _ _ (hu _) h1, h2, h3⟩
  | @load s q off tmp s1 ps s2 h hl ih =>
    rcases List.mem_cons.1 hp with rfl | hp
    · exact ⟨s, off, tmp, s1, hr _, h, hl.rel hr ht hu ha⟩
    · obtain ⟨a, off, tmp, b, h1, h2, h3⟩ := ih hp
      exact ⟨a, off, tmp, b, ht _ _ _ (ha _ _ _ _ _ _ h) h1, h2, h3⟩

variable (W : World) (add : AddFn) (file : Str)

theorem inheritLoop_loads (lineno : Int) (inhname : Str) (locs l found : List Str) (off : Int) (s s' : Stash)
    (r : List Str × Int) (h : inheritLoop W add file lineno inhname locs l found off s = (.ok r, s')) :
    ∃ ps, Loads add file s ps s' ∧ ∀ p, p ∈ r.1 ↔ p ∈ found ∨ p ∈ ps := by
  induction l generalizing found off s with
  | nil =>
    cases h
    exact ⟨[], .done, by simp⟩
  | cons inh rest ih =>
    rw [inheritLoop] at h
    obtain ⟨path, s1, h1, h0⟩ := M.bind_ok.1 h
    clear h
    have hs1 : s1 = s := by
      simp only [M.lift, Prod.mk.injEq] at h1; exact h1.2.symm
    subst hs1
    split at h0
    · exact ih _ _ _ h0
    · obtain ⟨ign, s2, h2, h⟩ := M.bind_ok.1 h0
      clear h0
      have hs2 : s2 = s1 := by
        simp only [M.ask, Prod.mk.injEq] at h2; exact h2.2.symm
      subst hs2
      split at h
      · exact ih _ _ _ h
      · obtain ⟨tmp, s3, h3, h⟩ := M.bind_ok.1 h
        obtain ⟨ps, hps, hm⟩ := ih _ _ _ h
        refine ⟨path :: ps, .load h3 hps, fun p => ?_⟩
        rw [hm p]
        split
        · rename_i hc
          have hc : path ∈ found := by simpa using hc
          simp only [List.mem_cons]
          constructor
          · rintro (h | h)
            · exact Or.inl h
            · exact Or.inr (Or.inr h)
          · rintro (h | h | h)
            · exact Or.inl h
            · subst h; exact Or.inl hc
            · exact Or.inr h
        · simp [List.mem_append, or_assoc]

theorem mkVariable_loaded (uid : Nat) (p : Params) (n v o : Str) : (mkVariable uid p n v o).payload.loaded = [] := by
  unfold mkVariable; rfl
theorem mkFunction_loaded (k : Str → Bool) (uid : Nat) (p : Params) (n : Option Str) (b : Str) (py fr : Option Str) :
    (mkFunction k uid p n b py fr).payload.loaded = [] := by unfold mkFunction; rfl
theorem mkTaskAdd_loaded (uid : Nat) (p : Params) (n : Str) (b a c : Option Str) :
    (mkTaskAdd uid p n b a c).payload.loaded = [] := by unfold mkTaskAdd; rfl
theorem mkTaskDel_loaded (uid : Nat) (p : Params) (n : Str) (c : Option Str) :
    (mkTaskDel uid p n c).payload.loaded = [] := by unfold mkTaskDel; rfl

/-- the paths loaded are those the new item reports -/
def ReportsAll (ps : List Str) : Option (Item × Int) → Prop
  | none => ps = []
  | some r => ∀ p, p ∈ ps ↔ p ∈ r.1.payload.loaded

theorem handleKind_loads (lineno : Int) (p : Params) (k : Kind) (pat : Pattern) (m : Mt) (s s' : Stash)
    (r : Option (Item × Int)) (h : handleKind W add file lineno p k pat m s = (.ok r, s')) :
    ∃ ps, Loads add file s ps s' ∧ ReportsAll ps r := by
  have hask : ∀ {α : Type} {f : Stash → Except PyErr α} {s s1 : Stash} {a : α}, M.ask f s = (.ok a, s1) → s1 = s := by
    intro α f s s1 a h; simp only [M.ask, Prod.mk.injEq] at h; exact h.2.symm
  have hlift : ∀ {α : Type} {f : Except PyErr α} {s s1 : Stash} {a : α}, M.lift f s = (.ok a, s1) → s1 = s := by
    intro α f s s1 a h; simp only [M.lift, Prod.mk.injEq] at h; exact h.2.symm
  have hsimple : ∀ (it : Nat → Item) (o : Int) (s s' : Stash) (r : Option (Item × Int)),
      (do let uid ← freshUid; pure (some (it uid, o)) : M (Option (Item × Int))) s = (.ok r, s') →
      (∀ u, (it u).payload.loaded = []) → ∃ ps, Loads add file s ps s' ∧ ReportsAll ps r := by
    intro it o s s' r h hl
    obtain ⟨uid, s1, h1, h2⟩ := M.bind_ok.1 h
    cases h1; cases h2
    refine ⟨[], .uid .done, ?_⟩
    intro p
    rw [hl]
  cases k <;> unfold handleKind at h <;> simp only at h
  case vars => exact hsimple _ 0 _ _ _ h fun u => mkVariable_loaded _ _ _ _ _
  case func =>
    obtain ⟨known, s1, h1, h⟩ := M.bind_ok.1 h
    cases hask h1
    exact hsimple _ 0 _ _ _ h fun u => mkFunction_loaded _ _ _ _ _ _ _
  case inherit =>
    obtain ⟨inhname, s1, h1, h⟩ := M.bind_ok.1 h
    cases hask h1
    obtain ⟨⟨found, off⟩, s2, h2, h⟩ := M.bind_ok.1 h
    obtain ⟨ps, hps, hm⟩ := inheritLoop_loads W add file _ _ _ _ _ _ _ _ _ h2
    obtain ⟨uid, s3, h3, h4⟩ := M.bind_ok.1 h
    cases h3; cases h4
    refine ⟨ps ++ [], hps.append (.uid .done), fun q => ?_⟩
    have := hm q
    simp only [List.not_mem_nil, false_or] at this
    simp only [List.append_nil]
    exact this.symm
  case inheritGlob =>
    obtain ⟨inhname, s1, h1, h⟩ := M.bind_ok.1 h
    cases hask h1
    obtain ⟨⟨found, off⟩, s2, h2, h⟩ := M.bind_ok.1 h
    obtain ⟨ps, hps, hm⟩ := inheritLoop_loads W add file _ _ _ _ _ _ _ _ _ h2
    obtain ⟨uid, s3, h3, h4⟩ := M.bind_ok.1 h
    cases h3; cases h4
    refine ⟨ps ++ [], hps.append (.uid .done), fun q => ?_⟩
    have := hm q
    simp only [List.not_mem_nil, false_or] at this
    simp only [List.append_nil]
    exact this.symm
  case addtask =>
    split at h
    · cases h; exact ⟨[], .done, rfl⟩
    · exact hsimple _ 0 _ _ _ h fun u => mkTaskAdd_loaded _ _ _ _ _ _
  case deltask => exact hsimple _ 0 _ _ _ h fun u => mkTaskDel_loaded _ _ _ _
  case «include» =>
    obtain ⟨name, s1, h1, h⟩ := M.bind_ok.1 h
    cases hask h1
    obtain ⟨path, s2, h2, h⟩ := M.bind_ok.1 h
    cases hlift h2
    split at h
    · exact hsimple _ 0 _ _ _ h fun u => rfl
    · rename_i hne
      obtain ⟨ign, s3, h3, h⟩ := M.bind_ok.1 h
      cases hask h3
      split at h
      · cases h; exact ⟨[], .done, rfl⟩
      · obtain ⟨tmp, s4, h4, h⟩ := M.bind_ok.1 h
        obtain ⟨uid, s5, h5, h6⟩ := M.bind_ok.1 h
        cases h5; cases h6
        refine ⟨[path], .load h4 (.uid .done), fun q => ?_⟩
        simp only [mkItem, mkItemD, Payload.loaded]
        rw [if_neg hne]
  all_goals exact hsimple _ 0 _ _ _ h fun u => rfl

theorem classify_loads (lineno : Int) (p : Params) (cnt : Str) (l : List (Kind × Pattern)) (s s' : Stash) (r : Item × Int)
    (h : classify W add file lineno p cnt l s = (.ok r, s')) :
    ∃ ps, Loads add file s ps s' ∧ ReportsAll ps (some r) := by
  induction l generalizing s with
  | nil =>
    rw [classify] at h
    obtain ⟨uid, s1, h1, h2⟩ := M.bind_ok.1 h
    cases h1; cases h2
    exact ⟨[], .uid .done, fun p => Iff.rfl⟩
  | cons kp rest ih =>
    obtain ⟨k, pat⟩ := kp
    rw [classify] at h
    cases hm : reMatch pat.re cnt with
    | none => rw [hm] at h; exact ih _ h
    | some m =>
      rw [hm] at h
      obtain ⟨x, s1, h1, h⟩ := M.bind_ok.1 h
      obtain ⟨ps, hps, hr⟩ := handleKind_loads W add file _ _ _ _ _ _ _ _ h1
      cases x with
      | some x => cases h; exact ⟨ps, hps, hr⟩
      | none =>
        obtain ⟨qs, hqs, hr'⟩ := ih _ h
        have : ps = [] := hr
        subst this
        exact ⟨qs, hps.append hqs, hr'⟩

theorem itemsLoop_loads (lineOffset off : Int) (ns : Bool) (cs : List Chunk) (s s' : Stash) (its : List Item)
    (h : itemsLoop W add file lineOffset off ns cs s = (.ok its, s')) :
    ∃ ps, Loads add file s ps s' ∧ ∀ p, p ∈ ps ↔ ∃ it ∈ its, p ∈ it.payload.loaded := by
  induction cs generalizing off ns s its with
  | nil => cases h; exact ⟨[], .done, by simp⟩
  | cons c cs ih =>
    rw [itemsLoop] at h
    obtain ⟨⟨it, d⟩, s1, h1, h⟩ := M.bind_ok.1 h
    obtain ⟨rest, s2, h2, h⟩ := M.bind_ok.1 h
    cases h
    obtain ⟨ps, hps, hr⟩ := classify_loads W add file _ _ _ _ _ _ _ h1
    obtain ⟨qs, hqs, hr'⟩ := ih _ _ _ _ h2
    refine ⟨ps ++ qs, hps.append hqs, fun p => ?_⟩
    rw [List.mem_append, hr p, hr' p]
    simp

end Oelint

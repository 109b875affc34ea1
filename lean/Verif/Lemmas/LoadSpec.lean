import Verif.Lemmas.Loads
import Verif.Lemmas.File
/-! What include and inherit items report (C12). -/
set_option linter.unusedSectionVars false
set_option linter.unusedSimpArgs false
namespace Oelint
variable [Uni]

/-- what an item reports about the files it loads -/
def LoadSpec (W : World) (file : Str) : Payload → Prop
  | .include name path _ => ∃ (st : Stash) (nm : Str), expandTerm W st file name = .ok nm ∧
      findLocalOrLayer W nm (dirname file) = .ok path ∧
      (path ≠ [] → ∃ ign, includeIgnore st.consts = .ok ign ∧ ign.has nm = false)
  | .inherit stmt cls paths => ∃ (st : Stash) (nm : Str) (locs : List Str), expandTerm W st file cls = .ok nm ∧
      (locs = [c!"classes", c!"classes-recipe", c!"classes-global"] ∨
        stmt = c!"INHERIT" ∧ locs = [c!"classes", c!"classes-global"]) ∧ paths.Nodup ∧
      (∀ p ∈ paths, p ≠ [] ∧ ∃ word ∈ splitNE ' ' nm, findClass W (dirname file) (withBbclass word) locs = .ok p) ∧
      ∀ word ∈ splitNE ' ' nm, ∃ p, findClass W (dirname file) (withBbclass word) locs = .ok p ∧
        (p = [] ∨ p ∈ paths ∨ ∃ (st' : Stash) (ign : J), classIgnore st'.consts = .ok ign ∧ ign.has nm = true)
  | _ => True

variable (W : World) (add : AddFn) (file : Str)

theorem inheritLoop_spec (lineno : Int) (nm : Str) (locs l found : List Str) (off : Int) (s s' : Stash)
    (r : List Str × Int) (h : inheritLoop W add file lineno nm locs l found off s = (.ok r, s')) (hn : found.Nodup) :
    r.1.Nodup ∧ (∀ p ∈ found, p ∈ r.1) ∧
    (∀ p ∈ r.1, p ∈ found ∨ p ≠ [] ∧ ∃ word ∈ l, findClass W (dirname file) (withBbclass word) locs = .ok p) ∧
    ∀ word ∈ l, ∃ p, findClass W (dirname file) (withBbclass word) locs = .ok p ∧
        (p = [] ∨ p ∈ r.1 ∨ ∃ (st' : Stash) (ign : J), classIgnore st'.consts = .ok ign ∧ ign.has nm = true) := by
  induction l generalizing found off s with
  | nil => cases h; exact ⟨hn, fun p h => h, fun p h => Or.inl h, by simp⟩
  | cons inh rest ih =>
    rw [inheritLoop] at h
    obtain ⟨path, s1, h1, h0⟩ := M.bind_ok.1 h
    clear h
    simp only [M.lift, Prod.mk.injEq] at h1
    obtain ⟨hp, rfl⟩ := h1
    have step : ∀ found' : List Str, found'.Nodup → (∀ p ∈ found, p ∈ found') →
        (∀ p ∈ found', p ∈ found ∨ p = path ∧ path ≠ []) → 
        (path = [] ∨ path ∈ found' ∨ ∃ (st' : Stash) (ign : J), classIgnore st'.consts = .ok ign ∧ ign.has nm = true) →
        ∀ off s, inheritLoop W add file lineno nm locs rest found' off s = (.ok r, s') →
        r.1.Nodup ∧ (∀ p ∈ found, p ∈ r.1) ∧
        (∀ p ∈ r.1, p ∈ found ∨ p ≠ [] ∧ ∃ word ∈ inh :: rest, findClass W (dirname file) (withBbclass word) locs = .ok p) ∧
        ∀ word ∈ inh :: rest, ∃ p, findClass W (dirname file) (withBbclass word) locs = .ok p ∧
          (p = [] ∨ p ∈ r.1 ∨ ∃ (st' : Stash) (ign : J), classIgnore st'.consts = .ok ign ∧ ign.has nm = true) := by
      intro found' hn' hf hf' hc off s h
      obtain ⟨h1, h2, h3, h4⟩ := ih found' off s h hn'
      refine ⟨h1, fun p hp => h2 p (hf p hp), fun p hp' => ?_, fun word hw => ?_⟩
      · rcases h3 p hp' with h | ⟨h, w, hw, hww⟩
        · rcases hf' p h with h | ⟨rfl, h⟩
          · exact Or.inl h
          · exact Or.inr ⟨h, inh, by simp, hp⟩
        · exact Or.inr ⟨h, w, by simp [hw], hww⟩
      · rcases List.mem_cons.1 hw with rfl | hw
        · refine ⟨path, hp, ?_⟩
          rcases hc with h | h | h
          · exact Or.inl h
          · exact Or.inr (Or.inl (h2 _ h))
          · exact Or.inr (Or.inr h)
        · exact h4 word hw
    split at h0
    · rename_i he
      exact step found hn (fun _ h => h) (fun _ h => Or.inl h) (Or.inl (by simpa using he)) _ _ h0
    · rename_i hne
      have hne : path ≠ [] := by simpa using hne
      obtain ⟨ign, s2, h2, h⟩ := M.bind_ok.1 h0
      clear h0
      simp only [M.ask, Prod.mk.injEq] at h2
      obtain ⟨hi, rfl⟩ := h2
      split at h
      · rename_i hg
        exact step found hn (fun _ h => h) (fun _ h => Or.inl h) (Or.inr (Or.inr ⟨_, ign, hi, hg⟩)) _ _ h
      · obtain ⟨tmp, s3, h3, h⟩ := M.bind_ok.1 h
        by_cases hc : path ∈ found
        · rw [if_pos (by simpa using hc)] at h
          exact step found hn (fun _ h => h) (fun _ h => Or.inl h) (Or.inr (Or.inl hc)) _ _ h
        · rw [if_neg (by simpa using hc)] at h
          refine step (found ++ [path]) ?_ (fun p hp => by simp [hp]) (fun p hp => ?_) (Or.inr (Or.inl (by simp))) _ _ h
          · rw [List.nodup_append]
            exact ⟨hn, by simp, fun a ha b hb => by
              have : b = path := by simpa using hb
              subst this; rintro rfl; exact hc ha⟩
          · rcases List.mem_append.1 hp with h | h
            · exact Or.inl h
            · exact Or.inr ⟨by simpa using h, hne⟩

theorem handleKind_loadSpec (lineno : Int) (p : Params) (k : Kind) (pat : Pattern) (m : Mt) (s s' : Stash)
    (x : Item × Int) (h : handleKind W add file lineno p k pat m s = (.ok (some x), s')) : LoadSpec W file x.1.payload := by
  have hsimple : ∀ (it : Nat → Item) (o : Int) (s s' : Stash),
      (do let uid ← freshUid; pure (some (it uid, o)) : M (Option (Item × Int))) s = (.ok (some x), s') →
      (∀ u, LoadSpec W file (it u).payload) → LoadSpec W file x.1.payload := by
    intro it o s s' h hl
    obtain ⟨uid, s1, h1, h2⟩ := M.bind_ok.1 h
    cases h1; cases h2
    exact hl _
  cases k <;> unfold handleKind at h <;> simp only at h
  case vars => exact hsimple _ 0 _ _ h fun u => by unfold mkVariable; exact True.intro
  case func =>
    obtain ⟨known, s1, h1, h⟩ := M.bind_ok.1 h
    exact hsimple _ 0 _ _ h fun u => by unfold mkFunction; exact True.intro
  case inherit =>
    obtain ⟨nm, s1, h1, h⟩ := M.bind_ok.1 h
    simp only [M.ask, Prod.mk.injEq] at h1
    obtain ⟨⟨found, off⟩, s2, h2, h⟩ := M.bind_ok.1 h
    obtain ⟨i1, _, i2, i3⟩ := inheritLoop_spec W add file _ _ _ _ _ _ _ _ _ h2 List.nodup_nil
    obtain ⟨uid, s3, h3, h4⟩ := M.bind_ok.1 h
    cases h3; cases h4
    exact ⟨s, nm, _, h1.1, Or.inl rfl, i1, fun p hp => (i2 p hp).resolve_left (by simp), i3⟩
  case inheritGlob =>
    obtain ⟨nm, s1, h1, h⟩ := M.bind_ok.1 h
    simp only [M.ask, Prod.mk.injEq] at h1
    obtain ⟨⟨found, off⟩, s2, h2, h⟩ := M.bind_ok.1 h
    obtain ⟨i1, _, i2, i3⟩ := inheritLoop_spec W add file _ _ _ _ _ _ _ _ _ h2 List.nodup_nil
    obtain ⟨uid, s3, h3, h4⟩ := M.bind_ok.1 h
    cases h3; cases h4
    exact ⟨s, nm, _, h1.1, Or.inr ⟨rfl, rfl⟩, i1, fun p hp => (i2 p hp).resolve_left (by simp), i3⟩
  case addtask =>
    split at h
    · cases h
    · exact hsimple _ 0 _ _ h fun u => by unfold mkTaskAdd; exact True.intro
  case deltask => exact hsimple _ 0 _ _ h fun u => by unfold mkTaskDel; exact True.intro
  case «include» =>
    obtain ⟨nm, s1, h1, h⟩ := M.bind_ok.1 h
    simp only [M.ask, Prod.mk.injEq] at h1
    obtain ⟨hn, rfl⟩ := h1
    obtain ⟨path, s2, h2, h⟩ := M.bind_ok.1 h
    simp only [M.lift, Prod.mk.injEq] at h2
    obtain ⟨hp, rfl⟩ := h2
    split at h
    · rename_i he
      have he : path = [] := by simpa using he
      subst he
      exact hsimple _ 0 _ _ h fun u => ⟨s, nm, hn, hp, fun hh => absurd rfl hh⟩
    · obtain ⟨ign, s3, h3, h⟩ := M.bind_ok.1 h
      simp only [M.ask, Prod.mk.injEq] at h3
      obtain ⟨hi, rfl⟩ := h3
      split at h
      · cases h
      · rename_i hg
        obtain ⟨tmp, s4, h4, h⟩ := M.bind_ok.1 h
        obtain ⟨uid, s5, h5, h6⟩ := M.bind_ok.1 h
        cases h5; cases h6
        exact ⟨s, nm, hn, hp, fun _ => ⟨ign, hi, by simpa using hg⟩⟩
  all_goals exact hsimple _ 0 _ _ h fun u => True.intro

/-- every item comes from the first pattern that matched and was not skipped -/
theorem classify_from (lineno : Int) (p : Params) (cnt : Str) (l : List (Kind × Pattern)) (s s' : Stash) (r : Item × Int)
    (h : classify W add file lineno p cnt l s = (.ok r, s')) :
    (∃ uid, r = (mkItem uid p .item, 0)) ∨
    ∃ k pat m s1 s2, (k, pat) ∈ l ∧ reMatch pat.re cnt = some m ∧
      handleKind W add file lineno p k pat m s1 = (.ok (some r), s2) := by
  induction l generalizing s with
  | nil =>
    rw [classify] at h
    obtain ⟨uid, s1, h1, h2⟩ := M.bind_ok.1 h
    cases h1; cases h2
    exact Or.inl ⟨_, rfl⟩
  | cons kp rest ih =>
    obtain ⟨k, pat⟩ := kp
    have lift : ∀ {s : Stash}, classify W add file lineno p cnt rest s = (.ok r, s') →
        (∃ uid, r = (mkItem uid p .item, 0)) ∨
        ∃ k' pat' m s1 s2, (k', pat') ∈ (k, pat) :: rest ∧ reMatch pat'.re cnt = some m ∧
          handleKind W add file lineno p k' pat' m s1 = (.ok (some r), s2) := fun {s} h => by
      rcases ih s h with h | ⟨k, pat, m, s1, s2, h1, h2, h3⟩
      · exact Or.inl h
      · exact Or.inr ⟨k, pat, m, s1, s2, List.mem_cons_of_mem _ h1, h2, h3⟩
    rw [classify] at h
    cases hm : reMatch pat.re cnt with
    | none => rw [hm] at h; exact lift h
    | some m =>
      rw [hm] at h
      obtain ⟨x, s1, h1, h⟩ := M.bind_ok.1 h
      cases x with
      | some x => cases h; exact Or.inr ⟨k, pat, m, s, _, by simp, hm, h1⟩
      | none => exact lift h

theorem traced_loadSpec {W : World} {add : AddFn} {file : Str} {lineOffset off : Int} {ns : Bool} {cs : List Chunk}
    {its : List Item} (h : Traced W add file lineOffset off ns cs its) : ∀ it ∈ its, LoadSpec W file it.payload := by
  induction h with
  | nil => simp
  | @cons off d ns c cs it its s s' hc _ ih =>
    intro x hx
    rcases List.mem_cons.1 hx with rfl | hx
    · rcases classify_from W add file _ _ _ _ _ _ _ hc with ⟨uid, h⟩ | ⟨k, pat, m, s1, s2, _, _, h⟩
      · have : x = mkItem uid (chunkParams file lineOffset off ns c) .item := congrArg Prod.fst h
        rw [this]; exact True.intro
      · exact handleKind_loadSpec W add file _ _ _ _ _ _ _ _ h
    · exact ih x hx

theorem addFile_loadSpec {W : World} {fuel : Nat} {path : Str} {off : Int} {forced : Option Str} {s s' : Stash}
    {res : List Item} (h : addFile W fuel path off forced s = (.ok res, s')) :
    ∀ it ∈ res, LoadSpec W (abspath W.cwd path) it.payload := by
  rcases addFile_cases h with rfl | ⟨t, _, _, n, ⟨ok⟩⟩
  · simp
  · intro it hit
    obtain ⟨it0, h0, rfl, _⟩ := ok.mem hit
    exact traced_loadSpec ok.traced it0 h0

end Oelint

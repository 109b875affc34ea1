import Verif.Lemmas.Links
import Verif.Lemmas.Queries
/-! `Finalize`. -/
set_option linter.unusedSectionVars false
set_option linter.unusedSimpArgs false
namespace Oelint
variable [Uni]
open Spec

/-- the links of a file in a map -/
def lk (m : List (Str × List Str)) (k : Str) : List Str := (dget k m).getD []

theorem links_eq (s : Stash) (k : Str) : links s k = lk s.map k := rfl

theorem lk_dset (m : List (Str × List Str)) (k j : Str) (v : List Str) : lk (dset k v m) j = if j = k then v else lk m j := by
  unfold lk
  rw [dget_dset]
  split <;> rfl

theorem linkLoop_cons (k item : Str) (rest : List Str) (m : List (Str × List Str)) :
    linkLoop k (item :: rest) m = match dget item m with
      | none => (.error .keyError, m)
      | some l => linkLoop k rest (dset k ((dget k m).getD [] ++ l) m) := rfl

/-- what `linkLoop` does: only the links of `k` change, they grow by links of links -/
structure LinkStep (k : Str) (l : List Str) (m m' : List (Str × List Str)) : Prop where
  other : ∀ j, j ≠ k → dget j m' = dget j m
  mem : ∀ x, x ∈ lk m' k ↔ x ∈ lk m k ∨ ∃ i ∈ l, x ∈ lk m i
  keys : m'.map (·.1) = m.map (·.1)

theorem linkLoop_ok (k : Str) (l : List Str) (m m' : List (Str × List Str)) (hk : k ∈ m.map (·.1))
    (h : linkLoop k l m = (.ok (), m')) : LinkStep k l m m' := by
  induction l generalizing m with
  | nil =>
    cases h
    exact ⟨fun _ _ => rfl, fun x => by simp, rfl⟩
  | cons item rest ih =>
    rw [linkLoop_cons] at h
    split at h
    · cases h
    · rename_i l hl
      have hk' : k ∈ (dset k ((dget k m).getD [] ++ l) m).map (·.1) := dset_keys_mem.2 (Or.inl rfl)
      have h1 := ih _ hk' h
      have hlk : lk m item = l := by unfold lk; rw [hl]; rfl
      refine ⟨?_, ?_, ?_⟩
      · intro j hj
        rw [h1.other j hj, dget_dset_ne _ _ hj]
      · intro x
        rw [h1.mem x, lk_dset, if_pos rfl]
        change x ∈ lk m k ++ l ∨ _ ↔ _
        rw [List.mem_append]
        constructor
        · rintro ((h | h) | ⟨i, hi, h⟩)
          · exact Or.inl h
          · exact Or.inr ⟨item, by simp, by rw [hlk]; exact h⟩
          · rw [lk_dset] at h
            split at h
            · change x ∈ lk m k ++ l at h
              rcases List.mem_append.1 h with h | h
              · exact Or.inl h
              · exact Or.inr ⟨item, by simp, by rw [hlk]; exact h⟩
            · exact Or.inr ⟨i, by simp [hi], h⟩
        · rintro (h | ⟨i, hi, h⟩)
          · exact Or.inl (Or.inl h)
          · rcases List.mem_cons.1 hi with rfl | hi
            · rw [hlk] at h; exact Or.inl (Or.inr h)
            · refine Or.inr ⟨i, hi, ?_⟩
              rw [lk_dset]
              split
              · rename_i h'
                rw [h'] at h
                change x ∈ lk m k ++ l
                exact List.mem_append_left _ h
              · exact h
      · rw [h1.keys, dset_keys, if_pos hk]

theorem linkLoop_noError (k : Str) (l : List Str) (m : List (Str × List Str)) (hl : ∀ i ∈ l, i ∈ m.map (·.1)) :
    ∃ m', linkLoop k l m = (.ok (), m') := by
  induction l generalizing m with
  | nil => exact ⟨m, rfl⟩
  | cons item rest ih =>
    rw [linkLoop_cons]
    cases hd : dget item m with
    | none => exact absurd (hl item (by simp)) (dget_eq_none_iff.1 hd)
    | some l =>
      exact ih _ (fun i hi => dset_keys_mem.2 (Or.inr (hl i (by simp [hi]))))

theorem closeLoop_cons (W : World) (k : Str) (ks : List Str) (m : List (Str × List Str)) :
    closeLoop W (k :: ks) m = match linkLoop k ((dget k m).getD []) m with
      | (.error e, m') => (.error e, m')
      | (.ok (), m') => closeLoop W ks (dset k (W.strOrder (dedup ((dget k m').getD [] ++ [k]))) m') := rfl

/-- the step of `Finalize` for one file -/
structure CloseStep (k : Str) (m m' : List (Str × List Str)) : Prop where
  other : ∀ j, j ≠ k → dget j m' = dget j m
  mem : ∀ x, x ∈ lk m' k ↔ x = k ∨ x ∈ lk m k ∨ ∃ i ∈ lk m k, x ∈ lk m i
  keys : m'.map (·.1) = m.map (·.1)
  nodup : (lk m' k).Nodup

/-- a successful `Finalize` is a sequence of such steps -/
inductive CloseSteps : List Str → List (Str × List Str) → List (Str × List Str) → Prop
  | nil {m} : CloseSteps [] m m
  | cons {k ks m m1 m'} : CloseStep k m m1 → CloseSteps ks m1 m' → CloseSteps (k :: ks) m m'

theorem closeLoop_ok (W : World) (ks : List Str) (m m' : List (Str × List Str)) (hk : ∀ k ∈ ks, k ∈ m.map (·.1))
    (h : closeLoop W ks m = (.ok (), m')) : CloseSteps ks m m' := by
  induction ks generalizing m with
  | nil => cases h; exact .nil
  | cons k ks ih =>
    rw [closeLoop_cons] at h
    split at h
    · cases h
    · rename_i m1 h1
      have hs := linkLoop_ok k _ m m1 (hk k (by simp)) h1
      have hkeys : (dset k (W.strOrder (dedup ((dget k m1).getD [] ++ [k]))) m1).map (·.1) = m.map (·.1) := by
        rw [dset_keys, hs.keys, if_pos (hk k (by simp))]
      refine .cons ⟨?_, ?_, hkeys, ?_⟩ (ih _ (fun j hj => by rw [hkeys]; exact hk j (by simp [hj])) h)
      · intro j hj
        rw [dget_dset_ne _ _ hj, hs.other j hj]
      · intro x
        rw [lk_dset, if_pos rfl, (W.strOrder_perm _).mem_iff, mem_dedup, List.mem_append]
        change x ∈ lk m1 k ∨ _ ↔ _
        rw [hs.mem x]
        simp only [List.mem_singleton]
        constructor
        · rintro (h | h)
          · exact Or.inr h
          · exact Or.inl h
        · rintro (h | h)
          · exact Or.inr h
          · exact Or.inl h
      · rw [lk_dset, if_pos rfl]
        exact (W.strOrder_perm _).nodup_iff.2 (nodup_dedup _)

theorem CloseStep.grow {k : Str} {m m' : List (Str × List Str)} (h : CloseStep k m m') (j x : Str) (hx : x ∈ lk m j) :
    x ∈ lk m' j := by
  by_cases hj : j = k
  · subst hj; exact (h.mem x).2 (Or.inr (Or.inl hx))
  · unfold lk; rw [h.other j hj]; exact hx

theorem CloseSteps.grow {ks : List Str} {m m' : List (Str × List Str)} (h : CloseSteps ks m m') (j x : Str)
    (hx : x ∈ lk m j) : x ∈ lk m' j := by
  induction h with
  | nil => exact hx
  | cons h _ ih => exact ih (h.grow j x hx)

theorem CloseSteps.keys {ks : List Str} {m m' : List (Str × List Str)} (h : CloseSteps ks m m') :
    m'.map (·.1) = m.map (·.1) := by
  induction h with
  | nil => rfl
  | cons h _ ih => rw [ih, h.keys]

theorem CloseSteps.other {ks : List Str} {m m' : List (Str × List Str)} (h : CloseSteps ks m m') (j : Str) (hj : j ∉ ks) :
    lk m' j = lk m j := by
  induction h with
  | nil => rfl
  | @cons k ks m m1 m' h _ ih =>
    rw [ih (fun hh => hj (by simp [hh]))]
    unfold lk
    rw [h.other j (fun hh => hj (by simp [hh]))]

theorem reach_trans {s : Stash} {a b c : Str} (h1 : Reach s a b) (h2 : Reach s b c) : Reach s a c := by
  induction h1 with
  | refl => exact h2
  | step h _ ih => exact .step h (ih h2)

/-- nothing unreachable is linked -/
theorem CloseSteps.sound {s : Stash} {ks : List Str} {m m' : List (Str × List Str)} (h : CloseSteps ks m m')
    (hm : ∀ k x, x ∈ lk m k → Reach s k x) : ∀ k x, x ∈ lk m' k → Reach s k x := by
  induction h with
  | nil => exact hm
  | @cons k ks m m1 m' h _ ih =>
    apply ih
    intro j x hx
    by_cases hj : j = k
    · subst hj
      rcases (h.mem x).1 hx with rfl | h1 | ⟨i, hi, h1⟩
      · exact .refl _
      · exact hm _ _ h1
      · exact reach_trans (hm _ _ hi) (hm _ _ h1)
    · unfold lk at hx
      rw [h.other j hj] at hx
      exact hm j x hx

/-- after its step a file is linked to itself, its links and their links -/
theorem CloseSteps.two {ks : List Str} {m m' : List (Str × List Str)} (h : CloseSteps ks m m') {k : Str} (hk : k ∈ ks) :
    k ∈ lk m' k ∧ (∀ i ∈ lk m k, ∀ x ∈ lk m i, x ∈ lk m' k) := by
  induction h with
  | nil => cases hk
  | @cons j ks m m1 m' h hs ih =>
    by_cases hj : k = j
    · subst hj
      exact ⟨hs.grow _ _ ((h.mem k).2 (Or.inl rfl)), fun i hi x hx => hs.grow _ _ ((h.mem x).2 (Or.inr (Or.inr ⟨i, hi, hx⟩)))⟩
    · have hk : k ∈ ks := by
        rcases List.mem_cons.1 hk with h | h
        · exact absurd h hj
        · exact h
      obtain ⟨h1, h2⟩ := ih hk
      exact ⟨h1, fun i hi x hx => h2 i (h.grow _ _ hi) x (h.grow _ _ hx)⟩

theorem CloseSteps.nodup {ks : List Str} {m m' : List (Str × List Str)} (h : CloseSteps ks m m') (hn : ks.Nodup) {k : Str}
    (hk : k ∈ ks) : (lk m' k).Nodup := by
  induction h with
  | nil => cases hk
  | @cons j ks m m1 m' h hs ih =>
    rw [List.nodup_cons] at hn
    rcases List.mem_cons.1 hk with rfl | hk
    · rw [hs.other _ hn.1]; exact h.nodup
    · exact ih hn.2 hk

/-- in an order where links point backwards everything reachable is linked -/
theorem CloseSteps.complete {s : Stash} {ks done : List Str} {m m' : List (Str × List Str)} (h : CloseSteps ks m m')
    (hn : (done ++ ks).Nodup)
    (hdone : ∀ k ∈ done, ∀ x, Reach s k x → x ∈ lk m k)
    (htodo : ∀ k ∈ ks, lk m k = links s k)
    (hord : ∀ k i, i ∈ links s k → k ∈ ks → i = k ∨ Before (done ++ ks) i k) :
    ∀ k ∈ done ++ ks, ∀ x, Reach s k x → x ∈ lk m' k := by
  induction h generalizing done with
  | nil => simpa using hdone
  | @cons k ks m m1 m' h hs ih =>
    have hkd : k ∉ done := by
      intro hk
      rw [List.nodup_append] at hn
      exact hn.2.2 k hk k (by simp) rfl
    have hkk : k ∉ ks := by
      rw [List.nodup_append, List.nodup_cons] at hn
      exact hn.2.1.1
    have hbefore : ∀ i, Before (done ++ k :: ks) i k → i ∈ done := by
      rintro i ⟨a, b, c, he⟩
      have : k ∉ a ++ i :: b := by
        intro hk
        have hn' := hn
        rw [he, show a ++ i :: (b ++ k :: c) = (a ++ i :: b) ++ k :: c by simp, List.nodup_append] at hn'
        exact hn'.2.2 k hk k (by simp) rfl
      have he' : done ++ k :: ks = (a ++ i :: b) ++ k :: c := by rw [he]; simp
      have hd : done = a ++ i :: b := by
        clear ih hord htodo hdone hn he
        generalize a ++ i :: b = l at this he'
        induction done generalizing l with
        | nil =>
          cases l with
          | nil => rfl
          | cons y l =>
            simp only [List.nil_append, List.cons_append, List.cons.injEq] at he'
            exact absurd (by rw [he'.1]; simp) this
        | cons z done ih =>
          cases l with
          | nil =>
            simp only [List.nil_append, List.cons_append, List.cons.injEq] at he'
            exact absurd (by rw [he'.1]; simp) hkd
          | cons y l =>
            simp only [List.cons_append, List.cons.injEq] at he'
            rw [he'.1, ih (fun hh => hkd (by simp [hh])) l (fun hh => this (by simp [hh])) he'.2]
      rw [hd]; simp
    have hk : ∀ x, Reach s k x → x ∈ lk m1 k := by
      intro x hx
      have : ∀ a, Reach s a x → a = k → x ∈ lk m1 k := by
        intro a ha
        induction ha with
        | refl => rintro rfl; exact (h.mem _).2 (Or.inl rfl)
        | @step a i x hi hx' ih' =>
          rintro rfl
          rcases hord a i hi (by simp) with rfl | hb
          · exact ih' hx rfl
          · have hid := hbefore i hb
            refine (h.mem x).2 (Or.inr (Or.inr ⟨i, ?_, hdone i hid x hx'⟩))
            rw [htodo a (by simp)]; exact hi
      exact this k hx rfl
    have := ih (done := done ++ [k]) (by simpa using hn) (by
      intro j hj x hx
      rcases List.mem_append.1 hj with hj | hj
      · exact h.grow _ _ (hdone j hj x hx)
      · have : j = k := by simpa using hj
        subst this; exact hk x hx) (by
      intro j hj
      have hjk : j ≠ k := fun hh => hkk (hh ▸ hj)
      have : lk m1 j = lk m j := by unfold lk; rw [h.other j hjk]
      rw [this]; exact htodo j (by simp [hj])) (by
      intro j i hi hj
      simpa using hord j i hi (by simp [hj]))
    simpa using this

/-! ## no KeyError -/

theorem closeLoop_noError (W : World) (ks : List Str) (m : List (Str × List Str)) (hk : ∀ k ∈ ks, k ∈ m.map (·.1))
    (hm : ∀ k x, x ∈ lk m k → x ∈ m.map (·.1)) : ∃ m', closeLoop W ks m = (.ok (), m') := by
  induction ks generalizing m with
  | nil => exact ⟨m, rfl⟩
  | cons k ks ih =>
    rw [closeLoop_cons]
    obtain ⟨m1, h1⟩ := linkLoop_noError k ((dget k m).getD []) m (fun i hi => hm k i hi)
    rw [h1]
    simp only
    have hs := linkLoop_ok k _ m m1 (hk k (by simp)) h1
    have hkeys : (dset k (W.strOrder (dedup ((dget k m1).getD [] ++ [k]))) m1).map (·.1) = m.map (·.1) := by
      rw [dset_keys, hs.keys, if_pos (hk k (by simp))]
    refine ih _ (fun j hj => by rw [hkeys]; exact hk j (by simp [hj])) ?_
    intro j x hx
    rw [hkeys]
    rw [lk_dset] at hx
    split at hx
    · rename_i hj
      subst hj
      rw [(W.strOrder_perm _).mem_iff, mem_dedup, List.mem_append] at hx
      rcases hx with hx | hx
      · rcases (hs.mem x).1 hx with hx | ⟨i, hi, hx⟩
        · exact hm _ _ hx
        · exact hm _ _ hx
      · simp at hx; subst hx; exact hk x (by simp)
    · have : lk m1 j = lk m j := by unfold lk; rw [hs.other j (by assumption)]
      rw [this] at hx
      exact hm _ _ hx

theorem addFile_eq (W : World) (fuel : Nat) (path : Str) (off : Int) (forced : Option Str) (s : Stash)
    (hs : alreadySeen s (abspath W.cwd path) = false) :
    addFile W (fuel + 1) path off forced s =
      match getItems W (addFile W fuel) (abspath W.cwd path) off s.newStyle s.negative (markSeen s (abspath W.cwd path)) with
      | (.error e, s1) => (.error e, s1)
      | (.ok its, s1) =>
        match crossLink (abspath W.cwd path) its { s1 with map := enterMap s1.map (abspath W.cwd path) forced } with
        | (.error e, s3) => (.error e, s3)
        | (.ok res, s3) =>
          match addDistroMachine W (abspath W.cwd path) s3 with
          | (.error e, s4) => (.error e, s4)
          | (.ok (), s4) => (.ok res, commitItems W res s4) := by
  rw [addFile, M.bind_def]
  simp only [M.get]
  rw [hs]
  simp only [Bool.false_eq_true, if_false, M.bind_def, M.modify]
  rcases getItems W (addFile W fuel) (abspath W.cwd path) off s.newStyle s.negative (markSeen s (abspath W.cwd path)) with ⟨r, s1⟩
  cases r with
  | error e => rfl
  | ok its =>
    simp only
    rcases crossLink (abspath W.cwd path) its { s1 with map := enterMap s1.map (abspath W.cwd path) forced } with ⟨r, s3⟩
    cases r with
    | error e => rfl
    | ok res =>
      simp only
      rcases addDistroMachine W (abspath W.cwd path) s3 with ⟨r, s4⟩
      cases r <;> rfl

/-- links lead to files in the map, items come from files in the map -/
def Closed (s : Stash) : Prop :=
  (∀ k x, x ∈ links s k → x ∈ keys s) ∧ ∀ it ∈ s.items, it.origin ∈ keys s

theorem closed_link {s : Stash} (h : Closed s) {k x : Str} (hx : x ∈ keys s) :
    Closed { s with map := mapAppend s.map k x } := by
  refine ⟨fun j y hy => ?_, fun it hit => mapAppend_keys.2 (Or.inr (h.2 it hit))⟩
  rw [links_mapAppend] at hy
  refine mapAppend_keys.2 (Or.inr ?_)
  split at hy
  · rcases List.mem_append.1 hy with hy | hy
    · exact h.1 _ _ hy
    · have : y = x := by simpa using hy
      rw [this]; exact hx
  · exact h.1 _ _ hy

theorem closed_enterMap {s : Stash} (h : Closed s) (file : Str) (forced : Option Str) :
    Closed { s with map := enterMap s.map file forced } := by
  have h1 : Closed { s with map := if dhas file s.map then s.map else dset file [] s.map } ∧
      file ∈ keys { s with map := if dhas file s.map then s.map else dset file [] s.map } := by
    refine ⟨?_, enterMap_key s file none⟩
    by_cases hd : dhas file s.map = true
    · rw [if_pos hd]; exact h
    · rw [if_neg hd]
      refine ⟨fun j y hy => ?_, fun it hit => dset_keys_mem.2 (Or.inr (h.2 it hit))⟩
      rw [links_dset_nil _ _ _ (by simpa using hd)] at hy
      exact dset_keys_mem.2 (Or.inr (h.1 _ _ hy))
  unfold enterMap
  simp only
  split
  · split
    · exact h1.1
    · exact closed_link h1.1 h1.2
  · exact h1.1

theorem closed_linkAppend (file : Str) (l : List Str) (mx : Int) (s : Stash) (h : Closed s) (hf : file ∈ keys s) :
    Closed (linkAppend file l mx s).2 := by
  have := linkAppend_rel (R := fun s s' => Closed s ∧ file ∈ keys s → Closed s' ∧ file ∈ keys s') (fun _ h => h)
    (fun _ _ _ h1 h2 h => h2 (h1 h)) file
    (fun s x h => ⟨closed_link h.1 h.2, mapAppend_keys.2 (Or.inr h.2)⟩) l mx s ⟨h, hf⟩
  exact this.1

theorem closed_linkRecipe (file bn : Str) (mx : Int) (done l : List Item) (s : Stash) (h : Closed s)
    (hl : ∀ it ∈ done ++ l, it.origin ∈ keys s) : Closed (linkRecipe file bn mx done l s).2 := by
  induction l generalizing done s with
  | nil => rw [linkRecipe_nil]; exact ⟨h.1, fun it hit => hl it (by simpa using hit)⟩
  | cons item rest ih =>
    rw [linkRecipe_cons]
    split
    · exact ih _ s h (by simpa using hl)
    · split
      · exact ⟨h.1, hl⟩
      · exact ih _ s h (by simpa using hl)
      · refine ih _ _ (closed_link h (hl item (by simp))) ?_
        intro it hit
        refine mapAppend_keys.2 (Or.inr ?_)
        simp only [List.append_assoc, List.cons_append, List.nil_append, List.mem_append, List.mem_cons] at hit
        rcases hit with hit | hit | hit
        · exact hl it (by simp [hit])
        · rw [hit]; exact hl item (by simp)
        · exact hl it (by simp [hit])

theorem closed_crossLink (file : Str) (its : List Item) (s : Stash) (h : Closed s) (hf : file ∈ keys s) :
    Closed (crossLink file its s).2 := by
  unfold crossLink
  split
  · have h := closed_linkAppend file (s.map.map (·.1)) 0 s h hf
    simp only [M.bind_def, M.get]
    split <;> rename_i heq <;> rw [heq] at h <;> exact h
  · split
    · have h := closed_linkRecipe file (replaceAll c!".bb" [] (basename file)) (maxLine its) [] s.items s h
        (fun it hit => h.2 it (by simpa using hit))
      simp only [M.bind_def, M.get]
      split <;> rename_i heq <;> rw [heq] at h <;> exact h
    · exact h

theorem addFile_closed (W : World) (fuel : Nat) (path : Str) (off : Int) (forced : Option Str) :
    M.Rel (fun s s' => Closed s → Closed s') (addFile W fuel path off forced) := by
  induction fuel generalizing path off forced with
  | zero => exact fun s h => h
  | succ fuel ih =>
    intro s h
    by_cases hs : alreadySeen s (abspath W.cwd path) = true
    · rw [addFile_seen off forced hs]; exact h
    · have hs : alreadySeen s (abspath W.cwd path) = false := by simpa using hs
      have hmark : Closed (markSeen s (abspath W.cwd path)) := h
      have hget := getItems_rel (R := fun s s' => Closed s → Closed s') (fun _ h => h) (fun _ _ _ h1 h2 h => h2 (h1 h))
        (fun s h => h) W (abspath W.cwd path) (fun p o f => ih p o f) off s.newStyle s.negative _ hmark
      rw [addFile_eq W fuel path off forced s hs]
      split
      · rename_i heq; rw [heq] at hget; exact hget
      · rename_i its s1 heq
        rw [heq] at hget
        have hent := closed_enterMap hget (abspath W.cwd path) forced
        have hkey := enterMap_key s1 (abspath W.cwd path) forced
        have hx := closed_crossLink (abspath W.cwd path) its _ hent hkey
        have hq := quiet_crossLink (abspath W.cwd path) its { s1 with map := enterMap s1.map (abspath W.cwd path) forced }
        have key2 : abspath W.cwd path ∈ keys (crossLink (abspath W.cwd path) its
          { s1 with map := enterMap s1.map (abspath W.cwd path) forced }).2 := hq.keys _ hkey
        split
        · rename_i heq3; rw [heq3] at hx; exact hx
        · rename_i res s3 heq3
          rw [heq3] at hx key2
          have hd := addDistroMachine_rel (R := fun s s' => Closed s ∧ abspath W.cwd path ∈ keys s → Closed s' ∧ abspath W.cwd path ∈ keys s')
            (fun _ h => h) (fun _ _ _ h1 h2 h => h2 (h1 h)) (fun s db h => h) W (abspath W.cwd path) s3 ⟨hx, key2⟩
          split
          · rename_i heq4; rw [heq4] at hd; exact hd.1
          · rename_i s4 heq4
            rw [heq4] at hd
            refine ⟨hd.1.1, fun it hit => ?_⟩
            rcases List.mem_append.1 hit with hit | hit
            · exact hd.1.2 it hit
            · have hall := addFile_eq W fuel path off forced s hs
              rw [heq] at hall
              simp only at hall
              rw [heq3] at hall
              simp only at hall
              rw [heq4] at hall
              rw [addFile_origin hall it hit]
              exact hd.2

theorem closed_finalize (W : World) (s : Stash) (h : Closed s) : Closed (finalize W s).2 ∧ ∃ s', finalize W s = (.ok (), s') := by
  obtain ⟨m', hm⟩ := closeLoop_noError W (s.map.map (·.1)) s.map (fun _ h => h) (fun k x hx => h.1 k x hx)
  have hc := closeLoop_ok W _ _ _ (fun _ h => h) hm
  unfold finalize
  rw [hm]
  simp only
  refine ⟨?_, _, rfl⟩
  have hsound : ∀ k x, x ∈ lk m' k → x ∈ keys s := by
    have : ∀ (ks : List Str) (m m' : List (Str × List Str)), CloseSteps ks m m' → (∀ k ∈ ks, k ∈ keys s) →
        (∀ k x, x ∈ lk m k → x ∈ keys s) → ∀ k x, x ∈ lk m' k → x ∈ keys s := by
      intro ks m m' hcs
      induction hcs with
      | nil => exact fun _ h => h
      | @cons k ks m m1 m' hst _ ih =>
        intro hks hl
        apply ih (fun j hj => hks j (by simp [hj]))
        intro j x hx
        by_cases hj : j = k
        · subst hj
          rcases (hst.mem x).1 hx with rfl | h1 | ⟨i, _, h1⟩
          · exact hks _ (by simp)
          · exact hl _ _ h1
          · exact hl _ _ h1
        · unfold lk at hx
          rw [hst.other j hj] at hx
          exact hl j x hx
    exact this _ _ _ hc (fun _ h => h) (fun k x hx => h.1 k x hx)
  obtain ⟨items, he⟩ := includedLoop_frame W m' { s with map := m' }
  have hi := includedLoop_items W m' { s with map := m' }
  rw [he] at hi ⊢
  refine ⟨fun k x hx => ?_, fun it hit => ?_⟩
  · change x ∈ m'.map (·.1)
    rw [hc.keys]; exact hsound k x hx
  · change it.origin ∈ m'.map (·.1)
    rw [hc.keys]
    obtain ⟨x, hx, fs, hf⟩ := forall₂_mem_right hi hit
    rw [hf]
    exact h.2 x hx

/-! ## IncludedFrom -/

theorem mem_addIncluded (v : List Str) (x : Item) (f : Str) : f ∈ (addIncluded v x).includedFrom ↔ f ∈ x.includedFrom ∨ f ∈ v := by
  unfold addIncluded
  simp only [List.mem_append, List.mem_filter, mem_dedup, Bool.not_eq_true', List.contains_eq_mem, decide_eq_false_iff_not]
  by_cases h : f ∈ x.includedFrom <;> simp [h]

/-- the item with the `IncludedFrom` after `Finalize` -/
def IncludedSpec (m : List (Str × List Str)) (l : List (Str × List Str)) (a b : Item) : Prop :=
  b = { a with includedFrom := b.includedFrom } ∧
  ∀ f, f ∈ b.includedFrom ↔ f ∈ a.includedFrom ∨ ∃ k v, (k, v) ∈ l ∧ f ∈ v ∧ (a.origin = k ∨ a.origin ∈ lk m k)

theorem includedLoop_spec (W : World) (l : List (Str × List Str)) (s : Stash) (hl : ∀ kv ∈ l, kv.1 ≠ []) :
    List.Forall₂ (IncludedSpec s.map l) s.items (includedLoop W l s).items := by
  induction l generalizing s with
  | nil =>
    have : ∀ l : List Item, List.Forall₂ (IncludedSpec s.map []) l l := by
      intro l
      induction l with
      | nil => exact .nil
      | cons x xs ih => exact .cons ⟨rfl, fun f => by simp⟩ ih
    exact this s.items
  | cons kv l ih =>
    obtain ⟨k, v⟩ := kv
    have hk : k ≠ [] := hl (k, v) (by simp)
    rw [includedLoop]
    have h2 := ih { s with items := s.items.map (fun x =>
      if (getItemsFor W s { filename := some k }).contains x then addIncluded v x else x) } (fun kv h => hl kv (by simp [h]))
    have hsel : ∀ x ∈ s.items, (getItemsFor W s { filename := some k }).contains x = true ↔ x.origin = k ∨ x.origin ∈ lk s.map k := by
      intro x hx
      rw [List.contains_iff_mem, mem_getItemsFor]
      constructor
      · rintro ⟨_, hsel⟩
        rcases hsel.file k rfl hk with h | ⟨_, fs, h1, h2⟩
        · exact Or.inl h
        · exact Or.inr (by unfold lk; rw [h1]; exact h2)
      · intro h
        refine ⟨hx, ⟨?_, ?_, ?_⟩⟩
        · rintro fn hfn _
          cases hfn
          rcases h with h | h
          · exact Or.inl h
          · refine Or.inr ⟨rfl, ?_⟩
            unfold lk at h
            cases hd : dget k s.map with
            | none => rw [hd] at h; simp at h
            | some fs => rw [hd] at h; exact ⟨fs, rfl, h⟩
        · intro h; exact absurd rfl h
        · intro h; exact absurd rfl h
    simp only at h2
    revert h2 hsel
    generalize (includedLoop W l { s with items := s.items.map (fun x =>
      if (getItemsFor W s { filename := some k }).contains x then addIncluded v x else x) }).items = out
    generalize getItemsFor W s { filename := some k } = sel
    generalize s.items = its
    intro h2 hsel
    induction its generalizing out with
    | nil => cases h2; exact .nil
    | cons x xs ihx =>
      rw [List.map_cons] at h2
      cases h2 with
      | @cons _ y _ ys hxy hrest =>
        refine .cons ?_ (ihx ys hrest (fun z hz => hsel z (by simp [hz])))
        have hx := hsel x (by simp)
        obtain ⟨h3, h4⟩ := hxy
        by_cases hc : sel.contains x = true
        · rw [if_pos hc] at h3 h4
          refine ⟨by rw [h3]; rfl, fun f => ?_⟩
          rw [h4 f, mem_addIncluded]
          have ho : (addIncluded v x).origin = x.origin := rfl
          rw [ho]
          constructor
          · rintro ((h | h) | ⟨k', v', h5, h6, h7⟩)
            · exact Or.inl h
            · exact Or.inr ⟨k, v, by simp, h, hx.1 hc⟩
            · exact Or.inr ⟨k', v', by simp [h5], h6, h7⟩
          · rintro (h | ⟨k', v', h5, h6, h7⟩)
            · exact Or.inl (Or.inl h)
            · rcases List.mem_cons.1 h5 with h5 | h5
              · cases h5; exact Or.inl (Or.inr h6)
              · exact Or.inr ⟨k', v', h5, h6, h7⟩
        · rw [if_neg hc] at h3 h4
          refine ⟨h3, fun f => ?_⟩
          rw [h4 f]
          constructor
          · rintro (h | ⟨k', v', h5, h6, h7⟩)
            · exact Or.inl h
            · exact Or.inr ⟨k', v', by simp [h5], h6, h7⟩
          · rintro (h | ⟨k', v', h5, h6, h7⟩)
            · exact Or.inl h
            · rcases List.mem_cons.1 h5 with h5 | h5
              · cases h5; exact absurd (hx.2 h7) hc
              · exact Or.inr ⟨k', v', h5, h6, h7⟩

theorem forall₂_mono {α β : Type} {R S : α → β → Prop} (h : ∀ a b, R a b → S a b) {l : List α} {l' : List β}
    (hr : List.Forall₂ R l l') : List.Forall₂ S l l' := by
  induction hr with
  | nil => exact .nil
  | cons hx _ ih => exact .cons (h _ _ hx) ih

theorem dget_of_mem {α} {d : List (Str × α)} (hn : (d.map (·.1)).Nodup) {k : Str} {v : α} (h : (k, v) ∈ d) :
    dget k d = some v := by
  induction d with
  | nil => cases h
  | cons e d ih =>
    obtain ⟨j, w⟩ := e
    rw [List.map_cons, List.nodup_cons] at hn
    rw [dget]
    rcases List.mem_cons.1 h with h | h
    · cases h; simp
    · have : j ≠ k := by
        rintro rfl
        exact hn.1 (List.mem_map.2 ⟨_, h, rfl⟩)
      rw [if_neg (by simpa using this)]
      exact ih hn.2 h

/-! ## keys -/

/-- no file is twice in the map, none has an empty name -/
def GoodKeys (s : Stash) : Prop := (keys s).Nodup ∧ [] ∉ keys s

theorem addFile_goodKeys (W : World) (fuel : Nat) (path : Str) (off : Int) (forced : Option Str) :
    M.Rel (fun s s' => GoodKeys s → GoodKeys s') (addFile W fuel path off forced) := by
  have hset : ∀ (s : Stash) (k : Str) v, k ≠ [] → GoodKeys s → GoodKeys { s with map := dset k v s.map } := by
    intro s k v hk h
    refine ⟨dset_nodup h.1, fun hh => ?_⟩
    rcases dset_keys_mem.1 hh with hh | hh
    · exact hk hh.symm
    · exact h.2 hh
  have hmem : ∀ (s : Stash) (k : Str) v, k ∈ keys s → GoodKeys s → GoodKeys { s with map := dset k v s.map } := by
    intro s k v hk h
    exact hset s k v (fun hh => h.2 (hh ▸ hk)) h
  induction fuel generalizing path off forced with
  | zero => exact fun s h => h
  | succ fuel ih =>
    intro s h
    by_cases hs : alreadySeen s (abspath W.cwd path) = true
    · rw [addFile_seen off forced hs]; exact h
    · have hs : alreadySeen s (abspath W.cwd path) = false := by simpa using hs
      have hne := abspath_ne_nil W path
      have hget := getItems_rel (R := fun s s' => GoodKeys s → GoodKeys s') (fun _ h => h) (fun _ _ _ h1 h2 h => h2 (h1 h))
        (fun s h => h) W (abspath W.cwd path) (fun p o f => ih p o f) off s.newStyle s.negative
        (markSeen s (abspath W.cwd path)) h
      rw [addFile_eq W fuel path off forced s hs]
      split
      · rename_i heq; rw [heq] at hget; exact hget
      · rename_i its s1 heq
        rw [heq] at hget
        have hent : GoodKeys { s1 with map := enterMap s1.map (abspath W.cwd path) forced } := by
          have h1 : GoodKeys { s1 with map := if dhas (abspath W.cwd path) s1.map then s1.map else dset (abspath W.cwd path) [] s1.map } := by
            split
            · exact hget
            · exact hset s1 _ _ hne hget
          unfold enterMap
          simp only
          split
          · split
            · exact h1
            · rename_i hf
              exact hset { s1 with map := if dhas (abspath W.cwd path) s1.map then s1.map else dset (abspath W.cwd path) [] s1.map }
                _ _ (by simpa using hf) h1
          · exact h1
        have hx : GoodKeys (crossLink (abspath W.cwd path) its { s1 with map := enterMap s1.map (abspath W.cwd path) forced }).2 := by
          unfold crossLink
          split
          · have hh : ∀ (l : List Str) (mx : Int) (s : Stash), (∀ x ∈ l, x ∈ keys s) → GoodKeys s →
                GoodKeys (linkAppend (abspath W.cwd path) l mx s).2 := by
              intro l
              induction l with
              | nil => exact fun _ _ _ h => h
              | cons x xs ih =>
                intro mx s hl h
                rw [linkAppend_cons]
                split
                · exact h
                · exact ih _ _ (fun y hy => hl y (by simp [hy])) h
                · exact ih _ _ (fun y hy => mapAppend_keys.2 (Or.inr (hl y (by simp [hy])))) (hmem s x _ (hl x (by simp)) h)
            have hh := hh (({ s1 with map := enterMap s1.map (abspath W.cwd path) forced } : Stash).map.map (·.1)) 0 _
              (fun x hx => by unfold keys; exact hx) hent
            simp only [M.bind_def, M.get]
            split <;> rename_i heq <;> rw [heq] at hh <;> exact hh
          · split
            · have hh := linkRecipe_rel (R := fun s s' => GoodKeys s → GoodKeys s') (fun _ _ _ h1 h2 h => h2 (h1 h))
                (abspath W.cwd path) (replaceAll c!".bb" [] (basename (abspath W.cwd path))) (maxLine its)
                (fun s l _ h => h) (fun s x h => hset s _ _ hne h) [] _ { s1 with map := enterMap s1.map (abspath W.cwd path) forced }
                (Relined.refl _) hent
              simp only [M.bind_def, M.get]
              split <;> rename_i heq <;> rw [heq] at hh <;> exact hh
            · exact hent
        split
        · rename_i heq3; rw [heq3] at hx; exact hx
        · rename_i res s3 heq3
          rw [heq3] at hx
          have hd := addDistroMachine_rel (R := fun s s' => GoodKeys s → GoodKeys s')
            (fun _ h => h) (fun _ _ _ h1 h2 h => h2 (h1 h)) (fun s db h => h) W (abspath W.cwd path) s3 hx
          split
          · rename_i heq4; rw [heq4] at hd; exact hd
          · rename_i s4 heq4
            rw [heq4] at hd
            exact hd

/-- a successful `Finalize` -/
theorem finalize_ok {W : World} {s s' : Stash} (h : finalize W s = (.ok (), s')) :
    CloseSteps (keys s) s.map s'.map ∧ s' = includedLoop W s'.map { s with map := s'.map } := by
  unfold finalize at h
  split at h
  · cases h
  · rename_i m hm
    cases h
    obtain ⟨items, he⟩ := includedLoop_frame W m { s with map := m }
    have hmap : (includedLoop W m { s with map := m }).map = m := by rw [he]
    rw [hmap]
    exact ⟨closeLoop_ok W _ _ _ (fun _ h => h) hm, rfl⟩

/-- what every history of `AddFile` and `Finalize` keeps -/
structure Sound (W : World) (s : Stash) : Prop where
  closed : Closed s
  good : GoodKeys s
  classes : ClassesOnly s
  linked : Linked W s

theorem finalize_sound {W : World} {s : Stash} (h : Sound W s) : Sound W (finalize W s).2 := by
  obtain ⟨h1, s', h2⟩ := closed_finalize W s h.closed
  obtain ⟨items, map, hf, hg⟩ := finalize_frame W s
  obtain ⟨h3, _⟩ := finalize_ok h2
  rw [h2] at hf h1
  rw [h2]
  have hkeys : keys s' = keys s := h3.keys
  refine ⟨h1, by unfold GoodKeys; rw [hkeys]; exact h.good, ?_, ?_⟩
  · have : s'.seenClasses = s.seenClasses := by rw [show s' = _ from hf]
    unfold ClassesOnly; rw [this]; exact h.classes
  · intro it hit p hp he
    have hit' : it ∈ items := by
      have : s'.items = items := by rw [show s' = _ from hf]
      rw [← this]; exact hit
    obtain ⟨x, hx, fs, hxx⟩ := forall₂_mem_right hg hit'
    rw [hxx] at hp
    rw [hxx]
    exact h3.grow _ _ (h.linked x hx p hp he)

theorem addFile_sound {W : World} {s : Stash} (h : Sound W s) (fuel : Nat) (path : Str) (off : Int) (forced : Option Str) :
    Sound W (addFile W fuel path off forced s).2 := by
  have hk := addFile_keepLinked W fuel path off forced s
  exact ⟨addFile_closed W fuel path off forced s h.closed, addFile_goodKeys W fuel path off forced s h.good,
    hk.2.1 h.classes, hk.2.2 h.classes h.linked⟩

theorem sound_init (W : World) (ns neg : Bool) (consts : J) (uid : Nat) : Sound W (Stash.init ns neg consts uid) := by
  refine ⟨⟨?_, ?_⟩, ⟨?_, ?_⟩, ?_, ?_⟩
  · intro k x hx; simp [links, Stash.init, dget] at hx
  · intro it hit; simp [Stash.init] at hit
  · simp [keys, Stash.init]
  · simp [keys, Stash.init]
  · intro f hf; simp [Stash.init] at hf
  · intro it hit; simp [Stash.init] at hit

theorem history_sound {W : World} {s s' : Stash} (h : History W Call.loading s s') (hs : Sound W s) : Sound W s' := by
  induction h with
  | nil => exact hs
  | snoc h depth c hc ih =>
    cases c with
    | addFile p o fo => exact addFile_sound ih depth p o fo
    | append l => cases hc
    | remove l => cases hc
    | finalize => exact finalize_sound ih

/-! ## successful histories -/

theorem keyed_init (W : World) (ns neg : Bool) (consts : J) (uid : Nat) : Keyed W [] (Stash.init ns neg consts uid) := by
  constructor
  · intro f hf; simp [Stash.init] at hf
  · intro f hf; simp [Stash.init] at hf
  · intro f hf; simp [Stash.init] at hf

theorem added_keyed {W : World} {s s' : Stash} {ps : List Str} (h : Added W s ps s') (hk : Keyed W [] s) :
    Keyed W [] s' ∧ ∀ p ∈ ps, Done W s' (abspath W.cwd p) := by
  induction h with
  | nil => exact ⟨hk, by simp⟩
  | @snoc s1 s2 ps p depth res h hp ih =>
    obtain ⟨h1, h2⟩ := ih
    obtain ⟨h3, h4⟩ := addFile_keyed W _ _ _ _ _ _ _ hp [] h1
    refine ⟨h3, fun q hq => ?_⟩
    rcases List.mem_append.1 hq with hq | hq
    · have hg := addFile_linksGrow (W := W) depth p 0 none s1
      have hh := addFile_rel (hashes_step W) depth p 0 none s1
      rw [hp] at hg hh
      exact (h2 q hq).grow hg hh
    · have : q = p := by simpa using hq
      subst this
      rcases h4 with h4 | h4
      · cases h4
      · exact h4

theorem added_upper {W : World} {s s' : Stash} {ps : List Str} (h : Added W s ps s') :
    ∀ k ∈ keys s', k ∈ keys s ∨ (∃ p ∈ ps, abspath W.cwd p = k) ∨ LoadedBy W s'.items k := by
  induction h with
  | nil => exact fun k hk => Or.inl hk
  | @snoc s1 s2 ps p depth res h hp ih =>
    intro k hk
    rcases addFile_upper W _ _ _ _ _ _ _ hp k hk with h1 | h1 | h1 | h1
    · rcases ih k h1 with h2 | ⟨q, hq, h2⟩ | h2
      · exact Or.inl h2
      · exact Or.inr (Or.inl ⟨q, by simp [hq], h2⟩)
      · have hh := addFile_rel (hashes_step W) depth p 0 none s1
        rw [hp] at hh
        obtain ⟨added, _, hr⟩ := hh
        refine Or.inr (Or.inr (LoadedBy.relined hr ?_))
        obtain ⟨it, hit, rest⟩ := h2
        exact ⟨it, List.mem_append_left _ hit, rest⟩
    · exact Or.inr (Or.inl ⟨p, by simp, h1.symm⟩)
    · cases h1
    · exact Or.inr (Or.inr h1)

theorem addFile_classLinked (W : World) (fuel : Nat) (path : Str) (off : Int) (forced : Option Str) (s s' : Stash)
    (res : List Item) (h : addFile W fuel path off forced s = (.ok res, s')) :
    ∀ f ∈ s'.seenClasses, f ∈ s.seenClasses ∨ f = abspath W.cwd path ∨ ∃ g, f ∈ links s' g := by
  induction fuel generalizing path off forced s s' res with
  | zero => cases h
  | succ fuel ih =>
    rcases addFile_ok W h with ⟨_, rfl, rfl⟩ | ⟨hs, ⟨ok⟩⟩
    · exact fun f hf => Or.inl hf
    · obtain ⟨ps, hps, hm⟩ := itemsLoop_loads W _ _ _ _ _ _ _ _ _ ok.loop
      have key : ∀ {a ps b}, Loads (addFile W fuel) (abspath W.cwd path) a ps b →
          LinksGrow a b ∧ ∀ f ∈ b.seenClasses, f ∈ a.seenClasses ∨ ∃ g, f ∈ links b g := by
        intro a ps b hl
        induction hl with
        | done => exact ⟨(linksGrow_step W).refl _, fun f hf => Or.inl hf⟩
        | uid _ ih' => exact ih'
        | @load a p off tmp a1 ps b hadd _ ih' =>
          obtain ⟨h1, h2⟩ := ih'
          have hg := addFile_linksGrow (W := W) fuel p off (some (abspath W.cwd path)) a
          rw [hadd] at hg
          refine ⟨(linksGrow_step W).trans _ _ _ hg h1, fun f hf => ?_⟩
          rcases h2 f hf with h3 | h3
          · rcases ih _ _ _ _ _ _ hadd f h3 with h4 | h4 | ⟨g, h4⟩
            · exact Or.inl h4
            · by_cases hseen : alreadySeen a (abspath W.cwd p) = true
              · cases fuel with
                | zero => cases hadd
                | succ n =>
                  rw [addFile_seen _ _ hseen] at hadd
                  cases hadd
                  exact Or.inl h3
              · refine Or.inr ⟨abspath W.cwd path, h1.2 _ _ ?_⟩
                rw [h4]
                exact addFile_forced hadd (abspath_ne_nil W path) (by simpa using hseen)
            · exact Or.inr ⟨g, h1.2 _ _ h4⟩
          · exact Or.inr h3
      obtain ⟨h1, h2⟩ := key hps
      have hcl : ok.s4.seenClasses = ok.s1.seenClasses := ok.quiet.classes
      have hgrow : LinksGrow ok.s1 ok.s4 := by
        have hg := linksGrow_step W
        have h3 := enterMap_rel hg.refl hg.trans hg.link hg.enter (abspath W.cwd path) forced ok.s1
        have h4 := crossLink_rel hg.refl hg.trans hg.reline hg.link (abspath W.cwd path) ok.its
          { ok.s1 with map := enterMap ok.s1.map (abspath W.cwd path) forced }
        rw [ok.cross] at h4
        have h5 := addDistroMachine_rel hg.refl hg.trans hg.consts W (abspath W.cwd path) ok.s3
        rw [ok.distro] at h5
        exact hg.trans _ _ _ h3 (hg.trans _ _ _ h4 h5)
      suffices hh : ∀ f ∈ (commitItems W res ok.s4).seenClasses, f ∈ s.seenClasses ∨ f = abspath W.cwd path ∨
          ∃ g, f ∈ links (commitItems W res ok.s4) g by rw [← ok.final] at hh; exact hh
      intro f hf
      have hf1 : f ∈ ok.s1.seenClasses := by rw [← hcl]; exact hf
      rcases h2 f hf1 with h3 | ⟨g, h3⟩
      · unfold markSeen at h3
        simp only at h3
        split at h3
        · rcases List.mem_append.1 h3 with h3 | h3
          · exact Or.inl h3
          · exact Or.inr (Or.inl (by simpa using h3))
        · exact Or.inl h3
      · exact Or.inr (Or.inr ⟨g, hgrow.2 _ _ h3⟩)

end Oelint

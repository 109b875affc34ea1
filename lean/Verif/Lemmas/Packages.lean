import Verif.Lemmas.Uri
import Verif.Lemmas.Tokens
import Verif.Props.Queries
import Verif.Spec.Packages
/-! Package names. -/
set_option linter.unusedSectionVars false
set_option linter.unusedSimpArgs false
namespace Oelint
variable [Uni]
open Spec

/-- the separator of `Stash.SafeLineSplit` -/
def stashSep (c : Char) (_t : Str) : Bool := reSpace c || c == '\x1b'

theorem stashSep_iff {c : Char} {t : Str} : stashSep c t = true ↔ Blank c := by simp [stashSep, Blank]

theorem mem_stashSafeline {pos : Nat} {c : Char} {t : Str} {st : St} :
    st ∈ ms reStashSafelineSplit.re ⟨pos, c :: t, []⟩ ↔ stashSep c t = true ∧ st = ⟨pos + 1, t, []⟩ := by
  simp only [reStashSafelineSplit, mem_ms_alt, mem_ms_cls, mem_ms_lit, space_test]
  constructor
  · rintro (⟨x, u, he, hx, rfl⟩ | ⟨hp, rfl⟩ | ⟨hp, rfl⟩)
    · cases he
      exact ⟨by simp [stashSep, hx], rfl⟩
    · obtain ⟨q, hq⟩ := hp
      cases hq
      exact ⟨by simp [stashSep]; decide, by simp⟩
    · obtain ⟨q, hq⟩ := hp
      cases hq
      exact ⟨by simp [stashSep], by simp⟩
  · rintro ⟨h, rfl⟩
    rcases stashSep_iff.1 h with h | rfl
    · exact Or.inl ⟨c, t, rfl, h, rfl⟩
    · exact Or.inr (Or.inr ⟨⟨t, rfl⟩, by simp⟩)

theorem stashSafeLineSplit_eq (s : Str) : stashSafeLineSplit s = splitBy stashSep s := matchAt_one mem_stashSafeline s

theorem splitAt_splitBy (s : Str) : SplitAt Blank s (splitBy stashSep s) := by
  induction s with
  | nil => exact .last (by simp)
  | cons c t ih =>
    rw [splitBy]
    by_cases h : stashSep c t = true
    · rw [if_pos h]
      exact SplitAt.cons (w := []) (by simp) (stashSep_iff.1 h) ih
    · rw [if_neg h]
      have hc : ¬ Blank c := fun hb => h (stashSep_iff.2 hb)
      generalize splitBy stashSep t = ps at ih
      cases ih with
      | last hw => exact .last (by simpa using ⟨hc, hw⟩)
      | @cons w s' d ps' hw hd hs => exact SplitAt.cons (w := c :: w) (by simpa using ⟨hc, hw⟩) hd hs

theorem splitAt_unique {s : Str} {ps : List Str} (h : SplitAt Blank s ps) : ps = splitBy stashSep s := by
  induction h with
  | @last w hw =>
    have := splitBy_run (sep := stashSep) w [] (fun a c b he => by
      have := hw c (by rw [he]; simp)
      rw [← stashSep_iff (t := b ++ [])] at this
      simpa using this)
    simpa [splitBy] using this.symm
  | @cons w s c ps hw hc _ ih =>
    have := splitBy_run (sep := stashSep) w (c :: s) (fun a c' b he => by
      have := hw c' (by rw [he]; simp)
      rw [← stashSep_iff (t := b ++ c :: s)] at this
      simpa using this)
    rw [this, splitBy, if_pos (stashSep_iff.2 hc), ih]
    simp

theorem words_splitAt {s : Str} {ps : List Str} (h : SplitAt Blank s ps) : Words Blank s (ps.filter (fun x => !x.isEmpty)) := by
  induction h with
  | @last w hw =>
    cases w with
    | nil => exact .nil
    | cons c t => simpa using Words.word (sep := Blank) (w := c :: t) (s := []) (by simp) hw (by simp) .nil
  | @cons w s c ps hw hc _ ih =>
    cases w with
    | nil => simpa using Words.skip hc ih
    | cons d t =>
      simpa using Words.word (sep := Blank) (w := d :: t) (s := c :: s) (by simp) hw (by simpa using hc) (.skip hc ih)

theorem words_stashSafe (s : Str) : Words Blank s ((stashSafeLineSplit s).filter (fun x => !x.isEmpty)) := by
  rw [stashSafeLineSplit_eq]; exact words_splitAt (splitAt_splitBy s)

theorem mem_sadd {l : List Str} {x y : Str} : y ∈ sadd l x ↔ y ∈ l ∨ y = x := by
  unfold sadd
  split
  · rename_i h
    have : x ∈ l := by simpa using h
    constructor
    · exact Or.inl
    · rintro (h | rfl)
      · exact h
      · exact this
  · simp

theorem mem_foldl_sadd {α : Type} {f : α → Str} {xs : List α} {l : List Str} {y : Str} :
    y ∈ xs.foldl (fun r x => sadd r (f x)) l ↔ y ∈ l ∨ ∃ x ∈ xs, y = f x := by
  induction xs generalizing l with
  | nil => simp
  | cons x xs ih =>
    rw [List.foldl_cons, ih, mem_sadd]
    simp [or_assoc]

theorem nodup_sadd {l : List Str} {x : Str} (h : l.Nodup) : (sadd l x).Nodup := by
  unfold sadd
  split
  · exact h
  · rename_i hc
    rw [List.nodup_append]
    refine ⟨h, by simp, ?_⟩
    intro a ha b hb
    simp at hb; subst hb
    rintro rfl
    exact hc (by simpa using ha)

theorem nodup_foldl_sadd {α : Type} {f : α → Str} {xs : List α} {l : List Str} (h : l.Nodup) :
    (xs.foldl (fun r x => sadd r (f x)) l).Nodup := by
  induction xs generalizing l with
  | nil => exact h
  | cons x xs ih => exact ih (nodup_sadd h)

theorem mem_stdPackages {pn p : Str} : p ∈ stdPackages pn ↔ ∃ e ∈ stdEndings, p = pn ++ e := by
  simp [stdPackages, stdEndings]

theorem mem_varsOf {W : World} {s : Stash} {file name : Str} (hf : file ≠ []) (hn : name ≠ []) {v : VarData} :
    v ∈ varsOf (getItemsFor W s (varFilter file name)) ↔ Assigned s file name v := by
  unfold varsOf Assigned
  rw [List.mem_filterMap]
  constructor
  · rintro ⟨x, hx, h⟩
    rw [mem_getItemsFor, selected_var hf hn] at hx
    obtain ⟨h0, h1, w, h2, h3⟩ := hx
    rw [h2] at h
    cases h
    exact ⟨x, h0, h1, h2, h3⟩
  · rintro ⟨x, h0, h1, h2, h3⟩
    exact ⟨x, (mem_getItemsFor ..).2 ⟨h0, (selected_var hf hn x).2 ⟨h1, v, h2, h3⟩⟩, by rw [h2]⟩

theorem varsOf_append (a b : List Item) : varsOf (a ++ b) = varsOf a ++ varsOf b := by simp [varsOf]

/-- the words of the expanded value -/
theorem packageWords_ok {W : World} {s : Stash} {file : Str} {v : VarData} {ws : List Str} :
    packageWords W s file v = .ok ws ↔
      ∃ t, expandTermS W s file [c!"PN"] (varValueStripped v) = .ok t ∧ ws = (stashSafeLineSplit t).filter (fun x => !x.isEmpty) := by
  unfold packageWords
  cases expandTermS W s file [c!"PN"] (varValueStripped v) with
  | error e => simp
  | ok t => simp [eq_comm]

theorem packageLoop_ok {W : World} {s : Stash} {file pn : Str} {strippn : Bool} {vs : List VarData} {res out : List Str}
    (h : packageLoop W s file pn strippn vs res = .ok out) :
    (∀ p, p ∈ out ↔ p ∈ res ∨ ∃ v ∈ vs, ∃ ws, packageWords W s file v = .ok ws ∧ ∃ w ∈ ws,
      p = replaceAll c!"${PN}" (if strippn then [] else pn) w) ∧
    (∀ v ∈ vs, ∃ ws, packageWords W s file v = .ok ws) ∧ (res.Nodup → out.Nodup) := by
  induction vs generalizing res with
  | nil => cases h; simp
  | cons v vs ih =>
    rw [packageLoop] at h
    cases hw : packageWords W s file v with
    | error e => rw [hw] at h; cases h
    | ok ws =>
      rw [hw] at h
      obtain ⟨h1, h2, h3⟩ := ih h
      refine ⟨fun p => ?_, ?_, fun hn => h3 (nodup_foldl_sadd hn)⟩
      · rw [h1, mem_foldl_sadd]
        constructor
        · rintro ((h | ⟨w, hw1, rfl⟩) | ⟨v', hv, rest⟩)
          · exact Or.inl h
          · exact Or.inr ⟨v, List.mem_cons_self, ws, hw, w, hw1, rfl⟩
          · exact Or.inr ⟨v', List.mem_cons_of_mem _ hv, rest⟩
        · rintro (h | ⟨v', hv, ws', hw', w, hw1, rfl⟩)
          · exact Or.inl (Or.inl h)
          · rcases List.mem_cons.1 hv with rfl | hv
            · rw [hw] at hw'; cases hw'
              exact Or.inl (Or.inr ⟨w, hw1, rfl⟩)
            · exact Or.inr ⟨v', hv, ws', hw', w, hw1, rfl⟩
      · intro v' hv
        rcases List.mem_cons.1 hv with rfl | hv
        · exact ⟨ws, hw⟩
        · exact h2 v' hv

theorem packageLoop_total {W : World} {s : Stash} {file pn : Str} {strippn : Bool} {vs : List VarData} {res : List Str}
    (h : ∀ v ∈ vs, ∃ ws, packageWords W s file v = .ok ws) : ∃ out, packageLoop W s file pn strippn vs res = .ok out := by
  induction vs generalizing res with
  | nil => exact ⟨res, rfl⟩
  | cons v vs ih =>
    obtain ⟨ws, hw⟩ := h v List.mem_cons_self
    obtain ⟨out, ho⟩ := ih (res := ws.foldl (fun r pkg => sadd r (replaceAll c!"${PN}" (if strippn then [] else pn) pkg)) res)
      (fun v' hv => h v' (List.mem_cons_of_mem _ hv))
    exact ⟨out, by rw [packageLoop, hw]; exact ho⟩

/-- `${PN}` is replaced -/
theorem replaced_pn_iff {new w p : Str} : Replaced c!"${PN}" new w p ↔ p = replaceAll c!"${PN}" new w :=
  ⟨fun h => replaced_eq (by simp) h, fun h => h ▸ replaced_replaceAll (by simp) w⟩

theorem dynLoop_ok {W : World} {s : Stash} {file : Str} {vs : List VarData} {res out : List Str}
    (h : dynLoop W s file vs res = .ok out) :
    (∀ p, p ∈ out ↔ p ∈ res ∨ ∃ v ∈ vs, ∃ t, expandTerm W s file (varValueStripped v) = .ok t ∧ p ∈ stashSafeLineSplit t) ∧
    (∀ v ∈ vs, ∃ t, expandTerm W s file (varValueStripped v) = .ok t) := by
  induction vs generalizing res with
  | nil => cases h; simp
  | cons v vs ih =>
    rw [dynLoop] at h
    cases hw : expandTerm W s file (varValueStripped v) with
    | error e => rw [hw] at h; cases h
    | ok t =>
      rw [hw] at h
      obtain ⟨h1, h2⟩ := ih h
      have hm : ∀ p, p ∈ (stashSafeLineSplit t).foldl sadd res ↔ p ∈ res ∨ p ∈ stashSafeLineSplit t := by
        intro p
        have := mem_foldl_sadd (f := id) (xs := stashSafeLineSplit t) (l := res) (y := p)
        simpa using this
      refine ⟨fun p => ?_, ?_⟩
      · rw [h1, hm]
        constructor
        · rintro ((h | h) | ⟨v', hv, rest⟩)
          · exact Or.inl h
          · exact Or.inr ⟨v, List.mem_cons_self, t, hw, h⟩
          · exact Or.inr ⟨v', List.mem_cons_of_mem _ hv, rest⟩
        · rintro (h | ⟨v', hv, t', ht', hp⟩)
          · exact Or.inl (Or.inl h)
          · rcases List.mem_cons.1 hv with rfl | hv
            · rw [hw] at ht'; cases ht'
              exact Or.inl (Or.inr hp)
            · exact Or.inr ⟨v', hv, t', ht', hp⟩
      · intro v' hv
        rcases List.mem_cons.1 hv with rfl | hv
        · exact ⟨t, hw⟩
        · exact h2 v' hv

theorem anyMatch_ok {name : Str} {ps : List Str} {b : Bool} (h : anyMatch name ps = .ok b) :
    (b = true → ∃ p ∈ ps, matchDyn p name = .ok true) ∧ (b = false → ∀ p ∈ ps, matchDyn p name = .ok false) := by
  induction ps with
  | nil => cases h; simp
  | cons p ps ih =>
    rw [anyMatch] at h
    cases hm : matchDyn p name with
    | error e => rw [hm] at h; cases h
    | ok r =>
      rw [hm] at h
      cases r with
      | true => cases h; exact ⟨fun _ => ⟨p, List.mem_cons_self, hm⟩, by simp⟩
      | false =>
        obtain ⟨h1, h2⟩ := ih h
        refine ⟨fun hb => ?_, fun hb q hq => ?_⟩
        · obtain ⟨q, hq, hqm⟩ := h1 hb
          exact ⟨q, List.mem_cons_of_mem _ hq, hqm⟩
        · rcases List.mem_cons.1 hq with rfl | hq
          · exact hm
          · exact h2 hb q hq

theorem namedLoop_ok {W : World} {s : Stash} {pn : Str} {ws : List Str} {res out : List Str}
    (h : namedLoop W s pn ws res = .ok out) :
    (∀ p, p ∈ out ↔ p ∈ res ∨ ∃ w ∈ ws, ∃ c n, getScrComponents W s w = .ok c ∧ dget c!"name" c.options = some n ∧
      p = replaceAll c!"${PN}" pn n) ∧
    (∀ w ∈ ws, ∃ c, getScrComponents W s w = .ok c) := by
  induction ws generalizing res with
  | nil => cases h; simp
  | cons w ws ih =>
    rw [namedLoop] at h
    cases hw : getScrComponents W s w with
    | error e => rw [hw] at h; cases h
    | ok c =>
      rw [hw] at h
      simp only at h
      have step : ∀ {res'}, namedLoop W s pn ws res' = .ok out → (∀ p, p ∈ res' ↔ p ∈ res ∨ ∃ n, dget c!"name" c.options = some n ∧
          p = replaceAll c!"${PN}" pn n) → (∀ p, p ∈ out ↔ p ∈ res ∨ ∃ w' ∈ w :: ws, ∃ c n, getScrComponents W s w' = .ok c ∧
          dget c!"name" c.options = some n ∧ p = replaceAll c!"${PN}" pn n) ∧ (∀ w' ∈ w :: ws, ∃ c, getScrComponents W s w' = .ok c) := by
        intro res' h' hres
        obtain ⟨h1, h2⟩ := ih h'
        refine ⟨fun p => ?_, ?_⟩
        · rw [h1, hres]
          constructor
          · rintro ((h | ⟨n, hn, hp⟩) | ⟨w', hw', rest⟩)
            · exact Or.inl h
            · exact Or.inr ⟨w, List.mem_cons_self, c, n, hw, hn, hp⟩
            · exact Or.inr ⟨w', List.mem_cons_of_mem _ hw', rest⟩
          · rintro (h | ⟨w', hw', c', n, hc', hn, hp⟩)
            · exact Or.inl (Or.inl h)
            · rcases List.mem_cons.1 hw' with rfl | hw'
              · rw [hw] at hc'; cases hc'
                exact Or.inl (Or.inr ⟨n, hn, hp⟩)
              · exact Or.inr ⟨w', hw', c', n, hc', hn, hp⟩
        · intro w' hw'
          rcases List.mem_cons.1 hw' with rfl | hw'
          · exact ⟨c, hw⟩
          · exact h2 w' hw'
      cases hn : dget c!"name" c.options with
      | none =>
        rw [hn] at h
        exact step h (fun p => by simp [hn])
      | some n =>
        rw [hn] at h
        exact step h (fun p => by rw [mem_sadd]; simp [hn])

end Oelint

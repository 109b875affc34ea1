import Verif.Model.StashOps
import Verif.Lemmas.Inline
import Verif.Lemmas.Names
import Verif.Spec.Uri
/-! SRC_URI entries. -/
set_option linter.unusedSectionVars false
set_option linter.unusedSimpArgs false
namespace Oelint
variable [Uni]
open Spec

theorem replaceMirrors_iff {ms : List (Str × Str)} (hne : ∀ m ∈ ms, m.1 ≠ []) {s out : Str} :
    Mirrored ms s out ↔ replaceMirrors (ms.map (fun m => (m.1, J.str m.2))) s = .ok out := by
  induction ms generalizing s with
  | nil =>
    constructor
    · intro h; cases h; rfl
    · intro h; cases h; exact .nil
  | cons m ms ih =>
    obtain ⟨k, v⟩ := m
    have hk : k ≠ [] := hne _ List.mem_cons_self
    constructor
    · intro h
      cases h with
      | cons hr hm =>
        have := replaced_eq hk hr
        subst this
        exact (ih (fun m h => hne m (List.mem_cons_of_mem _ h))).1 hm
    · intro h
      exact .cons (replaced_replaceAll hk s) ((ih (fun m h => hne m (List.mem_cons_of_mem _ h))).2 h)

theorem optionField_iff {f k v : Str} :
    OptionField f k v ↔ f.contains '=' = true ∧ (splitC '=' f).headD [] = k ∧ (splitC '=' f).tail.headD [] = v := by
  constructor
  · rintro ⟨hk, hv, rfl | ⟨more, rfl⟩⟩
    · rw [splitC_append_sep _ _ hk, splitC_of_not_mem hv]; simp
    · rw [splitC_append_sep _ _ hk, splitC_append_sep _ _ hv]; simp
  · rintro ⟨hc, rfl, rfl⟩
    have hm : '=' ∈ f := by simpa using hc
    obtain ⟨a, b, rfl, ha⟩ := List.eq_append_cons_of_mem hm
    rw [splitC_append_sep _ _ ha]
    by_cases hb : '=' ∈ b
    · obtain ⟨c, d, rfl, hc'⟩ := List.eq_append_cons_of_mem hb
      rw [splitC_append_sep _ _ hc']
      exact ⟨ha, hc', Or.inr ⟨d, rfl⟩⟩
    · rw [splitC_of_not_mem hb]
      exact ⟨ha, hb, Or.inl rfl⟩

theorem optionField_functional {f k v k' v' : Str} (h : OptionField f k v) (h' : OptionField f k' v') : k = k' ∧ v = v' := by
  obtain ⟨-, rfl, rfl⟩ := optionField_iff.1 h
  obtain ⟨-, rfl, rfl⟩ := optionField_iff.1 h'
  exact ⟨rfl, rfl⟩

/-- one step of the dictionary comprehension -/
def optStep (d : List (Str × Str)) (x : Str) : List (Str × Str) :=
  if x.contains '=' then dset ((splitC '=' x).headD []) ((splitC '=' x).tail.headD []) d else d

theorem parseOptions_eq (fs : List Str) : parseOptions fs = fs.foldl optStep [] := by
  unfold parseOptions
  generalize ([] : List (Str × Str)) = d
  induction fs generalizing d with
  | nil => rfl
  | cons f fs ih =>
    by_cases h : f.contains '=' = true
    · simp only [List.filter_cons, h, if_true, List.foldl_cons, ih, optStep]
    · simp only [List.filter_cons, h, if_false, Bool.false_eq_true, List.foldl_cons, ih, optStep]

theorem dget_optStep {d : List (Str × Str)} {f k v : Str} :
    dget k (optStep d f) = some v ↔ OptionField f k v ∨ ((∀ w, ¬ OptionField f k w) ∧ dget k d = some v) := by
  unfold optStep
  by_cases hc : f.contains '=' = true
  · rw [if_pos hc, dget_dset]
    have hf : OptionField f _ _ := optionField_iff.2 ⟨hc, rfl, rfl⟩
    by_cases hk : k = (splitC '=' f).headD []
    · rw [if_pos hk]
      constructor
      · intro h
        cases h
        subst hk
        exact Or.inl hf
      · rintro (h | ⟨h, -⟩)
        · rw [(optionField_iff.1 h).2.2]
        · subst hk; exact absurd hf (h _)
    · rw [if_neg hk]
      constructor
      · intro h
        exact Or.inr ⟨fun w hw => hk (optionField_functional hw hf).1, h⟩
      · rintro (h | ⟨-, h⟩)
        · exact absurd (optionField_functional h hf).1 hk
        · exact h
  · rw [if_neg hc]
    constructor
    · intro h
      exact Or.inr ⟨fun w hw => hc (optionField_iff.1 hw).1, h⟩
    · rintro (h | ⟨-, h⟩)
      · exact absurd (optionField_iff.1 h).1 hc
      · exact h

theorem dget_foldl_optStep {fs : List Str} {d : List (Str × Str)} {k v : Str} :
    dget k (fs.foldl optStep d) = some v ↔
      LastOption fs k v ∨ ((∀ g ∈ fs, ∀ w, ¬ OptionField g k w) ∧ dget k d = some v) := by
  induction fs generalizing d with
  | nil =>
    constructor
    · intro h; exact Or.inr ⟨by simp, h⟩
    · rintro (⟨pre, f, post, h, -⟩ | ⟨-, h⟩)
      · simp at h
      · exact h
  | cons f fs ih =>
    rw [List.foldl_cons, ih, dget_optStep]
    constructor
    · rintro (⟨pre, g, post, rfl, h1, h2⟩ | ⟨h1, h2 | ⟨h2, h3⟩⟩)
      · exact Or.inl ⟨f :: pre, g, post, rfl, h1, h2⟩
      · exact Or.inl ⟨[], f, fs, rfl, h2, h1⟩
      · refine Or.inr ⟨fun g hg w => ?_, h3⟩
        rcases List.mem_cons.1 hg with rfl | hg
        · exact h2 w
        · exact h1 g hg w
    · rintro (⟨pre, g, post, h, h1, h2⟩ | ⟨h1, h2⟩)
      · cases pre with
        | nil =>
          obtain ⟨rfl, rfl⟩ := List.cons.inj h
          exact Or.inr ⟨h2, Or.inl h1⟩
        | cons x pre =>
          obtain ⟨rfl, rfl⟩ := List.cons.inj h
          exact Or.inl ⟨pre, g, post, rfl, h1, h2⟩
      · exact Or.inr ⟨fun g hg => h1 g (List.mem_cons_of_mem _ hg), Or.inr ⟨h1 f List.mem_cons_self, h2⟩⟩

theorem dget_parseOptions {fs : List Str} {k v : Str} : dget k (parseOptions fs) = some v ↔ LastOption fs k v := by
  rw [parseOptions_eq, dget_foldl_optStep]
  simp [dget]

theorem parseOptions_nodup (fs : List Str) : ((parseOptions fs).map (·.1)).Nodup := by
  rw [parseOptions_eq]
  have : ∀ d : List (Str × Str), (d.map (·.1)).Nodup → ((fs.foldl optStep d).map (·.1)).Nodup := by
    induction fs with
    | nil => exact fun d h => h
    | cons f fs ih =>
      intro d h
      refine ih _ ?_
      unfold optStep
      split
      · exact dset_nodup h
      · exact h
  exact this [] (by simp)

theorem fields_eq {raw url : Str} {fields : List Str} (h : Pieces ';' raw (url :: fields)) :
    (if raw.contains ';' then (splitC ';' raw).tail else []) = fields := by
  have hp := pieces_unique h
  by_cases hc : raw.contains ';' = true
  · rw [if_pos hc, ← hp]; rfl
  · rw [if_neg hc]
    rw [splitC_of_not_mem (by simpa using hc)] at hp
    exact (List.cons.inj hp).2.symm

theorem hostAndPath_eq (host path : Str) :
    (if path.isEmpty then host else host ++ (c!"/" ++ lstripP (· == '/') path)) = hostAndPath host path := by
  unfold hostAndPath lstripP
  cases path with
  | nil => rfl
  | cons c t => rw [if_neg (by simp), if_neg (by simp)]; rfl

theorem getScr_none {W : World} {s : Stash} {string raw : Str} (h : withKnownMirrors s string = .ok raw) (hu : W.urlparse raw = none) :
    getScrComponents W s string = .ok ⟨[], [], []⟩ := by
  unfold getScrComponents
  rw [h]
  simp only [hu]

theorem getScr_some {W : World} {s : Stash} {string raw sc nl path url : Str} {fields : List Str}
    (h : withKnownMirrors s string = .ok raw) (hu : W.urlparse raw = some (sc, nl, path)) (hp : Pieces ';' raw (url :: fields)) :
    getScrComponents W s string = .ok ⟨sc, (hostAndPath nl path).takeWhile (fun c => c != ';'), parseOptions fields⟩ := by
  unfold getScrComponents
  rw [h]
  simp only [hu, fields_eq hp, hostAndPath_eq, splitC_headD]

theorem withKnownMirrors_ok {s : Stash} {ms : List (Str × Str)} {d : KV} (hd : mirrorsKnown s.consts = .ok (.dict d))
    (hm : d.toList = ms.map (fun m => (m.1, J.str m.2))) (hne : ∀ m ∈ ms, m.1 ≠ []) {string raw : Str} :
    withKnownMirrors s string = .ok raw ↔ Mirrored ms string raw := by
  unfold withKnownMirrors
  rw [hd, replaceMirrors_iff hne]
  simp only [hm]

/-- options written as `k=v` -/
theorem lastOption_written {opts : List (Str × Str)} (hk : ∀ o ∈ opts, '=' ∉ o.1 ∧ '=' ∉ o.2) {k v : Str} :
    LastOption (opts.map (fun o => o.1 ++ '=' :: o.2)) k v ↔ LastValue opts k v := by
  have hof : ∀ o ∈ opts, OptionField (o.1 ++ '=' :: o.2) o.1 o.2 := fun o ho => ⟨(hk o ho).1, (hk o ho).2, Or.inl rfl⟩
  constructor
  · rintro ⟨pre, f, post, h, h1, h2⟩
    rw [List.map_eq_append_iff] at h
    obtain ⟨pre', rest, rfl, rfl, h⟩ := h
    rw [List.map_eq_cons_iff] at h
    obtain ⟨o, post', rfl, rfl, rfl⟩ := h
    obtain ⟨rfl, rfl⟩ := optionField_functional (hof o (by simp)) h1
    refine ⟨pre', post', rfl, fun x hx hxk => ?_⟩
    exact h2 _ (List.mem_map.2 ⟨x, hx, rfl⟩) x.2 (hxk ▸ hof x (by simp [hx]))
  · rintro ⟨pre, post, rfl, h⟩
    refine ⟨_, _, _, by rw [List.map_append, List.map_cons], hof (k, v) (by simp), fun g hg w hw => ?_⟩
    obtain ⟨x, hx, rfl⟩ := List.mem_map.1 hg
    exact h x hx (optionField_functional (hof x (by simp [hx])) hw).1

theorem pieces_withOptions {url : Str} {opts : List (Str × Str)} (hu : ';' ∉ url) (hk : ∀ o ∈ opts, ';' ∉ o.1 ∧ ';' ∉ o.2) :
    Pieces ';' (withOptions url opts) (url :: opts.map (fun o => o.1 ++ '=' :: o.2)) := by
  refine ⟨by simp, rfl, fun p hp => ?_⟩
  rcases List.mem_cons.1 hp with rfl | hp
  · exact hu
  · obtain ⟨o, ho, rfl⟩ := List.mem_map.1 hp
    simp [(hk o ho).1, (hk o ho).2]

end Oelint

import Verif.Spec.Depends
import Verif.Lemmas.Layout
import Verif.Lemmas.Context
import Verif.Lemmas.ExpandMeaning
/-! Lemmas for C110. -/
set_option linter.unusedSectionVars false
set_option linter.unusedSimpArgs false
namespace Oelint
variable [Uni]
open Spec

theorem readFile_infix {value : Str} {m : Mt} (h : m ∈ reFinditer reOeUtilsReadFile.re value) :
    ((reOeUtilsReadFile.group m c!"file").getD []) <:+: value := by
  obtain ⟨p, rest, h1, h2⟩ := finditerGo_mem h
  obtain ⟨t, ht, rfl⟩ := matchAt_mem h2
  have hc := ms_capsIn rest _ _ t ⟨List.suffix_rfl, by simp⟩ ht
  cases hg : reOeUtilsReadFile.group (mkMt ⟨p, rest, []⟩ t) c!"file" with
  | none => simp
  | some g =>
    obtain ⟨c, hc1, hc2⟩ := Mt.group_mem hg
    have := hc.2 c hc1
    rw [hc2] at this
    exact this.trans h1.isInfix

theorem dependsWithin_infix {N : Str → Prop} {t v : Str} (h : DependsWithin N v) (ht : t <:+: v) : DependsWithin N t := by
  refine ⟨fun n hn => h.1 n ⟨hn.1.trans ht, hn.2⟩, fun n hn => h.2 n ?_⟩
  obtain ⟨q, q', args, h1, h2, h3⟩ := hn
  exact ⟨q, q', args, h1, h2.trans ht, h3⟩

/-- the sources of the names in `N` agree, and lead to names in `N` -/
structure SameSources (W W' : World) (s s' : Stash) (file : Str) (N : Str → Prop) : Prop where
  base : setsBase s'.consts = setsBase s.consts
  same : ∀ b n q, N n → n ≠ [] → sourceOf W' s' b file n q = sourceOf W s b file n q
  closed : ∀ b n q t, setsBase s.consts = .ok b → N n → n ≠ [] → sourceOf W s b file n q = .ok (.text t) → DependsWithin N t

section
variable {W W' : World} {s s' : Stash} {file : Str} {N : Str → Prop}

theorem SameSources.many (h : SameSources W W' s s' file N) {b : J} (hb : setsBase s.consts = .ok b) {rec rec' : ExpandFn}
    (hr : ∀ t sn, DependsWithin N t → rec' t sn = rec t sn) (spare : List Str) (q : Str) (l : List Mt)
    (hl : ∀ m ∈ l, N ((m.group 1).getD []) ∧ (m.group 1).getD [] ≠ []) (res : Str) (sn : Seen) :
    expandMany W' s' b rec' file spare q l res sn = expandMany W s b rec file spare q l res sn := by
  induction l generalizing res sn with
  | nil => rfl
  | cons m l ih =>
    obtain ⟨hv, hn⟩ := hl m (by simp)
    have h1 : expandOne W' s' b rec' file spare q m res sn = expandOne W s b rec file spare q m res sn := by
      unfold expandOne
      simp only
      split
      · rfl
      · rw [h.same b _ q hv hn]
        cases hs : sourceOf W s b file ((m.group 1).getD []) q with
        | error e => rfl
        | ok x =>
          cases x with
          | keep => rfl
          | lit t => rfl
          | text t => simp only; rw [hr t _ (h.closed b _ q t hb hv hn hs)]
    rw [expandMany, expandMany, h1]
    split
    · rfl
    · exact ih (fun m hm => hl m (by simp [hm])) _ _

theorem readFiles_agree {rec rec' : ExpandFn} (hf : W'.file = W.file) (l : List Mt)
    (hr : ∀ m ∈ l, ∀ sn, rec' ((reOeUtilsReadFile.group m c!"file").getD []) sn = rec ((reOeUtilsReadFile.group m c!"file").getD []) sn) (res : Str) (sn : Seen) :
    readFiles W' rec' l res sn = readFiles W rec l res sn := by
  induction l generalizing res sn with
  | nil => rfl
  | cons m l ih =>
    have ih := ih (fun m hm => hr m (by simp [hm]))
    rw [readFiles, readFiles, hr m (by simp), hf]
    split
    · rfl
    · simp only
      split <;> first | exact ih _ _ | rfl

theorem SameSources.termF (h : SameSources W W' s s' file N) (hf : W'.file = W.file) (n : Nat) (spare : List Str) (t : Str) (sn : Seen)
    (ht : DependsWithin N t) : expandTermF W' s' n file spare t sn = expandTermF W s n file spare t sn := by
  induction n generalizing spare t sn with
  | zero => rfl
  | succ n ih =>
    rw [expandTermF, expandTermF, h.base]
    cases hs : setsBase s.consts with
    | error e => rfl
    | ok b =>
      simp only
      have hv : ∀ m ∈ reFinditer reVariablePattern.re t, N ((m.group 1).getD []) ∧ (m.group 1).getD [] ≠ [] := by
        intro m hm
        obtain ⟨n, -, g1, g2⟩ := mem_finditer_variable hm
        rw [g1]
        exact ⟨ht.1 n g2, g2.2.1⟩
      have hg : ∀ m ∈ reFinditer reVariablePattern2.re t, N ((m.group 1).getD []) ∧ (m.group 1).getD [] ≠ [] := by
        intro m hm
        obtain ⟨n, g1, g2⟩ := mem_finditer_getVar hm
        rw [g1]
        exact ⟨ht.2 n g2, g2.choose_spec.choose_spec.choose_spec.2.2⟩
      rw [h.many hs (fun t sn ht => ih [] t sn ht) spare [] _ hv]
      cases expandMany W s b (fun v sn => expandTermF W s n file [] v sn) file spare [] (reFinditer reVariablePattern.re t) t sn with
      | error e => rfl
      | ok x =>
        simp only
        rw [h.many hs (fun t sn ht => ih [] t sn ht) spare _ _ hg]
        cases expandMany W s b (fun v sn => expandTermF W s n file [] v sn) file spare c!"\"" (reFinditer reVariablePattern2.re t) x.1 x.2 with
        | error e => rfl
        | ok y =>
          simp only
          exact readFiles_agree hf _ (fun m hm sn => ih spare _ sn (dependsWithin_infix ht (readFile_infix hm))) _ _

theorem SameSources.term (h : SameSources W W' s s' file N) (hf : W'.file = W.file) (spare : List Str) (t : Str) (ht : DependsWithin N t) :
    expandTermS W' s' file spare t = expandTermS W s file spare t := by
  rw [← (expandTerm_fuel W s file spare t (max (expandBound s t) (expandBound s' t)) (Nat.le_max_left _ _)).1,
    ← (expandTerm_fuel W' s' file spare t (max (expandBound s t) (expandBound s' t)) (Nat.le_max_right _ _)).1, h.termF hf _ _ _ _ ht]

/-- the source of a name is what it stands for -/
theorem defined_of_source {b : J} {n q t : Str} (hb : setsBase s.consts = .ok b) (hn : n ≠ []) (h : sourceOf W s b file n q = .ok (.text t)) :
    Defined W s file n t := by
  unfold sourceOf at h
  cases hl : assignments W s file n with
  | cons p rest =>
    obtain ⟨x, v⟩ := p
    rw [hl] at h
    cases h
    have hmem := hl
    unfold assignments at hl
    obtain ⟨pre, y, post, h1, h2, h3, -⟩ := List.filterMap_eq_cons_iff.1 hl
    have h4 : y = x ∧ x.payload = .variable v := by
      unfold asAssignment at h3
      split at h3
      · rename_i hp
        split at h3
        · cases h3; exact ⟨rfl, hp⟩
        · cases h3
      · cases h3
    obtain ⟨rfl, hp⟩ := h4
    refine .assigned (x := y) (v := v) ⟨pre, post, h1, ?_, ?_⟩ hp
    · exact ((mem_assignments (W := W) hn).1 (show (y, v) ∈ assignments W s file n by rw [hmem]; simp)).2
    · intro z hz hA
      obtain ⟨v', hp', -, ha'⟩ := hA.2.2
      have := h2 z hz
      simp [asAssignment, hp', ha'] at this
  | nil =>
    rw [hl] at h
    simp only at h
    split at h
    · split at h
      · split at h
        · rename_i ht
          cases h
          exact .base ((assignments_nil hn).1 hl) hb ht
        · cases h
      · cases h
    · repeat' split at h
      all_goals cases h

/-- the first of the same statements -/
theorem source_same {b : J} {n q : Str} (h : List.Forall₂ Same (getItemsFor W s (varFilter file n)) (getItemsFor W' s' (varFilter file n))) :
    sourceOf W' s' b file n q = sourceOf W s b file n q := by
  unfold sourceOf assignments
  have := same_assignments h
  revert this
  generalize (getItemsFor W s (varFilter file n)).filterMap asAssignment = k
  generalize (getItemsFor W' s' (varFilter file n)).filterMap asAssignment = k'
  intro this
  cases this with
  | nil => rfl
  | @cons a b _ _ hab _ =>
    obtain ⟨x, v⟩ := a
    obtain ⟨y, w⟩ := b
    simp only at hab
    obtain ⟨h1, rfl⟩ := hab
    simp only [assignment_same h1]

theorem linedNames_get {l : List Item} (h : LinedNames N s l) (W : World) {file n : Str} (hN : N n) (hn : n ≠ []) :
    getItemsFor W s (varFilter file n) = l.filter (keeps s (varFilter file n)) := by
  refine rising_unique (h.rising.filter _) (reduceL_sorted W s s.items _) (reduceL_nodup W s s.items _) fun x => ?_
  rw [List.mem_filter, h.all, keeps_iff]
  refine (mem_getItemsFor W s _ x).trans ⟨fun ⟨h1, h2⟩ => ⟨⟨h1, ?_⟩, h2⟩, fun ⟨⟨h1, _⟩, h2⟩ => ⟨h1, h2⟩⟩
  have hc := h2.classifier (by simp [varFilter, given])
  simp only [varFilter, given, List.cons_ne_nil, if_false, List.mem_singleton, reduceCtorEq] at hc
  cases hp : x.payload with
  | «variable» v =>
    refine ⟨v, hp, ?_⟩
    obtain ⟨nm, h1, a, h2, h3⟩ := h2.attr (by simp [varFilter, given])
    simp only [varFilter, given, List.cons_ne_nil, if_false, List.mem_singleton, reduceCtorEq] at h1 h3
    subst h1
    rw [if_neg hn] at h3
    rw [dget_varName hp] at h2
    cases h2
    have : v.varName = n := by simpa using h3
    rw [this]; exact hN
  | _ => rw [hp] at hc; simp [Payload.classifier] at hc

end

end Oelint

import Verif.Model.ExpandTerm
import Verif.Lemmas.Regex
import Verif.Lemmas.Queries
import Verif.Lemmas.ParserErr
/-! `ExpandTerm`: the recursion ends (C49). -/
set_option linter.unusedSectionVars false
set_option linter.unusedSimpArgs false
namespace Oelint
variable [Uni]
open Spec

/-- the known names that are not in `seen` -/
def unseen (s : Stash) (seen : Seen) : Nat := ((knownNames s).filter (fun n => !dhas n seen)).length

/-- the length of the longest text -/
def longest (s : Stash) : Nat := ((knownTexts s).map List.length).foldl max 0

/-- a recursion depth that is enough -/
def expandNeed (s : Stash) (value : Str) (seen : Seen) : Nat := unseen s seen * (longest s + 1) + value.length + 1

theorem foldl_max_nat (l : List Nat) (a : Nat) : a ≤ l.foldl max a ∧ ∀ x ∈ l, x ≤ l.foldl max a := by
  induction l generalizing a with
  | nil => simp
  | cons y ys ih =>
    obtain ⟨h1, h2⟩ := ih (max a y)
    simp only [List.foldl_cons]
    refine ⟨by omega, fun x hx => ?_⟩
    rcases List.mem_cons.1 hx with rfl | hx
    · omega
    · exact h2 x hx

theorem longest_ge {s : Stash} {t : Str} (h : t ∈ knownTexts s) : t.length ≤ longest s :=
  (foldl_max_nat _ 0).2 _ (List.mem_map.2 ⟨t, h, rfl⟩)

theorem expandNeed_le_bound (s : Stash) (value : Str) (seen : Seen) : expandNeed s value seen ≤ expandBound s value := by
  have h : unseen s seen ≤ (knownNames s).length := List.length_filter_le _ _
  have hl : ((knownTexts s).map List.length).foldl max 0 = longest s := rfl
  unfold expandNeed expandBound
  rw [hl]
  have h1 : unseen s seen * (longest s + 1) ≤ (knownNames s).length * (value.length + longest s + 2) :=
    Nat.mul_le_mul h (by omega)
  have h2 : ((knownNames s).length + 1) * (value.length + longest s + 2) =
    (knownNames s).length * (value.length + longest s + 2) + (value.length + longest s + 2) := Nat.succ_mul _ _
  omega

/-- every key stays -/
def SeenLe (a b : Seen) : Prop := ∀ k, dhas k a = true → dhas k b = true

theorem SeenLe.refl (a : Seen) : SeenLe a a := fun _ h => h
theorem SeenLe.trans {a b c : Seen} (h1 : SeenLe a b) (h2 : SeenLe b c) : SeenLe a c := fun k h => h2 k (h1 k h)

theorem seenLe_dset (k v : Str) (a : Seen) : SeenLe a (dset k v a) := by
  intro j hj
  unfold dhas at hj ⊢
  rw [dget_dset]; split <;> simp_all

theorem unseen_mono {s : Stash} {a b : Seen} (h : SeenLe a b) : unseen s b ≤ unseen s a := by
  unfold unseen
  generalize knownNames s = l
  induction l with
  | nil => simp
  | cons x xs ih =>
    simp only [List.filter_cons]
    cases ha : dhas x a with
    | true => rw [h x ha]; simpa using ih
    | false =>
      cases hb : dhas x b
      · simp; simpa using ih
      · simp only [Bool.not_true, Bool.false_eq_true, if_false, Bool.not_false, if_true, List.length_cons]; omega

theorem unseen_dset {s : Stash} {k v : Str} {a : Seen} (hk : k ∈ knownNames s) (hn : dget k a = none) :
    unseen s (dset k v a) < unseen s a := by
  have hle : ∀ l : List Str, (l.filter (fun n => !dhas n (dset k v a))).length ≤ (l.filter (fun n => !dhas n a)).length := by
    intro l
    induction l with
    | nil => simp
    | cons x xs ih =>
      simp only [List.filter_cons]
      cases ha : dhas x a with
      | true => rw [seenLe_dset k v a x ha]; simpa using ih
      | false =>
        cases hb : dhas x (dset k v a)
        · simp; simpa using ih
        · simp only [Bool.not_true, Bool.false_eq_true, if_false, Bool.not_false, if_true, List.length_cons]; omega
  unfold unseen
  generalize knownNames s = l at hk
  induction l with
  | nil => cases hk
  | cons x xs ih =>
    simp only [List.filter_cons]
    by_cases hx : x = k
    · subst hx
      have h1 : dhas x a = false := by unfold dhas; rw [hn]; rfl
      have h2 : dhas x (dset x v a) = true := by unfold dhas; rw [dget_dset_same]; rfl
      rw [h1, h2]
      have := hle xs
      simp only [Bool.not_true, Bool.false_eq_true, if_false, Bool.not_false, if_true, List.length_cons]; omega
    · have := ih (by simpa [Ne.symm hx] using hk)
      have h1 : dhas x (dset k v a) = dhas x a := by unfold dhas; rw [dget_dset_ne _ _ hx]
      rw [h1]
      cases dhas x a <;> simp <;> omega

theorem KV.get_keys {d : KV} {k : Str} {j : J} (h : d.get k = some j) : k ∈ d.keys ∧ (k, j) ∈ d.toList := by
  cases d with
  | nil => cases h
  | cons k' v r =>
    rw [KV.get] at h
    split at h
    · rename_i he
      simp only [beq_iff_eq] at he
      cases h; subst he
      simp [KV.keys, KV.toList]
    · obtain ⟨h1, h2⟩ := KV.get_keys h
      simp [KV.keys, KV.toList, h1, h2]

theorem dget_varName {x : Item} {v : VarData} (h : x.payload = .variable v) :
    dget c!"VarName" x.getAttributes = some (.str v.varName) := by
  simp [Item.getAttributes, baseAttributes, ownAttributes, h, dget]

/-- where the text for a name comes from -/
theorem sourceOf_text {W : World} {s : Stash} {b : J} {file name quote t : Str} (hb : setsBase s.consts = .ok b)
    (h : sourceOf W s b file name quote = .ok (.text t)) : name ∈ knownNames s ∧ t ∈ knownTexts s := by
  unfold sourceOf at h
  split at h
  · rename_i x v rest ha
    cases h
    have hm : (x, v) ∈ assignments W s file name := by rw [ha]; simp
    unfold assignments at hm
    obtain ⟨y, hy, hyv⟩ := List.mem_filterMap.1 hm
    obtain ⟨hys, hsel⟩ := (mem_getItemsFor W s _ y).1 hy
    unfold asAssignment at hyv
    split at hyv
    · rename_i v' hp
      split at hyv
      · cases hyv
        constructor
        · by_cases hn : name = []
          · subst hn; simp [knownNames]
          · obtain ⟨nm, h1, a, h2, h3⟩ := hsel.attr (by simp [varFilter, given])
            simp only [varFilter, given, List.cons_ne_nil, if_false, List.mem_singleton, reduceCtorEq] at h1 h3
            subst h1
            rw [if_neg hn] at h3
            rw [dget_varName hp] at h2
            cases h2
            have : v.varName = name := by simpa using h3
            subst this
            refine List.mem_cons_of_mem _ (List.mem_append_left _ (List.mem_filterMap.2 ⟨x, hys, ?_⟩))
            simp only [hp]
        · exact List.mem_append_left _ (List.mem_filterMap.2 ⟨x, hys, by simp only [hp]⟩)
      · cases hyv
    · cases hyv
  · split at h
    · split at h
      · rename_i d
        split at h
        · rename_i u hu
          cases h
          obtain ⟨h1, h2⟩ := KV.get_keys hu
          constructor
          · refine List.mem_cons_of_mem _ (List.mem_append_right _ ?_)
            rw [hb]; exact h1
          · refine List.mem_append_right _ ?_
            rw [hb]
            exact List.mem_filterMap.2 ⟨_, h2, rfl⟩
        · cases h
      · cases h
    · repeat' (split at h)
      all_goals cases h

/-- two ways to expand agree, do not run into the recursion limit and never forget a name -/
def Settled (r r' : Except PyErr (Str × Seen)) (seen : Seen) : Prop :=
  r = r' ∧ r ≠ .error .recursionError ∧ ∀ t sn, r = .ok (t, sn) → SeenLe seen sn

theorem Settled.mono {r r' : Except PyErr (Str × Seen)} {a b : Seen} (h : Settled r r' b) (hab : SeenLe a b) : Settled r r' a :=
  ⟨h.1, h.2.1, fun t sn he => hab.trans (h.2.2 t sn he)⟩

abbrev ExpandFn := Str → Seen → Except PyErr (Str × Seen)

theorem expandOne_settled {W : World} {s : Stash} {b : J} (hb : setsBase s.consts = .ok b) {u : Nat} {rec rec' : ExpandFn}
    (hrec : ∀ t sn, t ∈ knownTexts s → unseen s sn < u → Settled (rec t sn) (rec' t sn) sn)
    (file : Str) (spare : List Str) (q : Str) (m : Mt) (res : Str) (seen : Seen) (hu : unseen s seen ≤ u) :
    Settled (expandOne W s b rec file spare q m res seen) (expandOne W s b rec' file spare q m res seen) seen := by
  have hok : ∀ r : Str, Settled (.ok (r, seen)) (.ok (r, seen)) seen :=
    fun r => ⟨rfl, by simp, fun t sn he => by cases he; exact SeenLe.refl _⟩
  unfold expandOne
  simp only
  split
  · exact hok _
  · cases hs : sourceOf W s b file ((m.group 1).getD []) q with
    | error e =>
      have := sourceOf_error hs
      subst this
      exact ⟨rfl, by simp, fun t sn he => by cases he⟩
    | ok src =>
      cases src with
      | keep => exact hok _
      | lit t => exact hok _
      | text t =>
        obtain ⟨h1, h2⟩ := sourceOf_text hb hs
        simp only
        cases hg : dget ((m.group 1).getD []) seen with
        | some r => exact hok _
        | none =>
          simp only
          have hlt : unseen s (dset ((m.group 1).getD []) [] seen) < u := by
            have := unseen_dset (v := []) h1 hg; omega
          obtain ⟨h3, h4, h5⟩ := hrec t _ h2 hlt
          rw [← h3]
          cases hr : rec t (dset ((m.group 1).getD []) [] seen) with
          | error e => exact ⟨rfl, by simp only [ne_eq]; rw [hr] at h4; simpa using h4, fun t sn he => by cases he⟩
          | ok p =>
            obtain ⟨r, sn⟩ := p
            refine ⟨rfl, by simp, fun t' sn' he => ?_⟩
            cases he
            exact (seenLe_dset _ _ _).trans ((h5 _ _ hr).trans (seenLe_dset _ _ _))

theorem expandMany_settled {W : World} {s : Stash} {b : J} (hb : setsBase s.consts = .ok b) {u : Nat} {rec rec' : ExpandFn}
    (hrec : ∀ t sn, t ∈ knownTexts s → unseen s sn < u → Settled (rec t sn) (rec' t sn) sn)
    (file : Str) (spare : List Str) (q : Str) (l : List Mt) (res : Str) (seen : Seen) (hu : unseen s seen ≤ u) :
    Settled (expandMany W s b rec file spare q l res seen) (expandMany W s b rec' file spare q l res seen) seen := by
  induction l generalizing res seen with
  | nil => exact ⟨rfl, by simp [expandMany], fun t sn he => by cases he; exact SeenLe.refl _⟩
  | cons m ms ih =>
    obtain ⟨h1, h2, h3⟩ := expandOne_settled hb hrec (W := W) file spare q m res seen hu
    unfold expandMany
    rw [← h1]
    cases hr : expandOne W s b rec file spare q m res seen with
    | error e => exact ⟨rfl, by simp only [ne_eq]; rw [hr] at h2; simpa using h2, fun t sn he => by cases he⟩
    | ok p =>
      obtain ⟨r, sn⟩ := p
      have h4 := h3 _ _ hr
      exact (ih r sn (Nat.le_trans (unseen_mono h4) hu)).mono h4

theorem readFiles_settled {W : World} {s : Stash} {u n : Nat} {rec rec' : ExpandFn}
    (hrec : ∀ t sn, t.length < n → unseen s sn ≤ u → Settled (rec t sn) (rec' t sn) sn)
    (l : List Mt) (hl : ∀ m ∈ l, ((reOeUtilsReadFile.group m c!"file").getD []).length < n) (res : Str) (seen : Seen)
    (hu : unseen s seen ≤ u) :
    Settled (readFiles W rec l res seen) (readFiles W rec' l res seen) seen := by
  induction l generalizing res seen with
  | nil => exact ⟨rfl, by simp [readFiles], fun t sn he => by cases he; exact SeenLe.refl _⟩
  | cons m ms ih =>
    obtain ⟨h1, h2, h3⟩ := hrec _ seen (hl m (by simp)) hu
    unfold readFiles
    rw [← h1]
    cases hr : rec ((reOeUtilsReadFile.group m c!"file").getD []) seen with
    | error e => exact ⟨rfl, by simp only [ne_eq]; rw [hr] at h2; simpa using h2, fun t sn he => by cases he⟩
    | ok p =>
      obtain ⟨r, sn⟩ := p
      have h4 := h3 _ _ hr
      have h5 : SeenLe seen (if seen.isEmpty then seen else sn) := by split; exact SeenLe.refl _; exact h4
      have h6 := fun res => (ih (fun m hm => hl m (by simp [hm])) res _ (Nat.le_trans (unseen_mono h5) hu)).mono h5
      simp only
      split
      · exact h6 _
      · exact h6 _
      · exact h6 _
      · exact ⟨rfl, by simp, fun t sn he => by cases he⟩

theorem finditerGo_mem {r : Re} {pos k : Nat} {s : Str} {m : Mt} (h : m ∈ finditerGo r pos k s) :
    ∃ p rest, rest <:+ s ∧ matchAt r p rest = some m := by
  induction s generalizing pos k with
  | nil => cases k <;> simp [finditerGo] at h
  | cons c t ih =>
    cases k with
    | succ k =>
      rw [finditerGo] at h
      obtain ⟨p, rest, h1, h2⟩ := ih h
      exact ⟨p, rest, h1.trans (List.suffix_cons _ _), h2⟩
    | zero =>
      rw [finditerGo] at h
      split at h
      · rename_i m' hm
        rcases List.mem_cons.1 h with rfl | h
        · exact ⟨pos, _, List.suffix_rfl, hm⟩
        · obtain ⟨p, rest, h1, h2⟩ := ih h
          exact ⟨p, rest, h1.trans (List.suffix_cons _ _), h2⟩
      · obtain ⟨p, rest, h1, h2⟩ := ih h
        exact ⟨p, rest, h1.trans (List.suffix_cons _ _), h2⟩

theorem matchAt_mem {r : Re} {pos : Nat} {rest : Str} {m : Mt} (h : matchAt r pos rest = some m) :
    ∃ t ∈ ms r ⟨pos, rest, []⟩, m = mkMt ⟨pos, rest, []⟩ t := by
  unfold matchAt at h
  split at h
  · cases h
  · rename_i t ts ht
    cases h
    exact ⟨t, by rw [ht]; simp, rfl⟩

/-- the file name in a call of `read_file` is shorter than the text -/
theorem readFile_shorter {value : Str} {m : Mt} (h : m ∈ reFinditer reOeUtilsReadFile.re value) :
    ((reOeUtilsReadFile.group m c!"file").getD []).length < value.length := by
  obtain ⟨p, rest, h1, h2⟩ := finditerGo_mem h
  obtain ⟨t, ht, rfl⟩ := matchAt_mem h2
  unfold reOeUtilsReadFile at ht
  simp only at ht
  rw [ms] at ht
  obtain ⟨u, hu, ht⟩ := List.mem_flatMap.1 ht
  simp only [ms] at hu
  split at hu
  · rename_i hp
    simp only [List.mem_singleton] at hu
    subst hu
    have hlen : 2 ≤ rest.length := by
      have := (List.isPrefixOf_iff_prefix.1 hp).length_le
      simpa using this
    have hc := ms_capsIn (rest.drop 2) _ _ t ⟨List.suffix_rfl, by simp⟩ ht
    cases hg : reOeUtilsReadFile.group (mkMt ⟨p, rest, []⟩ t) c!"file" with
    | none => simp only [Option.getD_none, List.length_nil]; have := h1.length_le; omega
    | some g =>
      obtain ⟨c, hc1, hc2⟩ := Mt.group_mem hg
      have := (hc.2 c hc1).length_le
      rw [hc2, List.length_drop] at this
      have := h1.length_le
      simp only [Option.getD_some]; omega
  · simp at hu

theorem expandTermF_settled (W : World) (s : Stash) (n n' : Nat) (file : Str) (spare : List Str) (value : Str) (seen : Seen)
    (h : expandNeed s value seen ≤ n) (h' : expandNeed s value seen ≤ n') :
    Settled (expandTermF W s n file spare value seen) (expandTermF W s n' file spare value seen) seen := by
  induction n generalizing n' file spare value seen with
  | zero => unfold expandNeed at h; omega
  | succ n ih =>
    cases n' with
    | zero => unfold expandNeed at h'; omega
    | succ n' =>
      unfold expandTermF
      cases hb : setsBase s.consts with
      | error e =>
        have : e = .attributeError := getKeys_error hb
        subst this
        exact ⟨rfl, by simp, fun t sn he => by cases he⟩
      | ok b =>
        simp only
        have hrec : ∀ sp t sn, t ∈ knownTexts s → unseen s sn < unseen s seen →
            Settled (expandTermF W s n file sp t sn) (expandTermF W s n' file sp t sn) sn := by
          intro sp t sn ht hu
          have h1 : expandNeed s t sn < expandNeed s value seen := by
            unfold expandNeed
            have h2 := longest_ge ht
            have h3 : (unseen s sn + 1) * (longest s + 1) ≤ unseen s seen * (longest s + 1) := Nat.mul_le_mul_right _ hu
            rw [Nat.succ_mul] at h3
            omega
          exact ih n' _ _ _ _ (by omega) (by omega)
        have hrecS : ∀ sp t sn, t.length < value.length → unseen s sn ≤ unseen s seen →
            Settled (expandTermF W s n file sp t sn) (expandTermF W s n' file sp t sn) sn := by
          intro sp t sn ht hu
          have h1 : expandNeed s t sn < expandNeed s value seen := by
            unfold expandNeed
            have h3 : unseen s sn * (longest s + 1) ≤ unseen s seen * (longest s + 1) := Nat.mul_le_mul_right _ hu
            omega
          exact ih n' _ _ _ _ (by omega) (by omega)
        have hm := fun q l res sn hu => expandMany_settled hb (u := unseen s seen) (hrec []) (W := W) file spare q l res sn hu
        obtain ⟨h1, h2, h3⟩ := hm [] (reFinditer reVariablePattern.re value) value seen (Nat.le_refl _)
        rw [← h1]
        cases hr : expandMany W s b (fun v sn => expandTermF W s n file [] v sn) file spare [] (reFinditer reVariablePattern.re value)
            value seen with
        | error e => exact ⟨rfl, by simp only [ne_eq]; rw [hr] at h2; simpa using h2, fun t sn he => by cases he⟩
        | ok p =>
          obtain ⟨r, sn⟩ := p
          have h4 := h3 _ _ hr
          obtain ⟨g1, g2, g3⟩ := hm c!"\"" (reFinditer reVariablePattern2.re value) r sn (unseen_mono h4)
          simp only
          rw [← g1]
          cases hr2 : expandMany W s b (fun v sn => expandTermF W s n file [] v sn) file spare c!"\""
              (reFinditer reVariablePattern2.re value) r sn with
          | error e => exact ⟨rfl, by simp only [ne_eq]; rw [hr2] at g2; simpa using g2, fun t sn he => by cases he⟩
          | ok p2 =>
            obtain ⟨r2, sn2⟩ := p2
            have g4 := h4.trans (g3 _ _ hr2)
            simp only
            exact (readFiles_settled (s := s) (u := unseen s seen) (n := value.length) (hrecS spare) _
              (fun m hm => readFile_shorter hm) r2 sn2 (unseen_mono g4)).mono g4

/-- the recursion limit of the model is never reached -/
theorem expandTerm_fuel (W : World) (s : Stash) (file : Str) (spare : List Str) (value : Str) (n : Nat)
    (h : expandBound s value ≤ n) :
    (expandTermF W s n file spare value []).map (·.1) = expandTermS W s file spare value ∧
    expandTermS W s file spare value ≠ .error .recursionError := by
  obtain ⟨h1, h2, _⟩ := expandTermF_settled W s n (expandBound s value) file spare value []
    (Nat.le_trans (expandNeed_le_bound _ _ _) h) (expandNeed_le_bound _ _ _)
  constructor
  · rw [h1]; rfl
  · unfold expandTermS
    rw [← h1]
    cases hx : expandTermF W s n file spare value [] with
    | ok p => simp [Except.map]
    | error e => rw [hx] at h2; simpa [Except.map] using h2

end Oelint

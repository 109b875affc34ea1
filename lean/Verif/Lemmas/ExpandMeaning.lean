import Verif.Lemmas.ExpandSegs
/-! `ExpandTerm` computes the full expansion (C51). -/
set_option linter.unusedSectionVars false
set_option linter.unusedSimpArgs false
namespace Oelint
variable [Uni]
open Spec

/-- the entries of `seen`: the meaning of the name, or the name is being expanded -/
def SeenInv (W : World) (s : Stash) (file : Str) (h : Nat) (seen : Seen) : Prop :=
  ∀ n r, dget n seen = some r → Name n → (∃ k, Means W s file k n r) ∨ ¬ ∃ r', Means W s file h n r'

/-- new entries are meanings -/
def SeenStep (W : World) (s : Stash) (file : Str) (a b : Seen) : Prop :=
  ∀ n r, dget n b = some r → dget n a = some r ∨ ∃ k, Means W s file k n r

theorem SeenStep.refl {W : World} {s : Stash} {file : Str} (a : Seen) : SeenStep W s file a a := fun _ _ h => Or.inl h

theorem SeenStep.trans {W : World} {s : Stash} {file : Str} {a b c : Seen} (h1 : SeenStep W s file a b)
    (h2 : SeenStep W s file b c) : SeenStep W s file a c := by
  intro n r h
  rcases h2 n r h with h | h
  · exact h1 n r h
  · exact Or.inr h

theorem SeenInv.step {W : World} {s : Stash} {file : Str} {h : Nat} {a b : Seen} (hi : SeenInv W s file h a)
    (hs : SeenStep W s file a b) : SeenInv W s file h b := by
  intro n r hg hn
  rcases hs n r hg with hg | hg
  · exact hi n r hg hn
  · exact Or.inl hg

/-- the expansion ends with `o` (or at the recursion limit) -/
def Out (W : World) (s : Stash) (file : Str) (x : Except PyErr (Str × Seen)) (o : Str) (seen : Seen) : Prop :=
  x = .error .recursionError ∨ ∃ seen', x = .ok (o, seen') ∧ SeenStep W s file seen seen'

theorem subOne_self (n : Str) (l : List Seg) : l.flatMap (subOne n [.ref n]) = l := by
  induction l with
  | nil => rfl
  | cons x l ih =>
    rw [List.flatMap_cons, ih]
    cases x with
    | text t => rfl
    | ref m => by_cases h : m = n <;> simp [subOne, h]

theorem subOne_not_mem {a : Str} {new l : List Seg} (h : a ∉ refsS l) : l.flatMap (subOne a new) = l := by
  induction l with
  | nil => rfl
  | cons x l ih =>
    cases x with
    | text t => rw [List.flatMap_cons, ih (by simpa [refsS] using h)]; rfl
    | ref m =>
      have h1 : a ≠ m ∧ a ∉ refsS l := by simpa [refsS] using h
      rw [List.flatMap_cons, ih h1.2, subOne, if_neg (Ne.symm h1.1)]; rfl

theorem exists_least (P : Nat → Prop) (h : Nat) (hp : P h) : ∃ k, P k ∧ ∀ j, j < k → ¬ P j := by
  induction h using Nat.strongRecOn with
  | ind h ih =>
    by_cases he : ∃ j, j < h ∧ P j
    · obtain ⟨j, h1, h2⟩ := he
      exact ih j h1 h2
    · exact ⟨h, hp, fun j h1 h2 => he ⟨j, h1, h2⟩⟩

theorem expandOne_out {W : World} {s : Stash} {b : J} (hb : setsBase s.consts = .ok b) {rec : ExpandFn} {file : Str}
    (hrec : ∀ h t l o sn, (∀ x ∈ l, x.Plain) → renderS l = t → Pieces (Means W s file h) l o → NoCalls t →
      SeenInv W s file h sn → Out W s file (rec t sn) o sn)
    {h : Nat} {spare : List Str} {m : Mt} {n r : Str} (hn : Name n) (hm : MeansS W s file spare h n r) (ht : m.text = refText n)
    (hg : m.group 1 = some n) {sg X : List Seg} (hsg : renderS sg = r) (hk : (n ∈ spare ∨ Unknown s file n) → sg = [.ref n])
    (hX : ∀ x ∈ X, x.Plain) {seen : Seen} (hi : SeenInv W s file h seen) :
    Out W s file (expandOne W s b rec file spare [] m (renderS X) seen) (renderS (X.flatMap (subOne n sg))) seen := by
  have hkeep : (n ∈ spare ∨ Unknown s file n) → renderS (X.flatMap (subOne n sg)) = renderS X := by
    intro h; rw [hk h, subOne_self]
  have hrep : ∀ r', r' = r → replaceAll m.text r' (renderS X) = renderS (X.flatMap (subOne n sg)) := by
    intro r' hr'
    rw [hr', ht, ← hsg, replaceAll_render hn sg X hX]
  unfold expandOne
  rw [hg]
  simp only [Option.getD_some]
  split
  · rename_i hs
    rw [hkeep (Or.inl (List.contains_iff_mem.1 hs))]
    exact Or.inr ⟨seen, rfl, SeenStep.refl _⟩
  · rename_i hs
    rcases hm with ⟨hm, -⟩ | ⟨-, hm⟩
    · exact absurd (List.contains_iff_mem.2 hm) hs
    -- the least height of the name
    obtain ⟨k, hk1, hk2⟩ := exists_least (fun k => Means W s file k n r) h hm
    have hkh : k ≤ h := by
      rcases Nat.lt_or_ge h k with hlt | hge
      · exact absurd hm (hk2 h hlt)
      · exact hge
    have hcase : (Unknown s file n) ∨ (Undefined s file n ∧ FromFileName file n r) ∨
        ∃ j t l, k = j + 1 ∧ Defined W s file n t ∧ NoCalls t ∧ (∀ x ∈ l, x.Plain) ∧ renderS l = t ∧
          Pieces (Means W s file j) l r := by
      cases k with
      | zero =>
        rcases hk1 with ⟨h1, -⟩ | ⟨h1, h2, -⟩
        · exact Or.inl h1
        · exact Or.inr (Or.inl ⟨h1, h2⟩)
      | succ j =>
        rcases hk1 with ⟨h1, -⟩ | ⟨h1, h2, -⟩ | ⟨t, l, h1, h2, h3, h4, h5⟩
        · exact Or.inl h1
        · exact Or.inr (Or.inl ⟨h1, h2⟩)
        · exact Or.inr (Or.inr ⟨j, t, l, rfl, h1, h2, h3, h4, h5⟩)
    rcases hcase with hu | ⟨hu, hf⟩ | ⟨j, t, l, rfl, h1, h2, h3, h4, h5⟩
    · rw [sourceOf_unknown hb hn.ne hu, hkeep (Or.inr hu)]
      exact Or.inr ⟨seen, rfl, SeenStep.refl _⟩
    · rw [sourceOf_name hb hn.ne hu hf]
      exact Or.inr ⟨seen, by simp only; rw [hrep r rfl], SeenStep.refl _⟩
    · rw [sourceOf_defined hb hn.ne h1]
      simp only
      cases hd : dget n seen with
      | some r' =>
        simp only
        rcases hi n r' hd hn with ⟨k', hk'⟩ | hno
        · rw [hrep r' (means_unique hb hn.ne hk' hm)]
          exact Or.inr ⟨seen, rfl, SeenStep.refl _⟩
        · exact absurd ⟨r, hm⟩ hno
      | none =>
        simp only
        have hinv : SeenInv W s file j (dset n [] seen) := by
          intro n' r' hg' hn'
          rw [dget_dset] at hg'
          split at hg'
          · rename_i he
            subst he
            refine Or.inr ?_
            rintro ⟨r'', hr''⟩
            have : r'' = r := means_unique hb hn.ne hr'' hm
            subst this
            exact hk2 j (Nat.lt_succ_self _) hr''
          · rcases hi n' r' hg' hn' with h | h
            · exact Or.inl h
            · refine Or.inr ?_
              rintro ⟨r'', hr''⟩
              exact h ⟨r'', means_le (by omega) hr''⟩
        rcases hrec j t l r _ h3 h4 h5 h2 hinv with he | ⟨sn, he, hst⟩
        · rw [he]; exact Or.inl rfl
        · rw [he]
          refine Or.inr ⟨dset n r sn, by simp only; rw [hrep r rfl], ?_⟩
          intro n' r' hg'
          rw [dget_dset] at hg'
          split at hg'
          · rename_i hne
            cases hg'; subst hne
            exact Or.inr ⟨h, hm⟩
          · rename_i hne
            rcases hst n' r' hg' with hg'' | hg''
            · rw [dget_dset, if_neg hne] at hg''
              exact Or.inl hg''
            · exact Or.inr hg''

/-- the pieces after the references in `done` have been replaced -/
def subMany (σ : Str → List Seg) (done : List Str) : Seg → List Seg
  | .text t => [.text t]
  | .ref n => if n ∈ done then σ n else [.ref n]

theorem subMany_cons {σ : Str → List Seg} {done : List Str} {a : Str} (l : List Seg)
    (h : ∀ n ∈ done, a ∈ refsS (σ n) → σ a = [.ref a]) :
    (l.flatMap (subMany σ done)).flatMap (subOne a (σ a)) = l.flatMap (subMany σ (a :: done)) := by
  rw [List.flatMap_assoc]
  congr 1
  funext x
  cases x with
  | text t => rfl
  | ref n =>
    simp only [subMany, List.mem_cons]
    by_cases hd : n ∈ done
    · rw [if_pos hd, if_pos (Or.inr hd)]
      by_cases ha : a ∈ refsS (σ n)
      · rw [h n hd ha, subOne_self]
      · rw [subOne_not_mem ha]
    · rw [if_neg hd]
      by_cases ha : n = a
      · subst ha; simp [subOne]
      · simp [subOne, ha, hd]

theorem expandMany_out {W : World} {s : Stash} {b : J} (hb : setsBase s.consts = .ok b) {rec : ExpandFn} {file : Str}
    (hrec : ∀ h t l o sn, (∀ x ∈ l, x.Plain) → renderS l = t → Pieces (Means W s file h) l o → NoCalls t →
      SeenInv W s file h sn → Out W s file (rec t sn) o sn)
    {h : Nat} {spare : List Str} {σ : Str → List Seg} {l0 : List Seg} (hl0 : ∀ x ∈ l0, x.Plain)
    (h1 : ∀ n, n ∈ refsS l0 → Name n ∧ MeansS W s file spare h n (renderS (σ n)) ∧ (∀ x ∈ σ n, x.Plain) ∧
      (∀ a ∈ refsS (σ n), a ∈ spare ∨ Unknown s file a))
    (h2 : ∀ n, (n ∈ spare ∨ Unknown s file n) → σ n = [.ref n])
    (l : List Mt) (names : List Str) (hl : l.map (fun m => (m.text, m.group 1)) = names.map (fun n => (refText n, some n)))
    (hnames : ∀ n ∈ names, n ∈ refsS l0) (done : List Str) (hdone : ∀ n ∈ done, n ∈ refsS l0)
    {seen : Seen} (hi : SeenInv W s file h seen) :
    Out W s file (expandMany W s b rec file spare [] l (renderS (l0.flatMap (subMany σ done))) seen)
      (renderS (l0.flatMap (subMany σ (names.reverse ++ done)))) seen := by
  induction l generalizing names done seen with
  | nil =>
    cases names with
    | nil => exact Or.inr ⟨seen, rfl, SeenStep.refl _⟩
    | cons n names => cases hl
  | cons m l ih =>
    cases names with
    | nil => cases hl
    | cons n names =>
      simp only [List.map_cons, List.cons.injEq, Prod.mk.injEq] at hl
      obtain ⟨⟨ht, hg⟩, hl⟩ := hl
      have hn := hnames n (by simp)
      obtain ⟨g1, g2, g3, g4⟩ := h1 n hn
      have hX : ∀ x ∈ l0.flatMap (subMany σ done), x.Plain := by
        intro x hx
        obtain ⟨y, hy, hx⟩ := List.mem_flatMap.1 hx
        cases y with
        | text t =>
          have : x = .text t := by simpa [subMany] using hx
          rw [this]; exact hl0 _ hy
        | ref k =>
          simp only [subMany] at hx
          split at hx
          · rename_i hk
            exact (h1 k (hdone k hk)).2.2.1 x hx
          · have : x = .ref k := by simpa using hx
            rw [this]; exact hl0 _ hy
      have hone := expandOne_out hb hrec g1 g2 ht hg rfl (h2 n) hX hi
      rw [subMany_cons l0 (fun k hk ha => h2 n ((h1 k (hdone k hk)).2.2.2 n ha))] at hone
      rw [expandMany]
      rcases hone with he | ⟨sn, he, hst⟩
      · rw [he]; exact Or.inl rfl
      · rw [he]
        have hd' : ∀ k ∈ n :: done, k ∈ refsS l0 := by
          intro k hk
          rcases List.mem_cons.1 hk with rfl | hk
          · exact hn
          · exact hdone k hk
        have := ih names hl (fun k hk => hnames k (by simp [hk])) (n :: done) hd' (hi.step hst)
        simp only [List.reverse_cons, List.append_assoc, List.cons_append, List.nil_append]
        rcases this with he' | ⟨sn', he', hst'⟩
        · exact Or.inl he'
        · exact Or.inr ⟨sn', he', hst.trans hst'⟩

theorem mem_refsS {l : List Seg} {n : Str} : n ∈ refsS l ↔ Seg.ref n ∈ l := by
  unfold refsS
  rw [List.mem_filterMap]
  constructor
  · rintro ⟨x, hx, he⟩
    cases x with
    | text t => cases he
    | ref m => cases he; exact hx
  · intro h; exact ⟨_, h, rfl⟩

theorem Pieces.ref_mem {S : Str → Str → Prop} {l : List Seg} {o : Str} (h : Pieces S l o) {n : Str} (hn : n ∈ refsS l) :
    ∃ r, S n r := by
  rw [mem_refsS] at hn
  induction h with
  | nil => cases hn
  | text _ ih => exact ih (by simpa using hn)
  | ref hs _ ih =>
    rcases List.mem_cons.1 hn with he | hn
    · cases he; exact ⟨_, hs⟩
    · exact ih hn

theorem expandTermF_out {W : World} {s : Stash} {b : J} (hb : setsBase s.consts = .ok b) (file : Str) (fuel h : Nat)
    (spare : List Str) (value : Str) (l : List Seg) (o : Str) (seen : Seen) (hl : ∀ x ∈ l, x.Plain) (hv : renderS l = value)
    (hp : Pieces (MeansS W s file spare h) l o) (hc : NoCalls value) (hi : SeenInv W s file h seen) :
    Out W s file (expandTermF W s fuel file spare value seen) o seen := by
  induction fuel generalizing h spare value l o seen with
  | zero => exact Or.inl rfl
  | succ fuel ih =>
    have hrec : ∀ h t l o sn, (∀ x ∈ l, x.Plain) → renderS l = t → Pieces (Means W s file h) l o → NoCalls t →
        SeenInv W s file h sn → Out W s file (expandTermF W s fuel file [] t sn) o sn := by
      intro h t l o sn g1 g2 g3 g4 g5
      exact ih h [] t l o sn g1 g2 (g3.mono (fun n r hm => Or.inr ⟨by simp, hm⟩)) g4 g5
    classical
    -- the pieces of every meaning
    let σ : Str → List Seg := fun n => if n ∈ spare ∨ Unknown s file n then [.ref n]
      else if hx : ∃ l, (∀ x ∈ l, x.Plain) ∧ (∀ a ∈ refsS l, Unknown s file a) ∧ Means W s file h n (renderS l) then hx.choose
      else []
    have h2 : ∀ n, (n ∈ spare ∨ Unknown s file n) → σ n = [.ref n] := fun n hn => if_pos hn
    have h1 : ∀ n, n ∈ refsS l → Name n ∧ MeansS W s file spare h n (renderS (σ n)) ∧ (∀ x ∈ σ n, x.Plain) ∧
        (∀ a ∈ refsS (σ n), a ∈ spare ∨ Unknown s file a) := by
      intro n hn
      have hname : Name n := hl _ (mem_refsS.1 hn)
      obtain ⟨r, hr⟩ := hp.ref_mem hn
      refine ⟨hname, ?_⟩
      by_cases hk : n ∈ spare ∨ Unknown s file n
      · rw [h2 n hk]
        refine ⟨?_, by simpa [Seg.Plain] using hname, by simpa [refsS] using hk⟩
        have : renderS [.ref n] = refText n := by simp [renderS, Seg.render]
        rw [this]
        by_cases hs : n ∈ spare
        · exact Or.inl ⟨hs, rfl⟩
        · exact Or.inr ⟨hs, means_le (Nat.zero_le h) (Or.inl ⟨hk.resolve_left hs, rfl⟩)⟩
      · rcases hr with ⟨hs, -⟩ | ⟨hs, hm⟩
        · exact absurd (Or.inl hs) hk
        obtain ⟨l1, f1, f2, f3⟩ := means_segs hname hm
        have hx : ∃ l, (∀ x ∈ l, x.Plain) ∧ (∀ a ∈ refsS l, Unknown s file a) ∧ Means W s file h n (renderS l) :=
          ⟨l1, f1, f3, by rw [f2]; exact hm⟩
        have hσ : σ n = hx.choose := by
          exact (if_neg hk).trans (dif_pos hx)
        rw [hσ]
        obtain ⟨g1, g2, g3⟩ := hx.choose_spec
        exact ⟨Or.inr ⟨hs, g3⟩, g1, fun a ha => Or.inr (g2 a ha)⟩
    -- the result
    have ho : o = renderS (l.flatMap (subMany σ ((refsS l).reverse ++ []))) := by
      have hall : ∀ l' : List Seg, ∀ o', (∀ n ∈ refsS l', n ∈ refsS l) → Pieces (MeansS W s file spare h) l' o' →
          o' = renderS (l'.flatMap (subMany σ ((refsS l).reverse ++ []))) := by
        intro l' o' hsub hp'
        induction hp' with
        | nil => rfl
        | @text t o' l' _ ihp =>
          rw [List.flatMap_cons, renderS_append, ← ihp (fun n hn => hsub n (by simpa [refsS] using hn))]
          simp [subMany, renderS, Seg.render]
        | @ref n r o' l' hs _ ihp =>
          have hn : n ∈ refsS l := hsub n (by simp [refsS])
          rw [List.flatMap_cons, renderS_append, ← ihp (fun n hn => hsub n (by rw [mem_refsS] at hn ⊢; simp [hn]))]
          congr 1
          obtain ⟨g1, g2, -, -⟩ := h1 n hn
          rw [subMany, if_pos (by simpa using hn)]
          rcases hs with ⟨a1, a2⟩ | ⟨a1, a2⟩
          · rcases g2 with ⟨-, g2⟩ | ⟨g2, -⟩
            · rw [a2, g2]
            · exact absurd a1 g2
          · rcases g2 with ⟨g2, -⟩ | ⟨-, g2⟩
            · exact absurd g2 a1
            · exact means_unique hb g1.ne a2 g2
      exact hall l o (fun n hn => hn) hp
    have hnil : l.flatMap (subMany σ []) = l := by
      have : ∀ l : List Seg, l.flatMap (subMany σ []) = l := by
        intro l
        induction l with
        | nil => rfl
        | cons x l ih => rw [List.flatMap_cons, ih]; cases x <;> simp [subMany]
      exact this l
    have hmany := expandMany_out hb hrec hl h1 h2 (reFinditer reVariablePattern.re value) (refsS l)
      (by rw [← hv]; exact finditer_render l hl 0) (fun n hn => hn) [] (by simp) hi
    rw [← ho, hnil, hv] at hmany
    unfold expandTermF
    rw [hb]
    simp only
    rcases hmany with he | ⟨sn, he, hst⟩
    · rw [he]; exact Or.inl rfl
    · rw [he]
      simp only
      have hg : reFinditer reVariablePattern2.re value = [] := by
        rw [List.eq_nil_iff_forall_not_mem]
        intro m hm
        obtain ⟨n, -, q, q', args, -, h3, -⟩ := mem_finditer_getVar hm
        exact hc.noGetVar ((List.prefix_append _ _).isInfix.trans h3)
      rw [hg, finditer_readFile_nil hc.noReadFile]
      exact Or.inr ⟨sn, rfl, hst⟩

theorem expandTermS_expands {W : World} {s : Stash} {b : J} (hb : setsBase s.consts = .ok b) {file : Str} {spare : List Str}
    {value o : Str} (hc : NoCalls value) (h : Expands W s file spare value o) : expandTermS W s file spare value = .ok o := by
  obtain ⟨k, l, h1, h2, h3⟩ := pieces_of_expands h
  have := expandTermF_out hb file (expandBound s value) k spare value l o [] h1 h2 h3 hc (by intro n r h; cases h)
  have hne := (expandTerm_fuel W s file spare value _ (Nat.le_refl _)).2
  unfold expandTermS at hne ⊢
  rcases this with he | ⟨sn, he, -⟩
  · rw [he] at hne; exact absurd rfl hne
  · rw [he]; rfl

/-- every name is known in exactly one way when the base set maps names to texts -/
theorem name_cases {W : World} {s : Stash} {file : Str} {d : KV} (hb : setsBase s.consts = .ok (.dict d))
    (hd : ∀ k j, d.get k = some j → ∃ t, j = .str t) {n : Str} (hn : Name n) :
    (∃ t, Defined W s file n t) ∨ (Undefined s file n ∧ ∃ t, FromFileName file n t) ∨ Unknown s file n := by
  by_cases ha : ∃ x, Assigns s file n x
  · left
    cases hl : assignments W s file n with
    | nil =>
      obtain ⟨x, hx⟩ := ha
      exact absurd hx ((assignments_nil hn.ne).1 hl x)
    | cons p rest =>
      obtain ⟨x, v⟩ := p
      unfold assignments at hl
      obtain ⟨pre, y, post, h1, h2, h3, -⟩ := List.filterMap_eq_cons_iff.1 hl
      have h4 : y = x ∧ x.payload = .variable v := by
        unfold asAssignment at h3
        split at h3
        · rename_i hp
          split at h3
          · cases h3; exact ⟨rfl, hp⟩
          · cases h3
        · cases h3
      obtain ⟨rfl, hp⟩ := h4
      refine ⟨_, .assigned (x := y) (v := v) ⟨pre, post, h1, ?_, ?_⟩ hp⟩
      · exact ((mem_assignments (W := W) hn.ne).1 (show (y, v) ∈ assignments W s file n by
          unfold assignments; rw [hl]; simp)).2
      · intro z hz hA
        obtain ⟨v', hp', -, ha'⟩ := hA.2.2
        have := h2 z hz
        simp [asAssignment, hp', ha'] at this
  · have ha : ∀ x, ¬ Assigns s file n x := fun x hx => ha ⟨x, hx⟩
    cases hg : d.get n with
    | some j =>
      left
      obtain ⟨t, rfl⟩ := hd n j hg
      exact ⟨t, .base ha hb hg⟩
    | none =>
      right
      have hu : Undefined s file n := ⟨ha, fun b h => by rw [hb] at h; cases h; simp [J.has, hg]⟩
      by_cases hm : n ∈ [c!"PN", c!"BPN", c!"PV", c!"FILE", c!"THISDIR"]
      · left
        refine ⟨hu, ?_⟩
        simp only [List.mem_cons, List.not_mem_nil, or_false] at hm
        rcases hm with rfl | rfl | rfl | rfl | rfl
        · exact ⟨_, .pn⟩
        · exact ⟨_, .bpn⟩
        · cases hv : guessRecipeVersion file with
          | none => exact ⟨_, .pvDefault (Or.inl hv)⟩
          | some v =>
            by_cases he : v = []
            · subst he; exact ⟨_, .pvDefault (Or.inr hv)⟩
            · exact ⟨_, .pv hv he⟩
        · exact ⟨_, .file⟩
        · exact ⟨_, .thisdir⟩
      · exact Or.inr ⟨hu.1, hu.2, hm⟩

theorem expands_of_acyclic {W : World} {s : Stash} {file : Str} {d : KV} (hb : setsBase s.consts = .ok (.dict d))
    (hd : ∀ k j, d.get k = some j → ∃ t, j = .str t) {rank : Str → Nat} (hr : Acyclic W s file rank)
    (hf : ∀ n t, FromFileName file n t → '$' ∉ t) (k : Nat) :
    ∀ (spare : List Str) (value : Str) (ns : List Str), Written value ns → (∀ n ∈ ns, rank n < k) →
      ∃ o, Expands W s file spare value o := by
  induction k with
  | zero =>
    intro spare value ns hw hn
    have hns : ns = [] := List.eq_nil_iff_forall_not_mem.2 (fun n h => absurd (hn n h) (by omega))
    subst hns
    generalize hx : ([] : List Str) = ns' at hw
    induction hw with
    | nil => exact ⟨_, .nil⟩
    | char hc _ ih => obtain ⟨o, ho⟩ := ih hx; exact ⟨_, .char hc ho⟩
    | dollar hc hb _ ih => obtain ⟨o, ho⟩ := ih hx; exact ⟨_, .dollar hc hb ho⟩
    | ref _ _ _ => cases hx
  | succ k ihk =>
    intro spare value ns hw hn
    induction hw with
    | nil => exact ⟨_, .nil⟩
    | char hc _ ih => obtain ⟨o, ho⟩ := ih hn; exact ⟨_, .char hc ho⟩
    | dollar hc hb _ ih => obtain ⟨o, ho⟩ := ih hn; exact ⟨_, .dollar hc hb ho⟩
    | @ref n r ns hname _ ih =>
      obtain ⟨o, ho⟩ := ih (fun m hm => hn m (by simp [hm]))
      by_cases hs : n ∈ spare
      · exact ⟨_, .spared hname hs ho⟩
      rcases name_cases (W := W) (file := file) hb hd hname with ⟨t, ht⟩ | ⟨hu, t, ht⟩ | hu
      · obtain ⟨hc, ms, hw, hlt⟩ := hr n t ht
        obtain ⟨v, hv⟩ := ihk [] t ms hw (fun m hm => by
          have h1 := hlt m hm
          have h2 := hn n (by simp)
          omega)
        exact ⟨_, .defined hname hs ht hc hv ho⟩
      · exact ⟨_, .name hname hs hu ht (hf n t ht) ho⟩
      · exact ⟨_, .unknown hname hs hu ho⟩

end Oelint

import Verif.Lemmas.ExpandMeaning
/-! Expanding again changes nothing (C106). -/
set_option linter.unusedSectionVars false
set_option linter.unusedSimpArgs false
namespace Oelint
variable [Uni]
open Spec

theorem segs_of_written {t : Str} {ns : List Str} (h : Written t ns) : ∃ l, (∀ x ∈ l, x.Plain) ∧ renderS l = t := by
  have hcons : ∀ {x : Seg} {l : List Seg}, x.Plain → (∀ y ∈ l, y.Plain) → ∀ y ∈ x :: l, y.Plain := by
    intro x l hx hl y hy
    rcases List.mem_cons.1 hy with rfl | hy
    · exact hx
    · exact hl y hy
  induction h with
  | nil => exact ⟨[], by simp, rfl⟩
  | @char c r ns hc _ ih =>
    obtain ⟨l, h1, h2⟩ := ih
    exact ⟨.text [c] :: l, hcons (plainText_of_not_mem (by simpa using Ne.symm hc)) h1, by rw [← h2]; rfl⟩
  | @dollar c r ns hc hb hw ih =>
    obtain ⟨l, h1, h2⟩ := ih
    clear hw
    induction l with
    | nil => cases h2
    | cons x l ihl =>
      cases x with
      | text t =>
        cases t with
        | nil => exact ihl (fun y hy => h1 y (by simp [hy])) h2
        | cons d t =>
          have hd : d = c := (List.cons.inj h2).1
          refine ⟨.text ('$' :: d :: t) :: l, hcons ?_ (fun y hy => h1 y (by simp [hy])), ?_⟩
          · intro b hb'
            rcases List.suffix_cons_iff.1 hb' with he | hb'
            · cases he; exact ⟨d, t, rfl, by rw [hd]; exact hb⟩
            · exact (h1 (.text (d :: t)) (by simp) : PlainText _) b hb'
          · show '$' :: (d :: t ++ renderS l) = _
            congr 1
      | ref n => exact absurd (List.cons.inj h2).1.symm hc
  | @ref n r ns hn _ ih =>
    obtain ⟨l, h1, h2⟩ := ih
    exact ⟨.ref n :: l, hcons hn h1, by rw [← h2]; rfl⟩

/-- the references of the text satisfy `K` -/
def Clean (K : Str → Prop) (o : Str) : Prop := ∃ l, (∀ x ∈ l, x.Plain) ∧ renderS l = o ∧ ∀ m ∈ refsS l, K m

/-- what has been remembered refers to unknown names only -/
def SeenClean (s : Stash) (file : Str) (seen : Seen) : Prop := ∀ n r, dget n seen = some r → Clean (Unknown s file) r

/-- the definitions are written without stray `${` and calls -/
structure Tidy (W : World) (s : Stash) (file : Str) : Prop where
  base : ∃ d, setsBase s.consts = .ok (.dict d) ∧ ∀ k j, d.get k = some j → ∃ t, j = .str t
  defined : ∀ n t, Defined W s file n t → NoCalls t ∧ ∃ ns, Written t ns
  name : ∀ n t, FromFileName file n t → '$' ∉ t

/-- the outcome of a step on the pieces `X`: the recursion limit, or pieces with fewer known references -/
def Shrinks (s : Stash) (file : Str) (x : Except PyErr (Str × Seen)) (K : Str → Prop) : Prop :=
  x = .error .recursionError ∨ ∃ o seen', x = .ok (o, seen') ∧ Clean K o ∧ SeenClean s file seen'

theorem mem_refs_subst {a n : Str} {sg X : List Seg} (h : a ∈ refsS (X.flatMap (subOne n sg))) : (a ∈ refsS X ∧ a ≠ n) ∨ a ∈ refsS sg := by
  rw [mem_refsS] at h
  obtain ⟨y, hy, h⟩ := List.mem_flatMap.1 h
  cases y with
  | text t => simp [subOne] at h
  | ref m =>
    simp only [subOne] at h
    split at h
    · exact .inr (mem_refsS.2 h)
    · rename_i hm
      simp only [List.mem_singleton, Seg.ref.injEq] at h
      subst h
      exact .inl ⟨mem_refsS.2 hy, hm⟩

theorem plain_subst {n : Str} {sg X : List Seg} (h1 : ∀ x ∈ X, x.Plain) (h2 : ∀ x ∈ sg, x.Plain) :
    ∀ x ∈ X.flatMap (subOne n sg), x.Plain := by
  intro x hx
  obtain ⟨y, hy, hx⟩ := List.mem_flatMap.1 hx
  cases y with
  | text t =>
    simp only [subOne, List.mem_singleton] at hx
    subst hx; exact h1 _ hy
  | ref m =>
    simp only [subOne] at hx
    split at hx
    · exact h2 x hx
    · simp only [List.mem_singleton] at hx
      subst hx; exact h1 _ hy

section
variable {W : World} {s : Stash} {file : Str}

theorem expandOne_shrinks {b : J} (hb : setsBase s.consts = .ok b) (ht : Tidy W s file) {rec : ExpandFn}
    (hrec : ∀ t sn, (∃ ns, Written t ns) → NoCalls t → SeenClean s file sn → Shrinks s file (rec t sn) (Unknown s file))
    {spare : List Str} {m : Mt} {n : Str} (hn : Name n) (hm : m.text = refText n) (hg : m.group 1 = some n)
    {X : List Seg} (hX : ∀ x ∈ X, x.Plain) {seen : Seen} (hi : SeenClean s file seen) :
    expandOne W s b rec file spare [] m (renderS X) seen = .error .recursionError ∨
    ∃ X' seen', expandOne W s b rec file spare [] m (renderS X) seen = .ok (renderS X', seen') ∧ (∀ x ∈ X', x.Plain) ∧
      (∀ a ∈ refsS X', (a ∈ refsS X ∧ (a = n → n ∈ spare ∨ Unknown s file n)) ∨ Unknown s file a) ∧ SeenClean s file seen' := by
  have hrep : ∀ r sn, Clean (Unknown s file) r → SeenClean s file sn →
      ∃ X' seen', (Except.ok (replaceAll m.text r (renderS X), sn) : Except PyErr (Str × Seen)) = .ok (renderS X', seen') ∧ (∀ x ∈ X', x.Plain) ∧
      (∀ a ∈ refsS X', (a ∈ refsS X ∧ (a = n → n ∈ spare ∨ Unknown s file n)) ∨ Unknown s file a) ∧ SeenClean s file seen' := by
    rintro r sn ⟨l, h1, h2, h3⟩ hsn
    refine ⟨X.flatMap (subOne n l), sn, by rw [hm, ← h2, replaceAll_render hn l X hX], plain_subst hX h1, fun a ha => ?_, hsn⟩
    rcases mem_refs_subst ha with ⟨h, hne⟩ | h
    · exact .inl ⟨h, fun e => absurd e hne⟩
    · exact .inr (h3 a h)
  have hkeep : n ∈ spare ∨ Unknown s file n →
      ∃ X' seen', (Except.ok (renderS X, seen) : Except PyErr (Str × Seen)) = .ok (renderS X', seen') ∧ (∀ x ∈ X', x.Plain) ∧
      (∀ a ∈ refsS X', (a ∈ refsS X ∧ (a = n → n ∈ spare ∨ Unknown s file n)) ∨ Unknown s file a) ∧ SeenClean s file seen' :=
    fun h => ⟨X, seen, rfl, hX, fun a ha => .inl ⟨ha, fun _ => h⟩, hi⟩
  unfold expandOne
  rw [hg]
  simp only [Option.getD_some]
  split
  · rename_i hs
    exact .inr (hkeep (.inl (List.contains_iff_mem.1 hs)))
  · obtain ⟨d, hd, hstr⟩ := ht.base
    rcases name_cases (W := W) (file := file) hd hstr hn with ⟨t, h⟩ | ⟨hu, t, h⟩ | hu
    · rw [sourceOf_defined hb hn.ne h]
      simp only
      cases hdg : dget n seen with
      | some r => exact .inr (hrep r seen (hi n r hdg) hi)
      | none =>
        simp only
        obtain ⟨h1, h2⟩ := ht.defined n t h
        have hi' : SeenClean s file (dset n [] seen) := by
          intro k r hk
          rw [dget_dset] at hk
          split at hk
          · cases hk; exact ⟨[], by simp, rfl, by simp [refsS]⟩
          · exact hi k r hk
        rcases hrec t _ h2 h1 hi' with he | ⟨o, sn, he, ho, hsn⟩
        · rw [he]; exact .inl rfl
        · rw [he]
          refine .inr (hrep o _ ho ?_)
          intro k r hk
          rw [dget_dset] at hk
          split at hk
          · cases hk; exact ho
          · exact hsn k r hk
    · rw [sourceOf_name hb hn.ne hu h]
      exact .inr (hrep t seen ⟨[.text t], by simpa [Seg.Plain] using plainText_of_not_mem (ht.name n t h), by simp [renderS, Seg.render],
        by simp [refsS]⟩ hi)
    · rw [sourceOf_unknown hb hn.ne hu]
      exact .inr (hkeep (.inr hu))

theorem expandMany_shrinks {b : J} (hb : setsBase s.consts = .ok b) (ht : Tidy W s file) {rec : ExpandFn}
    (hrec : ∀ t sn, (∃ ns, Written t ns) → NoCalls t → SeenClean s file sn → Shrinks s file (rec t sn) (Unknown s file))
    {spare : List Str} (l : List Mt) (names : List Str) (hl : l.map (fun m => (m.text, m.group 1)) = names.map (fun n => (refText n, some n)))
    (hn : ∀ n ∈ names, Name n) {X : List Seg} (hX : ∀ x ∈ X, x.Plain)
    (hr : ∀ a ∈ refsS X, a ∈ names ∨ a ∈ spare ∨ Unknown s file a) {seen : Seen} (hi : SeenClean s file seen) :
    Shrinks s file (expandMany W s b rec file spare [] l (renderS X) seen) (fun a => a ∈ spare ∨ Unknown s file a) := by
  induction l generalizing names X seen with
  | nil =>
    cases names with
    | nil => exact .inr ⟨_, seen, rfl, ⟨X, hX, rfl, fun a ha => (hr a ha).resolve_left (by simp)⟩, hi⟩
    | cons n names => cases hl
  | cons m l ih =>
    cases names with
    | nil => cases hl
    | cons n names =>
      simp only [List.map_cons, List.cons.injEq, Prod.mk.injEq] at hl
      obtain ⟨⟨h1, h2⟩, hl⟩ := hl
      rw [expandMany]
      rcases expandOne_shrinks (spare := spare) hb ht hrec (hn n (by simp)) h1 h2 hX hi with he | ⟨X', sn, he, hX', hr', hi'⟩
      · rw [he]; exact .inl rfl
      · rw [he]
        refine ih names hl (fun k hk => hn k (by simp [hk])) hX' (fun a ha => ?_) hi'
        rcases hr' a ha with ⟨h3, h4⟩ | h3
        · rcases hr a h3 with h5 | h5
          · rcases List.mem_cons.1 h5 with rfl | h5
            · exact .inr (h4 rfl)
            · exact .inl h5
          · exact .inr h5
        · exact .inr (.inr h3)

theorem expandTermF_shrinks (ht : Tidy W s file) (fuel : Nat) (spare : List Str) (value : Str) (seen : Seen)
    (hw : ∃ ns, Written value ns) (hc : NoCalls value) (hi : SeenClean s file seen) :
    Shrinks s file (expandTermF W s fuel file spare value seen) (fun a => a ∈ spare ∨ Unknown s file a) := by
  induction fuel generalizing spare value seen with
  | zero => exact .inl rfl
  | succ fuel ih =>
    obtain ⟨d, hb, -⟩ := ht.base
    obtain ⟨ns, hw⟩ := hw
    obtain ⟨l, h1, h2⟩ := segs_of_written hw
    have hrec : ∀ t sn, (∃ ns, Written t ns) → NoCalls t → SeenClean s file sn →
        Shrinks s file (expandTermF W s fuel file [] t sn) (Unknown s file) := by
      intro t sn g1 g2 g3
      rcases ih [] t sn g1 g2 g3 with h | ⟨o, sn', h, ⟨l, k1, k2, k3⟩, h'⟩
      · exact .inl h
      · exact .inr ⟨o, sn', h, ⟨l, k1, k2, fun m hm => (k3 m hm).resolve_left (by simp)⟩, h'⟩
    have hmany := expandMany_shrinks (spare := spare) hb ht hrec (reFinditer reVariablePattern.re value) (refsS l)
      (by rw [← h2]; exact finditer_render l h1 0) (fun n hn => h1 _ (mem_refsS.1 hn)) h1 (fun a ha => .inl ha) hi
    rw [h2] at hmany
    unfold expandTermF
    rw [hb]
    simp only
    rcases hmany with he | ⟨o, sn, he, ho, hsn⟩
    · rw [he]; exact .inl rfl
    · rw [he]
      simp only
      have hg : reFinditer reVariablePattern2.re value = [] := by
        rw [List.eq_nil_iff_forall_not_mem]
        intro m hm
        obtain ⟨n, -, q, q', args, -, h3, -⟩ := mem_finditer_getVar hm
        exact hc.noGetVar ((List.prefix_append _ _).isInfix.trans h3)
      rw [hg, finditer_readFile_nil hc.noReadFile]
      exact .inr ⟨o, sn, rfl, ho, hsn⟩

theorem expandTermS_clean (ht : Tidy W s file) (spare : List Str) (value : Str) (hw : ∃ ns, Written value ns) (hc : NoCalls value) :
    ∃ o, expandTermS W s file spare value = .ok o ∧ Clean (fun a => a ∈ spare ∨ Unknown s file a) o := by
  have hne := (expandTerm_fuel W s file spare value _ (Nat.le_refl _)).2
  unfold expandTermS at hne ⊢
  rcases expandTermF_shrinks ht (expandBound s value) spare value [] hw hc (fun n r h => by cases h) with he | ⟨o, sn, he, ho, -⟩
  · rw [he] at hne; exact absurd rfl hne
  · exact ⟨o, by rw [he]; rfl, ho⟩

theorem expandTermS_settled {b : J} (hb : setsBase s.consts = .ok b) (spare : List Str) (o : Str)
    (ho : Clean (fun a => a ∈ spare ∨ Unknown s file a) o) (hc : NoCalls o) : expandTermS W s file spare o = .ok o := by
  obtain ⟨l, h1, h2, h3⟩ := ho
  have hp : ∀ l : List Seg, (∀ m ∈ refsS l, m ∈ spare ∨ Unknown s file m) → Pieces (MeansS W s file spare 0) l (renderS l) := by
    intro l
    induction l with
    | nil => intro _; exact .nil
    | cons x l ih =>
      intro h
      cases x with
      | text t => exact .text (ih (fun m hm => h m (by simpa [refsS] using hm)))
      | ref n =>
        refine .ref ?_ (ih (fun m hm => h m (by rw [mem_refsS] at hm ⊢; simp [hm])))
        by_cases hs : n ∈ spare
        · exact .inl ⟨hs, rfl⟩
        · exact .inr ⟨hs, .inl ⟨(h n (by simp [refsS])).resolve_left hs, rfl⟩⟩
  have := expandTermF_out hb file (expandBound s o) 0 spare o l o [] h1 h2 (by rw [← h2]; exact hp l h3) hc (by intro n r h; cases h)
  have hne := (expandTerm_fuel W s file spare o _ (Nat.le_refl _)).2
  unfold expandTermS at hne ⊢
  rcases this with he | ⟨sn, he, -⟩
  · rw [he] at hne; exact absurd rfl hne
  · rw [he]; rfl

/-- a text made of pieces refers to nothing but the references among the pieces -/
theorem refers_render {l : List Seg} (hl : ∀ x ∈ l, x.Plain) {n : Str} (h : Refers (renderS l) n) : n ∈ refsS l := by
  obtain ⟨⟨p, q, hpq⟩, hne, hnl, hb⟩ := h
  induction l generalizing p with
  | nil => simp [renderS, refText] at hpq
  | cons x l ih =>
    have hl' : ∀ x ∈ l, x.Plain := fun y hy => hl y (by simp [hy])
    cases x with
    | text t =>
      have hpl : PlainText t := hl (.text t) (by simp)
      have key : ∀ t : Str, PlainText t → ∀ p, p ++ refText n ++ q = t ++ renderS l → n ∈ refsS l := by
        intro t
        induction t with
        | nil => exact fun _ p h => ih hl' p h
        | cons c t iht =>
          intro hp p h
          cases p with
          | nil =>
            exfalso
            refine hp.not_open (renderS l) ⟨n ++ c!"}" ++ q, ?_⟩
            rw [List.cons_append, ← List.cons_append, ← h]
            simp [refText]
          | cons d p => exact iht hp.tail p (by simpa using (List.cons.inj h).2)
      simpa [refsS] using key t hpl p hpq
    | ref m =>
      have hm : Name m := hl (.ref m) (by simp)
      have hpq : p ++ refText n ++ q = refText m ++ renderS l := hpq
      cases p with
      | nil =>
        have hmn : n = m := by
          have e : n ++ '}' :: q = m ++ '}' :: renderS l := by simpa [refText] using hpq
          have hm1 : '}' ∉ m := hm.noBrace
          have hn1 : '}' ∉ n := by
            cases n with
            | nil => exact absurd rfl hne
            | cons c n =>
              cases m with
              | nil => exact absurd rfl hm.ne
              | cons c' m =>
                have : c = c' := (List.cons.inj e).1
                subst this
                intro hh
                rcases List.mem_cons.1 hh with rfl | hh
                · exact hm1 (by simp)
                · exact hb hh
          have h5 : ∀ (x r : Str), '}' ∉ x → (x ++ '}' :: r).takeWhile (· ≠ '}') = x := by
            intro x r hx
            rw [List.takeWhile_append_of_pos]
            · simp
            · intro a ha
              simp only [ne_eq, decide_eq_true_eq]
              rintro rfl
              exact hx ha
          rw [← h5 n q hn1, e, h5 m _ hm1]
        subst hmn
        simp [refsS]
      | cons d p =>
        have e : p ++ refText n ++ q = '{' :: (m ++ '}' :: renderS l) := by
          have := (List.cons.inj hpq).2
          simpa [refText] using this
        -- the reference does not start within the name
        have key : ∀ z : Str, '$' ∉ z → ∀ p, p ++ refText n ++ q = z ++ renderS l → n ∈ refsS l := by
          intro z
          induction z with
          | nil => exact fun _ p h => ih hl' p h
          | cons c z ihz =>
            intro hz p h
            cases p with
            | nil =>
              have : '$' = c := (List.cons.inj h).1
              exact absurd (by rw [this]; simp) hz
            | cons d p => exact ihz (fun hh => hz (by simp [hh])) p (by simpa using (List.cons.inj h).2)
        have := key ('{' :: (m ++ c!"}")) (by simp [hm.noDollar]) p (by rw [e]; simp)
        rw [mem_refsS] at this ⊢
        simp [this]

end
end Oelint

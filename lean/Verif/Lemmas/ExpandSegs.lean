import Verif.Lemmas.ExpandRefs
/-! Texts as sequences of plain text and references (C51). -/
set_option linter.unusedSectionVars false
set_option linter.unusedSimpArgs false
namespace Oelint
variable [Uni]
open Spec

/-- a piece of a text: plain text or a reference -/
inductive Seg where
  | text (t : Str)
  | ref (n : Str)
  deriving DecidableEq, Repr

/-- the piece as written -/
def Seg.render : Seg → Str
  | .text t => t
  | .ref n => refText n

/-- the text made of the pieces -/
def renderS (l : List Seg) : Str := l.flatMap Seg.render

/-- text starts no reference, also together with what follows -/
def PlainText (t : Str) : Prop := ∀ b, '$' :: b <:+ t → ∃ c b', b = c :: b' ∧ c ≠ '{'

def Seg.Plain : Seg → Prop
  | .text t => PlainText t
  | .ref n => Name n

def refsS (l : List Seg) : List Str := l.filterMap (fun x => match x with | .ref n => some n | .text _ => none)

theorem PlainText.tail {c : Char} {t : Str} (h : PlainText (c :: t)) : PlainText t :=
  fun b hb => h b (hb.trans (List.suffix_cons _ _))

theorem PlainText.not_open {c : Char} {t : Str} (r : Str) (h : PlainText (c :: t)) : ¬ c!"${" <+: c :: t ++ r := by
  rintro ⟨x, hx⟩
  simp only [List.cons_append, List.nil_append, List.cons.injEq] at hx
  obtain ⟨rfl, hx⟩ := hx
  obtain ⟨d, b, rfl, hd⟩ := h t List.suffix_rfl
  simp only [List.cons_append, List.cons.injEq] at hx
  exact hd hx.1.symm

theorem plainText_of_not_mem {t : Str} (h : '$' ∉ t) : PlainText t :=
  fun b hb => absurd (hb.subset (by simp)) h

/-- the matches of `\$\{(.+?)\}` in a sequence of pieces -/
theorem finditer_render (l : List Seg) (hl : ∀ x ∈ l, x.Plain) (pos : Nat) :
    (finditerGo reVariablePattern.re pos 0 (renderS l)).map (fun m => (m.text, m.group 1)) =
      (refsS l).map (fun n => (refText n, some n)) := by
  induction l generalizing pos with
  | nil => rfl
  | cons x l ih =>
    have ih := ih (fun y hy => hl y (by simp [hy]))
    have hx := hl x (by simp)
    cases x with
    | text t =>
      show (finditerGo _ pos 0 (t ++ renderS l)).map _ = (refsS l).map _
      have hx : PlainText t := hx
      clear hl
      induction t generalizing pos with
      | nil => exact ih pos
      | cons c t iht =>
        have hn : matchAt reVariablePattern.re pos (c :: (t ++ renderS l)) = none := by
          rw [matchAt_variable, refAt_none (show ¬ c!"${" <+: c :: (t ++ renderS l) from hx.not_open _)]; rfl
        rw [List.cons_append, finditerGo, hn]
        exact iht (pos + 1) hx.tail hx.tail
    | ref n =>
      have hx : Name n := hx
      show (finditerGo _ pos 0 (refText n ++ renderS l)).map _ = (refText n, some n) :: (refsS l).map _
      have hm : matchAt reVariablePattern.re pos (refText n ++ renderS l) =
          some ⟨pos, pos + n.length + 3, refText n, [(1, n)]⟩ := by
        rw [matchAt_variable, refAt_refText _ hx.ne (fun h => hx.noBrace (List.mem_of_mem_tail h)) hx.noNewline]; rfl
      have he : refText n ++ renderS l = '$' :: ('{' :: (n ++ ['}']) ++ renderS l) := by simp [refText]
      rw [he] at hm ⊢
      rw [finditerGo, hm]
      simp only [List.map_cons]
      have hk : pos + n.length + 3 - pos - 1 = ('{' :: (n ++ ['}'])).length := by simp; omega
      rw [hk, finditerGo_skip, ih]
      rfl

theorem replaceGo_plain {old new : Str} (hold : c!"${" <+: old) {t : Str} (ht : PlainText t) (r : Str) :
    replaceGo old new 0 (t ++ r) = t ++ replaceGo old new 0 r := by
  induction t with
  | nil => rfl
  | cons c t ih =>
    rw [List.cons_append, replaceGo_not_prefix c (t ++ r) (fun h => ht.not_open r (hold.trans h)), ih ht.tail]
    rfl

theorem refText_prefix {a n r : Str} (ha : Name a) (hn : Name n) (h : refText a <+: refText n ++ r) : a = n := by
  obtain ⟨x, hx⟩ := h
  simp only [refText, List.append_assoc, List.cons_append, List.nil_append, List.cons.injEq, true_and] at hx
  have h1 := upTo_append x ha.noBrace ha.noNewline
  rw [hx, upTo_append r hn.noBrace hn.noNewline] at h1
  exact (Option.some.inj h1).symm

/-- replace a reference in a sequence of pieces -/
def subOne (a : Str) (new : List Seg) : Seg → List Seg
  | .text t => [.text t]
  | .ref n => if n = a then new else [.ref n]

theorem renderS_append (a b : List Seg) : renderS (a ++ b) = renderS a ++ renderS b := by simp [renderS]

theorem replaceAll_render {a : Str} (ha : Name a) (new : List Seg) (l : List Seg) (hl : ∀ x ∈ l, x.Plain) :
    replaceAll (refText a) (renderS new) (renderS l) = renderS (l.flatMap (subOne a new)) := by
  have hold : c!"${" <+: refText a := ⟨a ++ c!"}", by simp [refText]⟩
  have hne : refText a ≠ [] := by simp [refText]
  unfold replaceAll
  rw [if_neg (by simpa using hne)]
  induction l with
  | nil => rfl
  | cons x l ih =>
    have ih := ih (fun y hy => hl y (by simp [hy]))
    have hx := hl x (by simp)
    rw [List.flatMap_cons, renderS_append, ← ih]
    cases x with
    | text t =>
      show replaceGo _ _ 0 (t ++ renderS l) = renderS [.text t] ++ _
      rw [replaceGo_plain hold hx]
      simp [renderS, Seg.render]
    | ref n =>
      have hx : Name n := hx
      show replaceGo _ _ 0 (refText n ++ renderS l) = _
      by_cases h : n = a
      · subst h
        rw [replaceGo_prefix hne]
        simp [subOne]
      · have h1 : ¬ refText a <+: '$' :: ('{' :: (n ++ ['}']) ++ renderS l) := by
          intro h2
          have he : refText n ++ renderS l = '$' :: ('{' :: (n ++ ['}']) ++ renderS l) := by simp [refText]
          rw [← he] at h2
          exact h (refText_prefix ha hx h2).symm
        have he : refText n ++ renderS l = '$' :: ('{' :: (n ++ ['}']) ++ renderS l) := by simp [refText]
        rw [he, replaceGo_not_prefix _ _ h1, replaceGo_plain hold]
        · simp [subOne, h, renderS, Seg.render, refText]
        · apply plainText_of_not_mem
          simp [hx.noDollar]

/-! ## the meaning of names -/

/-- the text of a sequence of pieces when `S` gives the meaning of names -/
inductive Pieces (S : Str → Str → Prop) : List Seg → Str → Prop
  | nil : Pieces S [] []
  | text {t o : Str} {l : List Seg} : Pieces S l o → Pieces S (.text t :: l) (t ++ o)
  | ref {n r o : Str} {l : List Seg} : S n r → Pieces S l o → Pieces S (.ref n :: l) (r ++ o)

theorem Pieces.mono {S S' : Str → Str → Prop} (h : ∀ n r, S n r → S' n r) {l : List Seg} {o : Str} (hp : Pieces S l o) :
    Pieces S' l o := by
  induction hp with
  | nil => exact .nil
  | text _ ih => exact .text ih
  | ref hs _ ih => exact .ref (h _ _ hs) ih

/-- the meaning of a name, with definitions nested at most `h` deep -/
def Means (W : World) (s : Stash) (file : Str) : Nat → Str → Str → Prop
  | 0, n, r => (Unknown s file n ∧ r = refText n) ∨ (Undefined s file n ∧ FromFileName file n r ∧ '$' ∉ r)
  | h + 1, n, r => (Unknown s file n ∧ r = refText n) ∨ (Undefined s file n ∧ FromFileName file n r ∧ '$' ∉ r) ∨
      ∃ t l, Defined W s file n t ∧ NoCalls t ∧ (∀ x ∈ l, x.Plain) ∧ renderS l = t ∧ Pieces (Means W s file h) l r

/-- the meaning of a name with `spare` -/
def MeansS (W : World) (s : Stash) (file : Str) (spare : List Str) (h : Nat) (n r : Str) : Prop :=
  (n ∈ spare ∧ r = refText n) ∨ (n ∉ spare ∧ Means W s file h n r)

theorem means_succ {W : World} {s : Stash} {file : Str} {h : Nat} {n r : Str} (hm : Means W s file h n r) :
    Means W s file (h + 1) n r := by
  induction h generalizing n r with
  | zero =>
    rcases hm with hm | hm
    · exact Or.inl hm
    · exact Or.inr (Or.inl hm)
  | succ h ih =>
    rcases hm with hm | hm | ⟨t, l, h1, h2, h3, h4, h5⟩
    · exact Or.inl hm
    · exact Or.inr (Or.inl hm)
    · exact Or.inr (Or.inr ⟨t, l, h1, h2, h3, h4, h5.mono (fun n r => ih)⟩)

theorem means_le {W : World} {s : Stash} {file : Str} {h h' : Nat} (hh : h ≤ h') {n r : Str} (hm : Means W s file h n r) :
    Means W s file h' n r := by
  induction hh with
  | refl => exact hm
  | step _ ih => exact means_succ ih

/-- from the specification to pieces -/
theorem pieces_of_expands {W : World} {s : Stash} {file : Str} {spare : List Str} {v o : Str}
    (h : Expands W s file spare v o) :
    ∃ k l, (∀ x ∈ l, x.Plain) ∧ renderS l = v ∧ Pieces (MeansS W s file spare k) l o := by
  have hmax : ∀ {sp : List Str} {k k' : Nat}, k ≤ k' → ∀ n r, MeansS W s file sp k n r → MeansS W s file sp k' n r :=
    fun hk n r hm => hm.imp id (fun h => ⟨h.1, means_le hk h.2⟩)
  have hcons : ∀ {x : Seg} {l : List Seg}, x.Plain → (∀ y ∈ l, y.Plain) → ∀ y ∈ x :: l, y.Plain := by
    intro x l hx hl y hy
    rcases List.mem_cons.1 hy with rfl | hy
    · exact hx
    · exact hl y hy
  induction h with
  | nil => exact ⟨0, [], by simp, rfl, .nil⟩
  | @char _ c r o hc _ ih =>
    obtain ⟨k, l, h1, h2, h3⟩ := ih
    exact ⟨k, .text [c] :: l, hcons (plainText_of_not_mem (by simpa using Ne.symm hc)) h1,
      by rw [← h2]; rfl, .text (t := [c]) h3⟩
  | @dollar sp c r o hc hb h' ih =>
    obtain ⟨k, l, h1, h2, h3⟩ := ih
    -- the first piece starts with `c`
    have key : ∀ l o, (∀ x ∈ l, x.Plain) → renderS l = c :: r → Pieces (MeansS W s file sp k) l o →
        ∃ l', (∀ x ∈ l', x.Plain) ∧ renderS l' = '$' :: c :: r ∧ Pieces (MeansS W s file sp k) l' ('$' :: o) := by
      intro l
      induction l with
      | nil => intro o _ h; cases h
      | cons x l ihl =>
        intro o hp hr hpc
        cases x with
        | text t =>
          cases hpc with
          | text hpc =>
            cases t with
            | nil => exact ihl _ (fun y hy => hp y (by simp [hy])) hr hpc
            | cons d t =>
              have hd : d = c := (List.cons.inj hr).1
              refine ⟨.text ('$' :: d :: t) :: l, hcons ?_ (fun y hy => hp y (by simp [hy])), ?_, .text (t := '$' :: d :: t) hpc⟩
              · intro b hb'
                rcases List.suffix_cons_iff.1 hb' with he | hb'
                · cases he; exact ⟨d, t, rfl, by rw [hd]; exact hb⟩
                · exact (hp (.text (d :: t)) (by simp) : PlainText _) b hb'
              · show '$' :: (d :: t ++ renderS l) = _
                congr 1
        | ref n =>
          have : '$' = c := (List.cons.inj hr).1
          exact absurd this.symm hc
    obtain ⟨l', h4, h5, h6⟩ := key l _ h1 h2 h3
    exact ⟨k, l', h4, h5, h6⟩
  | @spared _ n r o hn hs _ ih =>
    obtain ⟨k, l, h1, h2, h3⟩ := ih
    exact ⟨k, .ref n :: l, hcons hn h1, by rw [← h2]; rfl, .ref (Or.inl ⟨hs, rfl⟩) h3⟩
  | @unknown _ n r o hn hs hu _ ih =>
    obtain ⟨k, l, h1, h2, h3⟩ := ih
    refine ⟨k, .ref n :: l, hcons hn h1, by rw [← h2]; rfl, .ref (Or.inr ⟨hs, means_le (Nat.zero_le k) (Or.inl ⟨hu, rfl⟩)⟩) h3⟩
  | @name _ n t r o hn hs hu hf hd _ ih =>
    obtain ⟨k, l, h1, h2, h3⟩ := ih
    exact ⟨k, .ref n :: l, hcons hn h1, by rw [← h2]; rfl,
      .ref (Or.inr ⟨hs, means_le (Nat.zero_le k) (Or.inr ⟨hu, hf, hd⟩)⟩) h3⟩
  | @defined _ n t v r o hn hs hd hc _ _ iht ih =>
    obtain ⟨k, l, h1, h2, h3⟩ := ih
    obtain ⟨k', l', h1', h2', h3'⟩ := iht
    refine ⟨max k (k' + 1), .ref n :: l, hcons hn h1, by rw [← h2]; rfl, .ref (Or.inr ⟨hs, ?_⟩) (h3.mono (hmax (by omega)))⟩
    refine means_le (Nat.le_max_right _ _) (Or.inr (Or.inr ⟨t, l', hd, hc, h1', h2', h3'.mono ?_⟩))
    rintro n r (⟨h, _⟩ | ⟨_, h⟩)
    · cases h
    · exact h

/-! ## the loop of `ExpandTerm` -/

theorem defined_not_undefined {W : World} {s : Stash} {file n t : Str} (h : Defined W s file n t) (hu : Undefined s file n) :
    False := by
  cases h with
  | assigned h _ => obtain ⟨_, _, _, h, _⟩ := h; exact hu.1 _ h
  | base _ h2 h3 =>
    have h4 := hu.2 _ h2
    simp [J.has, h3] at h4

theorem sourceOf_defined {W : World} {s : Stash} {b : J} {file n q t : Str} (hb : setsBase s.consts = .ok b) (hn : n ≠ [])
    (h : Defined W s file n t) : sourceOf W s b file n q = .ok (.text t) := by
  cases h with
  | @assigned x v h hp =>
    obtain ⟨pre, post, h1, h2, h3⟩ := h
    have hpre : pre.filterMap asAssignment = [] := by
      rw [List.filterMap_eq_nil_iff]
      intro y hy
      have hmem : y ∈ getItemsFor W s (varFilter file n) := by rw [h1]; simp [hy]
      cases hy' : asAssignment y with
      | none => rfl
      | some p =>
        unfold asAssignment at hy'
        split at hy'
        · rename_i v' hp'
          split at hy'
          rotate_left
          · cases hy'
          rename_i ha
          exfalso
          apply h3 y hy
          have : (y, v') ∈ assignments W s file n := by
            unfold assignments
            rw [List.mem_filterMap]
            exact ⟨y, hmem, by simp only [asAssignment, hp']; rw [if_pos ha]⟩
          exact ((mem_assignments hn).1 this).2
        · cases hy'
    obtain ⟨v', hp', hv, ha⟩ := h2.2.2
    rw [hp] at hp'
    cases hp'
    have hx : assignments W s file n = (x, v) :: post.filterMap asAssignment := by
      unfold assignments
      rw [h1, List.filterMap_append, hpre, List.nil_append, List.filterMap_cons]
      simp only [asAssignment, hp]
      rw [ha]
      rfl
    unfold sourceOf
    rw [hx]
  | base h1 h2 h3 =>
    rw [h2] at hb
    cases hb
    unfold sourceOf
    rw [(assignments_nil hn).2 h1]
    simp [J.has, h3]

theorem sourceOf_name {W : World} {s : Stash} {b : J} {file n t : Str} (hb : setsBase s.consts = .ok b) (hn : n ≠ [])
    (h : Undefined s file n) (hf : FromFileName file n t) : sourceOf W s b file n [] = .ok (.lit t) := by
  unfold sourceOf
  rw [(assignments_nil hn).2 h.1]
  simp only [h.2 b hb]
  cases hf with
  | pn => simp
  | bpn => simp
  | pv h1 h2 => simp [h1, h2]
  | pvDefault h1 => rcases h1 with h1 | h1 <;> simp [h1]
  | file => simp
  | thisdir => simp

theorem defined_unique {W : World} {s : Stash} {b : J} {file n t t' : Str} (hb : setsBase s.consts = .ok b) (hn : n ≠ [])
    (h : Defined W s file n t) (h' : Defined W s file n t') : t = t' := by
  have h1 := sourceOf_defined (q := []) hb hn h
  rw [sourceOf_defined hb hn h'] at h1
  cases h1
  rfl

theorem name_unique {W : World} {s : Stash} {b : J} {file n t t' : Str} (hb : setsBase s.consts = .ok b) (hn : n ≠ [])
    (h : Undefined s file n) (hf : FromFileName file n t) (hf' : FromFileName file n t') : t = t' := by
  have h1 := sourceOf_name (W := W) hb hn h hf
  rw [sourceOf_name hb hn h hf'] at h1
  cases h1
  rfl

theorem unknown_undefined {s : Stash} {file n : Str} (h : Unknown s file n) : Undefined s file n := ⟨h.1, h.2.1⟩

theorem fromFileName_mem {file n t : Str} (h : FromFileName file n t) : n ∈ [c!"PN", c!"BPN", c!"PV", c!"FILE", c!"THISDIR"] := by
  cases h <;> simp

/-- two sequences of pieces for the same text have the same meaning when names have -/
theorem pieces_subst {S : Str → Str → Prop} (σ : Str → Str) (hS : ∀ n r, S n r → r = σ n) {l : List Seg} {o : Str}
    (h : Pieces S l o) : o = l.flatMap (fun x => match x with | .text t => t | .ref n => σ n) := by
  induction h with
  | nil => rfl
  | text _ ih => rw [List.flatMap_cons, ← ih]
  | ref hs _ ih => rw [List.flatMap_cons, ← ih, hS _ _ hs]

/-- replace every reference of a text, from left to right -/
def substGo (σ : Str → Str) : Nat → Str → Str
  | _, [] => []
  | k + 1, _ :: t => substGo σ k t
  | 0, c :: t => match refAt (c :: t) with
    | some n => σ n ++ substGo σ (n.length + 2) t
    | none => c :: substGo σ 0 t

theorem substGo_skip (σ : Str → Str) (a b : Str) : substGo σ a.length (a ++ b) = substGo σ 0 b := by
  induction a with
  | nil => rfl
  | cons c a ih => rw [List.cons_append, List.length_cons, substGo, ih]

theorem substGo_render (σ : Str → Str) (l : List Seg) (hl : ∀ x ∈ l, x.Plain) :
    substGo σ 0 (renderS l) = l.flatMap (fun x => match x with | .text t => t | .ref n => σ n) := by
  induction l with
  | nil => rfl
  | cons x l ih =>
    have ih := ih (fun y hy => hl y (by simp [hy]))
    have hx := hl x (by simp)
    rw [List.flatMap_cons, ← ih]
    cases x with
    | text t =>
      show substGo σ 0 (t ++ renderS l) = t ++ _
      have hx : PlainText t := hx
      clear hl ih
      induction t with
      | nil => rfl
      | cons c t iht =>
        have hn : refAt (c :: (t ++ renderS l)) = none := refAt_none (show ¬ c!"${" <+: c :: (t ++ renderS l) from hx.not_open _)
        rw [List.cons_append, substGo, hn]
        simp only [List.cons_append]
        rw [iht hx.tail hx.tail]
    | ref n =>
      have hx : Name n := hx
      show substGo σ 0 (refText n ++ renderS l) = σ n ++ _
      have hm := refAt_refText (renderS l) hx.ne (fun h => hx.noBrace (List.mem_of_mem_tail h)) hx.noNewline
      have he : refText n ++ renderS l = '$' :: ('{' :: (n ++ ['}']) ++ renderS l) := by simp [refText]
      rw [he] at hm ⊢
      rw [substGo, hm]
      have hk : n.length + 2 = ('{' :: (n ++ ['}'])).length := by simp
      simp only
      rw [hk, substGo_skip]

/-- the meaning of a name is unique -/
theorem means_unique {W : World} {s : Stash} {b : J} {file : Str} (hb : setsBase s.consts = .ok b) {h h' : Nat} {n r r' : Str}
    (hn : n ≠ []) (hm : Means W s file h n r) (hm' : Means W s file h' n r') : r = r' := by
  have key : ∀ h n r r', n ≠ [] → Means W s file h n r → Means W s file h n r' → r = r' := by
    intro h
    induction h with
    | zero =>
      rintro n r r' hn (⟨h1, rfl⟩ | ⟨h1, h2, -⟩) (⟨h3, rfl⟩ | ⟨h3, h4, -⟩)
      · rfl
      · exact absurd (fromFileName_mem h4) h1.2.2
      · exact absurd (fromFileName_mem h2) h3.2.2
      · exact name_unique (W := W) hb hn h1 h2 h4
    | succ h ih =>
      rintro n r r' hn (⟨h1, rfl⟩ | ⟨h1, h2, -⟩ | ⟨t, l, h1, h2, h3, h4, h5⟩)
        (⟨h1', rfl⟩ | ⟨h1', h2', -⟩ | ⟨t', l', h1', h2', h3', h4', h5'⟩)
      · rfl
      · exact absurd (fromFileName_mem h2') h1.2.2
      · exact (defined_not_undefined h1' (unknown_undefined h1)).elim
      · exact absurd (fromFileName_mem h2) h1'.2.2
      · exact name_unique (W := W) hb hn h1 h2 h2'
      · exact (defined_not_undefined h1' h1).elim
      · exact (defined_not_undefined h1 (unknown_undefined h1')).elim
      · exact (defined_not_undefined h1 h1').elim
      · have ht := defined_unique hb hn h1 h1'
        subst ht
        classical
        let σ : Str → Str := fun m => if hx : ∃ r, m ≠ [] ∧ Means W s file h m r then hx.choose else []
        have hσ : ∀ m r, (m ≠ [] ∧ Means W s file h m r) → r = σ m := by
          intro m r hm
          have hx : ∃ r, m ≠ [] ∧ Means W s file h m r := ⟨r, hm⟩
          show r = if hx : ∃ r, m ≠ [] ∧ Means W s file h m r then hx.choose else []
          rw [dif_pos hx]
          exact ih m _ _ hm.1 hm.2 hx.choose_spec.2
        have hp : ∀ (l : List Seg) (o : Str), (∀ x ∈ l, x.Plain) → Pieces (Means W s file h) l o →
            Pieces (fun m r => m ≠ [] ∧ Means W s file h m r) l o := by
          intro l o hl hp
          induction hp with
          | nil => exact .nil
          | text _ ih => exact .text (ih (fun y hy => hl y (by simp [hy])))
          | @ref n r o l hs _ ih =>
            have : Name n := hl _ (List.mem_cons_self)
            exact .ref ⟨this.ne, hs⟩ (ih (fun y hy => hl y (by simp [hy])))
        rw [pieces_subst σ hσ (hp _ _ h3 h5), pieces_subst σ hσ (hp _ _ h3' h5'), ← substGo_render σ l h3,
          ← substGo_render σ l' h3', h4, h4']
  exact key (max h h') n r r' hn (means_le (Nat.le_max_left _ _) hm) (means_le (Nat.le_max_right _ _) hm')

/-- the meaning of a name consists of plain text and references to unknown names -/
theorem means_segs {W : World} {s : Stash} {file : Str} {h : Nat} {n r : Str} (hn : Name n) (hm : Means W s file h n r) :
    ∃ l, (∀ x ∈ l, x.Plain) ∧ renderS l = r ∧ ∀ m ∈ refsS l, Unknown s file m := by
  have hname : ∀ {n}, Name n → Unknown s file n → r = refText n →
      ∃ l, (∀ x ∈ l, x.Plain) ∧ renderS l = r ∧ ∀ m ∈ refsS l, Unknown s file m := by
    intro n hn hu hr
    refine ⟨[.ref n], by simpa [Seg.Plain] using hn, by simp [renderS, Seg.render, hr], ?_⟩
    simpa [refsS] using hu
  have hlit : '$' ∉ r → ∃ l, (∀ x ∈ l, x.Plain) ∧ renderS l = r ∧ ∀ m ∈ refsS l, Unknown s file m := by
    intro hd
    refine ⟨[.text r], by simpa [Seg.Plain] using plainText_of_not_mem hd, by simp [renderS, Seg.render], by simp [refsS]⟩
  induction h generalizing n r with
  | zero =>
    rcases hm with ⟨h1, h2⟩ | ⟨h1, h2, h3⟩
    · exact hname hn h1 h2
    · exact hlit h3
  | succ h ih =>
    rcases hm with ⟨h1, h2⟩ | ⟨h1, h2, h3⟩ | ⟨t, l, h1, h2, h3, h4, h5⟩
    · exact hname hn h1 h2
    · exact hlit h3
    · clear h4 h1 h2 hname hlit hn
      induction h5 with
      | nil => exact ⟨[], by simp, rfl, by simp [refsS]⟩
      | @text t o l _ ihp =>
        obtain ⟨l', g1, g2, g3⟩ := ihp (fun y hy => h3 y (by simp [hy]))
        refine ⟨.text t :: l', ?_, by rw [← g2]; rfl, by simpa [refsS] using g3⟩
        intro x hx
        rcases List.mem_cons.1 hx with rfl | hx
        · exact h3 _ (by simp)
        · exact g1 x hx
      | @ref n r o l hs _ ihp =>
        obtain ⟨l', g1, g2, g3⟩ := ihp (fun y hy => h3 y (by simp [hy]))
        have hn : Name n := h3 _ (List.mem_cons_self)
        obtain ⟨l1, f1, f2, f3⟩ := ih hn hs
          (fun {n} hn hu hr => ⟨[.ref n], by simpa [Seg.Plain] using hn, by simp [renderS, Seg.render, hr], by simpa [refsS] using hu⟩)
          (fun hd => ⟨[.text r], by simpa [Seg.Plain] using plainText_of_not_mem hd, by simp [renderS, Seg.render], by simp [refsS]⟩)
        refine ⟨l1 ++ l', ?_, by rw [renderS_append, f2, g2], ?_⟩
        · intro x hx
          rcases List.mem_append.1 hx with hx | hx
          · exact f1 x hx
          · exact g1 x hx
        · intro m hm
          unfold refsS at hm
          rw [List.filterMap_append] at hm
          rcases List.mem_append.1 hm with hm | hm
          · exact f3 m hm
          · exact g3 m hm

end Oelint

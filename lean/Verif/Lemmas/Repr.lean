import Verif.Spec.Fingerprint
/-! `str(item)` can be read back (C96). -/
set_option linter.unusedSectionVars false
set_option linter.unusedSimpArgs false
namespace Oelint
variable [Uni]
open Spec

/-! ## one character -/

/-- the value of a hexadecimal digit -/
def hexOf (c : Char) : Nat := if c.toNat < 58 then c.toNat - 48 else c.toNat - 87

theorem hexOf_hexChar {n : Nat} (h : n < 16) : hexOf (hexChar n) = n := by
  have : ∀ n < 16, hexOf (hexChar n) = n := by decide +kernel
  exact this n h

/-- the value of a hexadecimal number -/
def hexVals (l : Str) : Nat := l.foldl (fun a c => a * 16 + hexOf c) 0

theorem hexVals_hexN (w n : Nat) (h : n < 16 ^ w) : hexVals (hexN w n) = n := by
  induction w generalizing n with
  | zero => simp at h; subst h; rfl
  | succ w ih =>
    have h1 : n / 16 < 16 ^ w := Nat.div_lt_of_lt_mul (by rw [Nat.pow_succ] at h; omega)
    have h2 := ih _ h1
    unfold hexVals at h2 ⊢
    rw [hexN, List.foldl_append, h2]
    simp only [List.foldl_cons, List.foldl_nil]
    rw [hexOf_hexChar (Nat.mod_lt _ (by omega))]
    omega

theorem length_hexN (w n : Nat) : (hexN w n).length = w := by
  induction w generalizing n with
  | zero => rfl
  | succ w ih => simp [hexN, ih]

/-- the first character of the inside of a shown string, and the rest -/
def readChar : Str → Option (Char × Str)
  | '\\' :: c :: r =>
    if c = 't' then some ('\t', r)
    else if c = 'n' then some ('\n', r)
    else if c = 'r' then some ('\r', r)
    else if c = 'x' then some (Char.ofNat (hexVals (r.take 2)), r.drop 2)
    else if c = 'u' then some (Char.ofNat (hexVals (r.take 4)), r.drop 4)
    else if c = 'U' then some (Char.ofNat (hexVals (r.take 8)), r.drop 8)
    else some (c, r)
  | c :: r => some (c, r)
  | [] => none

theorem take_hexN (w n : Nat) (r : Str) : (hexN w n ++ r).take w = hexN w n := by
  rw [List.take_left' (length_hexN w n)]

theorem drop_hexN (w n : Nat) (r : Str) : (hexN w n ++ r).drop w = r := by
  rw [List.drop_left' (length_hexN w n)]

theorem readChar_reprChar (p : Char → Bool) {q : Char} (hq : q = '\'' ∨ q = '"') (c : Char) (r : Str) :
    readChar (reprChar p q c ++ r) = some (c, r) := by
  unfold reprChar
  split
  · rename_i h
    have hc : c = '\\' ∨ c = '\'' ∨ c = '"' := by
      simp at h
      rcases h with h | h
      · exact .inl h
      · rcases hq with hq | hq <;> rw [hq] at h
        · exact .inr (.inl h)
        · exact .inr (.inr h)
    rcases hc with rfl | rfl | rfl <;> rfl
  · rename_i h0
    have hb : c ≠ '\\' := by rintro rfl; simp at h0
    split
    · rename_i h; simp at h; subst h; rfl
    split
    · rename_i h; simp at h; subst h; rfl
    split
    · rename_i h; simp at h; subst h; rfl
    have hx : ∀ w, c.toNat < 16 ^ w → Char.ofNat (hexVals (hexN w c.toNat)) = c := fun w hw => by
      rw [hexVals_hexN _ _ hw, Char.ofNat_toNat]
    split
    · rename_i h
      have hlt : c.toNat < 16 ^ 2 := by simp at h; omega
      simp only [List.cons_append, List.nil_append, readChar]
      simp only [take_hexN, drop_hexN, hx 2 hlt]; rfl
    split
    · cases hr : [c] ++ r with
      | nil => cases hr
      | cons d r' =>
        simp only [List.cons_append, List.nil_append, List.cons.injEq] at hr
        obtain ⟨rfl, rfl⟩ := hr
        rw [readChar]
        intro c' r1 hc'
        exact absurd hc' hb
    split
    · rename_i h
      simp only [List.cons_append, List.nil_append, readChar]
      simp only [take_hexN, drop_hexN, hx 2 (by omega)]; rfl
    split
    · rename_i h
      simp only [List.cons_append, List.nil_append, readChar]
      simp only [take_hexN, drop_hexN, hx 4 (by omega)]; rfl
    · simp only [List.cons_append, List.nil_append, readChar]
      have : c.toNat < 16 ^ 8 := by
        have := c.valid
        have h2 : c.toNat < 1114112 := by
          rcases this with h | h
          · have : c.toNat < 55296 := h
            omega
          · exact h.2
        omega
      simp only [take_hexN, drop_hexN, hx 8 this]; rfl

theorem reprChar_inj {p p' : Char → Bool} {q : Char} (hq : q = '\'' ∨ q = '"') {c d : Char} {r r' : Str}
    (h : reprChar p q c ++ r = reprChar p' q d ++ r') : c = d ∧ r = r' := by
  have h1 := readChar_reprChar p hq c r
  rw [h, readChar_reprChar p' hq d r'] at h1
  simp only [Option.some.injEq, Prod.mk.injEq] at h1
  exact ⟨h1.1.symm, h1.2.symm⟩

theorem reprChar_head (p : Char → Bool) {q : Char} (hq : q = '\'' ∨ q = '"') (c : Char) : ∃ a t, reprChar p q c = a :: t ∧ a ≠ q := by
  have hb : '\\' ≠ q := by rcases hq with rfl | rfl <;> decide
  unfold reprChar
  split
  · exact ⟨_, _, rfl, hb⟩
  · rename_i h
    have hc : c ≠ q := by simp at h; exact h.2
    split
    · exact ⟨_, _, rfl, hb⟩
    split
    · exact ⟨_, _, rfl, hb⟩
    split
    · exact ⟨_, _, rfl, hb⟩
    split
    · exact ⟨_, _, rfl, hb⟩
    split
    · exact ⟨_, _, rfl, hc⟩
    split
    · exact ⟨_, _, rfl, hb⟩
    split <;> exact ⟨_, _, rfl, hb⟩

/-! ## strings and numbers -/

theorem reprBody_inj {p p' : Char → Bool} {q : Char} (hq : q = '\'' ∨ q = '"') (s t : Str) {r r' : Str}
    (h : (s.map (reprChar p q)).flatten ++ q :: r = (t.map (reprChar p' q)).flatten ++ q :: r') : s = t ∧ r = r' := by
  induction s generalizing t with
  | nil =>
    cases t with
    | nil => simpa using h
    | cons d t =>
      obtain ⟨a, u, e, ha⟩ := reprChar_head p' hq d
      simp only [List.map_cons, List.flatten_cons, List.map_nil, List.flatten_nil, List.nil_append, e, List.cons_append, List.cons.injEq] at h
      exact absurd h.1.symm ha
  | cons c s ih =>
    cases t with
    | nil =>
      obtain ⟨a, u, e, ha⟩ := reprChar_head p hq c
      simp only [List.map_cons, List.flatten_cons, List.map_nil, List.flatten_nil, List.nil_append, e, List.cons_append, List.cons.injEq] at h
      exact absurd h.1 ha
    | cons d t =>
      simp only [List.map_cons, List.flatten_cons, List.append_assoc] at h
      obtain ⟨h1, h2⟩ := reprChar_inj hq h
      obtain ⟨h3, h4⟩ := ih t h2
      exact ⟨by rw [h1, h3], h4⟩

theorem reprQuote_cases (s : Str) : reprQuote s = '\'' ∨ reprQuote s = '"' := by
  unfold reprQuote
  split
  · exact .inr rfl
  · exact .inl rfl

theorem reprStr_inj {p p' : Char → Bool} {s t r r' : Str} (h : reprStr p s ++ r = reprStr p' t ++ r') : s = t ∧ r = r' := by
  unfold reprStr at h
  simp only [List.cons_append, List.nil_append, List.append_assoc, List.cons.injEq] at h
  obtain ⟨h1, h2⟩ := h
  rw [← h1] at h2
  exact reprBody_inj (reprQuote_cases s) s t h2

theorem reprStr_head (p : Char → Bool) (s : Str) : ∃ t, reprStr p s = '\'' :: t ∨ reprStr p s = '"' :: t := by
  unfold reprStr
  rcases reprQuote_cases s with h | h <;> rw [h]
  · exact ⟨_, .inl rfl⟩
  · exact ⟨_, .inr rfl⟩

/-- the text does not go on with a digit -/
def NoDigit (r : Str) : Prop := ∀ c t, r = c :: t → c.isDigit = false

theorem digits_inj {n m : Nat} {r r' : Str} (hr : NoDigit r) (hr' : NoDigit r')
    (h : Nat.toDigits 10 n ++ r = Nat.toDigits 10 m ++ r') : n = m ∧ r = r' := by
  have key : ∀ (k : Nat) (u : Str), NoDigit u → (Nat.toDigits 10 k ++ u).takeWhile Char.isDigit = Nat.toDigits 10 k := by
    intro k u hu
    rw [List.takeWhile_append_of_pos]
    · have : u.takeWhile Char.isDigit = [] := by
        cases u with
        | nil => rfl
        | cons c u => rw [List.takeWhile_cons, hu c u rfl]; rfl
      rw [this, List.append_nil]
    · intro c hc
      exact Nat.isDigit_of_mem_toDigits (by decide) (by decide) hc
  have e : Nat.toDigits 10 n = Nat.toDigits 10 m := by rw [← key n r hr, h, key m r' hr']
  refine ⟨?_, by rw [e] at h; exact List.append_cancel_left h⟩
  rw [← Nat.ofDigitChars_ten_toDigits (n := n), e, Nat.ofDigitChars_ten_toDigits]

theorem digits_head (n : Nat) (r : Str) : ∃ c t, Nat.toDigits 10 n ++ r = c :: t ∧ c.isDigit = true := by
  cases h : Nat.toDigits 10 n with
  | nil => exact absurd h Nat.toDigits_ne_nil
  | cons c t => exact ⟨c, t ++ r, rfl, Nat.isDigit_of_mem_toDigits (b := 10) (n := n) (by decide) (by decide) (by rw [h]; exact List.mem_cons_self)⟩

theorem reprInt_inj {i j : Int} {r r' : Str} (hr : NoDigit r) (hr' : NoDigit r') (h : reprInt i ++ r = reprInt j ++ r') :
    i = j ∧ r = r' := by
  unfold reprInt at h
  split at h <;> split at h
  · simp only [List.cons_append, List.cons.injEq, true_and] at h
    obtain ⟨h1, h2⟩ := digits_inj hr hr' h
    exact ⟨by omega, h2⟩
  · obtain ⟨c, t, e, hc⟩ := digits_head j.natAbs r'
    rw [e, List.cons_append] at h
    simp only [List.cons.injEq] at h
    rw [← h.1] at hc; exact absurd hc (by decide)
  · obtain ⟨c, t, e, hc⟩ := digits_head i.natAbs r
    rw [e, List.cons_append] at h
    simp only [List.cons.injEq] at h
    rw [h.1] at hc; exact absurd hc (by decide)
  · obtain ⟨h1, h2⟩ := digits_inj hr hr' h
    exact ⟨by omega, h2⟩

/-! ## collections -/

/-- the elements of a collection can be told apart -/
theorem reprSeq_inj {α β : Type} {f : α → Str} {g : β → Str} {R : α → β → Prop} {c : Char} (hc : c ≠ ',')
    (hf : ∀ a, ∃ x t, f a = x :: t ∧ x ≠ c) (hg : ∀ b, ∃ x t, g b = x :: t ∧ x ≠ c)
    (hR : ∀ a b r r', f a ++ r = g b ++ r' → R a b ∧ r = r') (l : List α) (l' : List β) {r r' : Str}
    (h : reprSeq (l.map f) ++ c :: r = reprSeq (l'.map g) ++ c :: r') : List.Forall₂ R l l' ∧ r = r' := by
  induction l generalizing l' with
  | nil =>
    cases l' with
    | nil => simp [reprSeq, joinS] at h; exact ⟨.nil, h⟩
    | cons b l' =>
      obtain ⟨x, t, e, hx⟩ := hg b
      cases l' with
      | nil =>
        simp only [reprSeq, joinS, List.map_cons, List.map_nil, e, List.nil_append, List.cons_append, List.cons.injEq] at h
        exact absurd h.1.symm hx
      | cons b' l' =>
        simp only [reprSeq, joinS, List.map_cons, List.map_nil, e, List.nil_append, List.cons_append, List.cons.injEq] at h
        exact absurd h.1.symm hx
  | cons a l ih =>
    cases l' with
    | nil =>
      obtain ⟨x, t, e, hx⟩ := hf a
      cases l with
      | nil =>
        simp only [reprSeq, joinS, List.map_cons, List.map_nil, e, List.nil_append, List.cons_append, List.cons.injEq] at h
        exact absurd h.1 hx
      | cons b' l' =>
        simp only [reprSeq, joinS, List.map_cons, List.map_nil, e, List.nil_append, List.cons_append, List.cons.injEq] at h
        exact absurd h.1 hx
    | cons b l' =>
      cases l with
      | nil =>
        cases l' with
        | nil =>
          simp only [reprSeq, joinS, List.map_cons, List.map_nil] at h
          obtain ⟨h1, h2⟩ := hR _ _ _ _ h
          simp only [List.cons.injEq, true_and] at h2
          exact ⟨.cons h1 .nil, h2⟩
        | cons b' l' =>
          simp only [reprSeq, joinS, List.map_cons, List.map_nil, List.append_assoc] at h
          obtain ⟨h1, h2⟩ := hR _ _ _ _ h
          simp only [List.cons_append, List.cons.injEq] at h2
          exact absurd h2.1 hc
      | cons a' l =>
        cases l' with
        | nil =>
          simp only [reprSeq, joinS, List.map_cons, List.map_nil, List.append_assoc] at h
          obtain ⟨h1, h2⟩ := hR _ _ _ _ h
          simp only [List.cons_append, List.cons.injEq] at h2
          exact absurd h2.1.symm hc
        | cons b' l' =>
          have h' : f a ++ (c!", " ++ (reprSeq ((a' :: l).map f) ++ c :: r)) = g b ++ (c!", " ++ (reprSeq ((b' :: l').map g) ++ c :: r')) := by
            simpa only [reprSeq, joinS, List.map_cons, List.append_assoc] using h
          obtain ⟨h1, h2⟩ := hR _ _ _ _ h'
          obtain ⟨h3, h4⟩ := ih (b' :: l') (List.append_cancel_left h2)
          exact ⟨.cons h1 h3, h4⟩

theorem reprStr_ne (p : Char → Bool) {c : Char} (h : c ≠ '\'' ∧ c ≠ '"') (s : Str) : ∃ x t, reprStr p s = x :: t ∧ x ≠ c := by
  obtain ⟨t, e | e⟩ := reprStr_head p s
  · exact ⟨_, t, e, fun h' => h.1 h'.symm⟩
  · exact ⟨_, t, e, fun h' => h.2 h'.symm⟩

theorem reprStrs_inj {p p' : Char → Bool} {c : Char} (hc : c ≠ ',') (h1 : c ≠ '\'' ∧ c ≠ '"') {l l' : List Str} {r r' : Str}
    (h : reprSeq (l.map (reprStr p)) ++ c :: r = reprSeq (l'.map (reprStr p')) ++ c :: r') : l = l' ∧ r = r' := by
  obtain ⟨h2, h3⟩ := reprSeq_inj (R := fun a b => a = b) hc (reprStr_ne p h1) (reprStr_ne p' h1)
    (fun a b r r' he => reprStr_inj he) l l' h
  exact ⟨List.forall₂_eq_eq_eq ▸ h2, h3⟩

/-! ## attributes -/

/-- values of the same kind -/
def SameKind : Attr → Attr → Prop
  | .str _, .str _ | .int _, .int _ | .bool _, .bool _ | .strs _, .strs _ | .strset _, .strset _ | .pairs _, .pairs _ => True
  | _, _ => False

theorem attrRepr_inj {p p' : Char → Bool} {o o' : List Str → List Str} (ho : ∀ l, (o l).Perm l) (ho' : ∀ l, (o' l).Perm l)
    {name : Str} {a b : Attr} (hk : SameKind a b) {r r' : Str} (hr : NoDigit r) (hr' : NoDigit r')
    (h : a.repr p o name ++ r = b.repr p' o' name ++ r') : Agrees a b ∧ r = r' := by
  cases a <;> cases b <;> first | exact absurd hk id | skip
  case str.str s t =>
    obtain ⟨h1, h2⟩ := reprStr_inj h
    exact ⟨by rw [h1]; rfl, h2⟩
  case int.int i j =>
    obtain ⟨h1, h2⟩ := reprInt_inj hr hr' h
    exact ⟨by rw [h1]; rfl, h2⟩
  case bool.bool b c =>
    cases b <;> cases c <;> simp [Attr.repr] at h
    · exact ⟨rfl, h⟩
    · exact ⟨rfl, h⟩
  case strs.strs l l' =>
    simp only [Attr.repr, List.cons_append, List.nil_append, List.append_assoc, List.cons.injEq, true_and] at h
    obtain ⟨h1, h2⟩ := reprStrs_inj (by decide) (by decide) h
    exact ⟨by rw [h1]; rfl, h2⟩
  case strset.strset l l' =>
    simp only [Attr.repr] at h
    have hnil : ∀ (o : List Str → List Str), (∀ l, (o l).Perm l) → o [] = [] := fun o ho => List.Perm.eq_nil (ho [])
    split at h <;> split at h
    · rename_i h1 h2
      simp only [Bool.and_eq_true, List.isEmpty_iff] at h1 h2
      rw [h1.1, h2.1]
      exact ⟨List.Perm.refl _, List.append_cancel_left h⟩
    · rename_i h1 h2; simp at h
    · rename_i h1 h2; simp at h
    · simp only [Attr.repr, List.cons_append, List.nil_append, List.append_assoc, List.cons.injEq, true_and] at h
      obtain ⟨h1, h2⟩ := reprStrs_inj (by decide) (by decide) h
      exact ⟨((ho l).symm.trans (h1 ▸ List.Perm.refl _)).trans (ho' l'), h2⟩
  case pairs.pairs l l' =>
    simp only [Attr.repr, List.cons_append, List.nil_append, List.append_assoc, List.cons.injEq, true_and] at h
    obtain ⟨h1, h2⟩ := reprSeq_inj (R := fun a b => a = b) (by decide) (fun a => ⟨_, _, rfl, by decide⟩) (fun a => ⟨_, _, rfl, by decide⟩)
      (fun a b r r' he => by
        simp only [List.cons_append, List.nil_append, List.append_assoc, List.cons.injEq, true_and] at he
        obtain ⟨h1, h2⟩ := reprStr_inj he
        simp only [List.cons_append, List.nil_append, List.append_assoc, List.cons.injEq, true_and] at h2
        obtain ⟨h3, h4⟩ := reprStr_inj h2
        simp only [List.cons_append, List.nil_append, List.cons.injEq, true_and] at h4
        exact ⟨Prod.ext h1 h3, h4⟩) l l' h
    have h1 : l = l' := List.forall₂_eq_eq_eq ▸ h1
    exact ⟨by rw [h1]; rfl, h2⟩

/-- one entry of the dictionary of attributes as it is shown -/
def reprEntry (p : Char → Bool) (o : List Str → List Str) (a : Str × Attr) : Str := reprStr p a.1 ++ c!": " ++ a.2.repr p o a.1

theorem reprEntry_inj {p p' : Char → Bool} {o o' : List Str → List Str} (ho : ∀ l, (o l).Perm l) (ho' : ∀ l, (o' l).Perm l)
    {a b : Str × Attr} (hk : SameKind a.2 b.2) {r r' : Str} (hr : NoDigit r) (hr' : NoDigit r')
    (h : reprEntry p o a ++ r = reprEntry p' o' b ++ r') : (a.1 = b.1 ∧ Agrees a.2 b.2) ∧ r = r' := by
  unfold reprEntry at h
  simp only [List.append_assoc] at h
  obtain ⟨h1, h2⟩ := reprStr_inj h
  have h2 := List.append_cancel_left h2
  rw [← h1] at h2
  obtain ⟨h3, h4⟩ := attrRepr_inj ho ho' hk hr hr' h2
  exact ⟨⟨h1, h3⟩, h4⟩

theorem reprDict_inj {p p' : Char → Bool} {o o' : List Str → List Str} (ho : ∀ l, (o l).Perm l) (ho' : ∀ l, (o' l).Perm l)
    {l l' : List (Str × Attr)} (hk : List.Forall₂ (fun a b => SameKind a.2 b.2) l l') {r r' : Str}
    (h : reprSeq (l.map (reprEntry p o)) ++ '}' :: r = reprSeq (l'.map (reprEntry p' o')) ++ '}' :: r') :
    List.Forall₂ (fun a b => a.1 = b.1 ∧ Agrees a.2 b.2) l l' ∧ r = r' := by
  have hbr : ∀ r : Str, NoDigit ('}' :: r) := fun r c t e => by cases e; decide
  have hcm : ∀ r : Str, NoDigit (',' :: r) := fun r c t e => by cases e; decide
  induction hk with
  | nil => simp [reprSeq, joinS] at h; exact ⟨.nil, h⟩
  | @cons a b l l' hab hl ih =>
    cases hl with
    | nil =>
      simp only [reprSeq, joinS, List.map_cons, List.map_nil] at h
      obtain ⟨h1, h2⟩ := reprEntry_inj ho ho' hab (hbr _) (hbr _) h
      simp only [List.cons.injEq, true_and] at h2
      exact ⟨.cons h1 .nil, h2⟩
    | @cons a' b' l l' hab' hl =>
      have h' : reprEntry p o a ++ (',' :: ' ' :: (reprSeq ((a' :: l).map (reprEntry p o)) ++ '}' :: r)) =
          reprEntry p' o' b ++ (',' :: ' ' :: (reprSeq ((b' :: l').map (reprEntry p' o')) ++ '}' :: r')) := by
        simpa only [reprSeq, joinS, List.map_cons, List.append_assoc, List.cons_append, List.nil_append] using h
      obtain ⟨h1, h2⟩ := reprEntry_inj ho ho' hab (hcm _) (hcm _) h'
      simp only [List.cons.injEq, true_and] at h2
      obtain ⟨h3, h4⟩ := ih h2
      exact ⟨.cons h1 h3, h4⟩

/-! ## items -/

theorem classifier_noBlank (p : Payload) : ' ' ∉ p.classifier := by
  cases p <;> simp [Payload.classifier]

theorem sameKinds {x y : Item} (h : x.payload.classifier = y.payload.classifier) :
    List.Forall₂ (fun a b => SameKind a.2 b.2) x.getAttributes y.getAttributes := by
  obtain ⟨_, _, _, _, _, _, _, _, _, p⟩ := x
  obtain ⟨_, _, _, _, _, _, _, _, _, q⟩ := y
  simp only at h
  cases p <;> cases q <;> first
    | (exfalso; simp [Payload.classifier] at h; done)
    | (unfold Item.getAttributes ownAttributes baseAttributes
       simp only [List.cons_append, List.nil_append]
       repeat' constructor)

theorem itemRepr_inj {p p' : Char → Bool} {o o' : List Str → List Str} (ho : ∀ l, (o l).Perm l) (ho' : ∀ l, (o' l).Perm l)
    {x y : Item} {r r' : Str} (h : x.repr p o ++ r = y.repr p' o' ++ r') : SameContent x y ∧ r = r' := by
  unfold Item.repr at h
  have hc : x.payload.classifier = y.payload.classifier := by
    have key : ∀ (p : Payload) (u : Str), (p.classifier ++ ' ' :: u).takeWhile (· != ' ') = p.classifier := by
      intro p u
      rw [List.takeWhile_append_of_pos]
      · simp
      · intro c hc
        simp only [bne_iff_ne, ne_eq]
        rintro rfl
        exact classifier_noBlank p hc
    simp only [List.append_assoc, List.cons_append, List.nil_append] at h
    rw [← key x.payload _, h, key]
  rw [← hc] at h
  rw [List.append_assoc, List.append_assoc, List.append_assoc, List.append_assoc, List.append_assoc, List.append_assoc] at h
  have h := List.append_cancel_left (List.append_cancel_left h)
  obtain ⟨h1, h2⟩ := reprDict_inj ho ho' (sameKinds hc) (r := '\n' :: r) (r' := '\n' :: r') h
  simp only [List.cons.injEq, true_and] at h2
  exact ⟨⟨hc, h1⟩, h2⟩

theorem itemRepr_ne (p : Char → Bool) (o : List Str → List Str) (x : Item) : x.repr p o ≠ [] := by
  unfold Item.repr; simp

theorem itemsRepr_inj {p p' : Char → Bool} {o o' : List Str → List Str} (ho : ∀ l, (o l).Perm l) (ho' : ∀ l, (o' l).Perm l)
    {l l' : List Item} (h : (l.map (Item.repr p o)).flatten = (l'.map (Item.repr p' o')).flatten) : List.Forall₂ SameContent l l' := by
  induction l generalizing l' with
  | nil =>
    cases l' with
    | nil => exact .nil
    | cons y l' => simp [itemRepr_ne] at h
  | cons x l ih =>
    cases l' with
    | nil => simp [itemRepr_ne] at h
    | cons y l' =>
      simp only [List.map_cons, List.flatten_cons] at h
      obtain ⟨h1, h2⟩ := itemRepr_inj ho ho' h
      exact .cons h1 (ih h2)

end Oelint

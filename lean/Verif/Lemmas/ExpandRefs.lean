import Verif.Lemmas.Expand
import Verif.Spec.Expand
/-! References in a text, as the patterns of `ExpandTerm` find them (C50, C51). -/
set_option linter.unusedSectionVars false
set_option linter.unusedSimpArgs false
namespace Oelint
variable [Uni]
open Spec

/-- the text before the first `}`, on the same line -/
def upTo : Str → Option Str
  | [] => none
  | c :: t => if c = '}' then some [] else if c = '\n' then none else (upTo t).map (c :: ·)

/-- the name of the reference a text starts with -/
def refAt : Str → Option Str
  | '$' :: '{' :: x :: t => if x = '\n' then none else (upTo t).map (x :: ·)
  | _ => none

theorem run_upTo {α : Type} (K : St → Option α) (f : Nat → Str → α) (caps : List (Nat × Str))
    (hK : ∀ p rest, K ⟨p, rest, caps⟩ = if ['}'] <+: rest then some (f p rest) else none) (pos : Nat) (t : Str) :
    run (.star false .any) K ⟨pos, t, caps⟩ = (upTo t).map (fun a => f (pos + a.length) (t.drop a.length)) := by
  induction t generalizing pos with
  | nil => rw [run_star_char_nil charRe_any, hK]; simp [upTo]
  | cons c t ih =>
    rw [run_star_lazy_char_cons charRe_any, hK, ih, upTo]
    by_cases h1 : c = '}'
    · subst h1; simp
    · by_cases h2 : c = '\n'
      · subst h2; simp
      · simp only [List.cons_prefix_cons, Ne.symm h1, false_and, if_false, Option.none_or, h1, h2]
        rw [if_pos (by simpa using h2), Option.map_map]
        congr 1
        funext a
        simp only [Function.comp_apply, List.length_cons, List.drop_succ_cons]
        congr 1; omega

theorem upTo_spec {t a : Str} (h : upTo t = some a) : (∃ b, t = a ++ '}' :: b) ∧ '}' ∉ a ∧ '\n' ∉ a := by
  induction t generalizing a with
  | nil => cases h
  | cons c t ih =>
    rw [upTo] at h
    split at h
    · rename_i hc
      cases h; subst hc
      exact ⟨⟨t, rfl⟩, by simp, by simp⟩
    · rename_i hc
      split at h
      · cases h
      · rename_i hn
        cases hu : upTo t with
        | none => rw [hu] at h; cases h
        | some a' =>
          rw [hu] at h
          cases h
          obtain ⟨⟨b, rfl⟩, h2, h3⟩ := ih hu
          exact ⟨⟨b, rfl⟩, by simp [h2, Ne.symm hc], by simp [h3, Ne.symm hn]⟩

theorem upTo_append {a : Str} (b : Str) (h1 : '}' ∉ a) (h2 : '\n' ∉ a) : upTo (a ++ '}' :: b) = some a := by
  induction a with
  | nil => simp [upTo]
  | cons c a ih =>
    simp only [List.mem_cons, not_or] at h1 h2
    rw [List.cons_append, upTo, if_neg (Ne.symm h1.1), if_neg (Ne.symm h2.1), ih h1.2 h2.2]
    rfl

theorem refAt_spec {s n : Str} (h : refAt s = some n) :
    (∃ b, s = refText n ++ b) ∧ n ≠ [] ∧ '\n' ∉ n ∧ '}' ∉ n.tail := by
  unfold refAt at h
  split at h
  · rename_i x t
    split at h
    · cases h
    · rename_i hx
      cases hu : upTo t with
      | none => rw [hu] at h; cases h
      | some a =>
        rw [hu] at h
        cases h
        obtain ⟨⟨b, rfl⟩, h2, h3⟩ := upTo_spec hu
        exact ⟨⟨b, by simp [refText]⟩, by simp, by simp [h3, Ne.symm hx], by simpa using h2⟩
  · cases h

theorem refAt_refText {n : Str} (b : Str) (h0 : n ≠ []) (h1 : '}' ∉ n.tail) (h2 : '\n' ∉ n) : refAt (refText n ++ b) = some n := by
  cases n with
  | nil => exact absurd rfl h0
  | cons x t =>
    simp only [List.mem_cons, not_or] at h2
    have : refText (x :: t) ++ b = '$' :: '{' :: x :: (t ++ '}' :: b) := by simp [refText]
    rw [this, refAt, if_neg (Ne.symm h2.1), upTo_append b (by simpa using h1) h2.2]
    rfl

theorem refAt_none {s : Str} (h : ¬ c!"${" <+: s) : refAt s = none := by
  unfold refAt
  split
  · rename_i x t
    exact absurd ⟨x :: t, rfl⟩ h
  · rfl

/-- what `\$\{(.+?)\}` matches -/
theorem matchAt_variable (pos : Nat) (rest : Str) :
    matchAt reVariablePattern.re pos rest =
      (refAt rest).map (fun n => ⟨pos, pos + n.length + 3, refText n, [(1, n)]⟩) := by
  rw [matchAt_eq_run]
  unfold reVariablePattern
  simp only [run_seq]
  rw [run_lit]
  split
  · rename_i hp
    obtain ⟨t, rfl⟩ := hp
    rw [List.drop_left, run_seq, run_grp, run_seq]
    cases t with
    | nil => rw [run_any_nil]; rfl
    | cons x t =>
      rw [run_any_cons]
      have hr : refAt (c!"${" ++ x :: t) = if x = '\n' then none else (upTo t).map (x :: ·) := rfl
      rw [hr]
      split
      · rfl
      · rename_i hx
        rw [run_upTo (f := fun p rest => mkMt ⟨pos, c!"${" ++ x :: t, []⟩
          ⟨p + 1, rest.drop 1, [(1, (x :: t).take (p - (pos + 2)))]⟩)]
        · cases hu : upTo t with
          | none => rfl
          | some a =>
            obtain ⟨⟨b, rfl⟩, h2, h3⟩ := upTo_spec hu
            simp only [Option.map_some, mkMt, Option.some.injEq, Mt.mk.injEq, true_and, List.length_cons, List.length_nil, Nat.zero_add, Nat.reduceAdd]
            refine ⟨by omega, ?_, ?_⟩
            · have h4 : pos + 2 + 1 + a.length + 1 - pos = a.length + 4 := by omega
              rw [h4]
              have h5 : c!"${" ++ x :: (a ++ '}' :: b) = (c!"${" ++ x :: a ++ c!"}") ++ b := by simp
              rw [h5, List.take_append_of_le_length (by simp), List.take_of_length_le (by simp)]
              rfl
            · have h4 : pos + 2 + 1 + a.length - (pos + 2) = a.length + 1 := by omega
              rw [h4]
              simp
        · intro p rest
          rw [run_lit]
          rfl
  · rename_i hp
    rw [refAt_none hp]; rfl

theorem finditerGo_skip (r : Re) (pos : Nat) (a b : Str) : finditerGo r pos a.length (a ++ b) = finditerGo r (pos + a.length) 0 b := by
  induction a generalizing pos with
  | nil => rfl
  | cons c a ih =>
    rw [List.cons_append, List.length_cons, finditerGo, ih]
    congr 1; omega

/-- the references that the first loop of `ExpandTerm` finds -/
theorem mem_finditer_variable {value : Str} {m : Mt} (h : m ∈ reFinditer reVariablePattern.re value) :
    ∃ n, m.text = refText n ∧ m.group 1 = some n ∧ Refers value n := by
  obtain ⟨p, rest, h1, h2⟩ := finditerGo_mem h
  rw [matchAt_variable] at h2
  cases hr : refAt rest with
  | none => rw [hr] at h2; cases h2
  | some n =>
    rw [hr] at h2
    cases h2
    obtain ⟨⟨b, rfl⟩, h3⟩ := refAt_spec hr
    exact ⟨n, rfl, rfl, List.IsInfix.trans (List.prefix_append _ _).isInfix h1.isInfix, h3⟩

theorem Adv.take {s t : St} (h : Adv s t) : s.rest = s.rest.take (t.pos - s.pos) ++ t.rest := by
  rw [h.rest_eq, List.take_append_drop]

/-- the text between two states; group 1 stays -/
structure Reads (P : Char → Prop) (s t : St) : Prop where
  text : ∃ a, s.rest = a ++ t.rest ∧ t.pos = s.pos + a.length ∧ ∀ c ∈ a, P c
  group : t.caps.find? (fun c => c.1 == 1) = s.caps.find? (fun c => c.1 == 1)

theorem Reads.refl (P : Char → Prop) (s : St) : Reads P s s := ⟨⟨[], by simp⟩, rfl⟩

theorem Reads.trans {P : Char → Prop} {a b c : St} (h1 : Reads P a b) (h2 : Reads P b c) : Reads P a c := by
  obtain ⟨⟨x, h3, h4, h5⟩, h6⟩ := h1
  obtain ⟨⟨y, h7, h8, h9⟩, h10⟩ := h2
  refine ⟨⟨x ++ y, by rw [h3, h7]; simp, by rw [h8, h4]; simp [Nat.add_assoc], ?_⟩, h10.trans h6⟩
  intro c hc
  rcases List.mem_append.1 hc with hc | hc
  · exact h5 c hc
  · exact h9 c hc

theorem reads_lit {P : Char → Prop} {p : Str} (hp : ∀ c ∈ p, P c) {s t : St} (h : t ∈ ms (.lit p) s) : Reads P s t := by
  obtain ⟨⟨b, hb⟩, rfl⟩ := mem_ms_lit.1 h
  exact ⟨⟨p, by simp [← hb], rfl, hp⟩, rfl⟩

/-- the arguments after the name in a call of `getVar` -/
def isArg (c : Char) : Prop := c ∈ c!"TrueFals," ∨ reSpace c = true

theorem reads_args {s t : St} (h : t ∈ ms (.star true (.grp 2 (.alt (.lit c!"True") (.alt (.lit c!"False")
    (.alt (.lit c!",") (.seq (.cls false [.space]) (.star true (.cls false [.space]))))))) ) s) : Reads isArg s t := by
  simp only [ms] at h
  refine iter_mem (R := Reads isArg) (Reads.refl _) (fun _ _ _ => Reads.trans) ?_ _ _ _ h
  intro s t ht
  obtain ⟨u, hu, rfl⟩ := List.mem_map.1 ht
  have hr : Reads isArg s u := by
    have hu : u ∈ ms (.alt (.lit c!"True") (.alt (.lit c!"False")
      (.alt (.lit c!",") (.seq (.cls false [.space]) (.star true (.cls false [.space])))))) s := by simpa only [ms] using hu
    simp only [mem_ms_alt] at hu
    rcases hu with hu | hu | hu | hu
    · exact reads_lit (fun c hc => Or.inl (by revert c hc; decide)) hu
    · exact reads_lit (fun c hc => Or.inl (by revert c hc; decide)) hu
    · exact reads_lit (fun c hc => Or.inl (by revert c hc; decide)) hu
    · obtain ⟨v, hv, hu⟩ := mem_ms_seq.1 hu
      obtain ⟨x, r, h1, h2, rfl⟩ := mem_ms_cls.1 hv
      obtain ⟨w, h3, h4, h5, h6⟩ := mem_ms_star_cls.1 hu
      refine ⟨⟨x :: w, by rw [h1]; simpa using h3, by rw [h5]; simp; omega, ?_⟩, by rw [h6]⟩
      intro c hc
      rcases List.mem_cons.1 hc with rfl | hc
      · exact Or.inr ((space_test _).1 h2)
      · exact Or.inr ((space_test _).1 (h4 c hc))
  obtain ⟨⟨a, h1, h2, h3⟩, h4⟩ := hr
  exact ⟨⟨a, h1, h2, h3⟩, by simpa using h4⟩

theorem ms_lit_fwd {p : Str} {s t : St} (h : t ∈ ms (.lit p) s) :
    s.rest = p ++ t.rest ∧ t.pos = s.pos + p.length ∧ t.caps = s.caps := by
  obtain ⟨⟨b, hb⟩, rfl⟩ := mem_ms_lit.1 h
  exact ⟨by simp [← hb], rfl, rfl⟩

theorem ms_any_fwd {s t : St} (h : t ∈ ms .any s) : ∃ x, s.rest = x :: t.rest ∧ t.pos = s.pos + 1 ∧ t.caps = s.caps := by
  obtain ⟨x, b, h1, -, rfl⟩ := mem_ms_any.1 h
  exact ⟨x, h1, rfl, rfl⟩

theorem ms_grp_fwd {n : Nat} {r : Re} {s t : St} (h : t ∈ ms (.grp n r) s) :
    ∃ u ∈ ms r s, t.pos = u.pos ∧ t.rest = u.rest ∧ t.caps = (n, s.rest.take (u.pos - s.pos)) :: u.caps := by
  simp only [ms] at h
  obtain ⟨u, hu, rfl⟩ := List.mem_map.1 h
  exact ⟨u, hu, rfl, rfl, rfl⟩

/-- the calls that the second loop of `ExpandTerm` finds -/
theorem mem_finditer_getVar {value : Str} {m : Mt} (h : m ∈ reFinditer reVariablePattern2.re value) :
    ∃ n, m.group 1 = some n ∧ CallsGetVar value n := by
  obtain ⟨p, rest, h1, h2⟩ := finditerGo_mem h
  obtain ⟨t, ht, rfl⟩ := matchAt_mem h2
  unfold reVariablePattern2 at ht
  simp only [mem_ms_seq] at ht
  obtain ⟨u1, hu1, u2, hu2, u3, hu3, u4, hu4, u5, hu5, u6, hu6, u7, hu7, hu8⟩ := ht
  obtain ⟨e1, p1, c1⟩ := ms_lit_fwd hu1
  obtain ⟨x2, e2, p2, c2⟩ := ms_any_fwd hu2
  obtain ⟨e3, p3, c3⟩ := ms_lit_fwd hu3
  obtain ⟨q, e4, p4, c4⟩ := ms_any_fwd hu4
  obtain ⟨v, hv, p5, e5, c5⟩ := ms_grp_fwd hu5
  obtain ⟨v1, hv1, hv2⟩ := mem_ms_seq.1 hv
  obtain ⟨y, e6, p6, c6⟩ := ms_any_fwd hv1
  obtain ⟨w, e7, -, p7, c7⟩ := mem_ms_star_any.1 hv2
  obtain ⟨q', e8, p8, c8⟩ := ms_any_fwd hu6
  obtain ⟨⟨a, e9, p9, e12⟩, e13⟩ := reads_args hu7
  obtain ⟨e10, p10, c10⟩ := ms_lit_fwd hu8
  have hn : u4.rest.take (v.pos - u4.pos) = y :: w := by
    rw [p7, p6, e6, e7]
    have : u4.pos + 1 + w.length - u4.pos = w.length + 1 := by omega
    rw [this]; simp
  refine ⟨y :: w, ?_, q, q', a, e12, ?_, by simp⟩
  · simp only [mkMt, Mt.group]
    rw [c10, e13, c8, c5, hn]
    simp
  · refine List.IsInfix.trans ?_ h1.isInfix
    refine ⟨c!"d" ++ [x2], t.rest, ?_⟩
    simp only at e1
    rw [e1, e2, e3, e4, e6, e7, ← e5, e8, e9, e10]
    simp

/-- a text without a call of `read_file` -/
theorem finditer_readFile_nil {value : Str} (h : ¬ ReadsFile value) : reFinditer reOeUtilsReadFile.re value = [] := by
  rw [List.eq_nil_iff_forall_not_mem]
  intro m hm
  obtain ⟨p, rest, h1, h2⟩ := finditerGo_mem hm
  obtain ⟨t, ht, rfl⟩ := matchAt_mem h2
  unfold reOeUtilsReadFile at ht
  simp only [mem_ms_seq] at ht
  obtain ⟨u1, hu1, u2, hu2, u3, hu3, u4, hu4, -⟩ := ht
  have a1 := (ms_adv _ _ _ hu1).suffix
  have a2 := (ms_adv _ _ _ hu2).suffix
  have a3 := (ms_adv _ _ _ hu3).suffix
  obtain ⟨e4, -, -⟩ := ms_lit_fwd hu4
  apply h
  refine List.IsInfix.trans ?_ ((a3.trans (a2.trans a1)).trans h1).isInfix
  exact ⟨[], u4.rest, by rw [e4]; rfl⟩

/-! ## which source a name has -/

theorem mem_assignments {W : World} {s : Stash} {file n : Str} (hn : n ≠ []) {x : Item} {v : VarData} :
    (x, v) ∈ assignments W s file n ↔ x.payload = .variable v ∧ Assigns s file n x := by
  unfold assignments
  rw [List.mem_filterMap]
  constructor
  · rintro ⟨y, hy, hyv⟩
    obtain ⟨hys, hsel⟩ := (mem_getItemsFor W s _ y).1 hy
    unfold asAssignment at hyv
    split at hyv
    · rename_i v' hp
      split at hyv
      · rename_i ha
        cases hyv
        refine ⟨hp, hys, fun hf => hsel.file file rfl hf, v, hp, ?_, List.isEmpty_iff.1 ha⟩
        obtain ⟨nm, h1, a, h2, h3⟩ := hsel.attr (by simp [varFilter, given])
        simp only [varFilter, given, List.cons_ne_nil, if_false, List.mem_singleton, reduceCtorEq] at h1 h3
        subst h1
        rw [if_neg hn] at h3
        rw [dget_varName hp] at h2
        cases h2
        simpa using h3
      · cases hyv
    · cases hyv
  · rintro ⟨hp, hx, hf, v', hp', hv, ha⟩
    rw [hp] at hp'
    cases hp'
    refine ⟨x, (mem_getItemsFor W s _ x).2 ⟨hx, ?_⟩, ?_⟩
    · refine ⟨fun fn h1 h2 => ?_, fun _ => ?_, fun _ => ?_⟩
      · cases h1; exact hf h2
      · simp [varFilter, given, hp, Payload.classifier]
      · refine ⟨c!"VarName", by simp [varFilter, given], .str v.varName, dget_varName hp, Or.inr ⟨n, ?_, by rw [hv]⟩⟩
        simp [varFilter, given, hn]
    · simp only [asAssignment, hp]
      rw [if_pos (by rw [ha]; rfl)]

theorem assignments_nil {W : World} {s : Stash} {file n : Str} (hn : n ≠ []) :
    assignments W s file n = [] ↔ ∀ x, ¬ Assigns s file n x := by
  constructor
  · intro h x hx
    obtain ⟨v, hp, -⟩ := hx.2.2
    have := (mem_assignments (W := W) hn).2 ⟨hp, hx⟩
    rw [h] at this
    cases this
  · intro h
    rw [List.eq_nil_iff_forall_not_mem]
    rintro ⟨x, v⟩ hx
    exact h x ((mem_assignments hn).1 hx).2

theorem sourceOf_unknown {W : World} {s : Stash} {b : J} {file n q : Str} (hb : setsBase s.consts = .ok b) (hn : n ≠ [])
    (h : Unknown s file n) : sourceOf W s b file n q = .ok .keep := by
  unfold sourceOf
  rw [(assignments_nil hn).2 h.1]
  have h2 := h.2.2
  simp only [List.mem_cons, List.not_mem_nil, or_false, not_or] at h2
  simp [h.2.1 b hb, h2]

/-- references that are kept do not change the text -/
theorem expandMany_keep {W : World} {s : Stash} {b : J} {rec : ExpandFn} {file : Str} {spare : List Str} {q : Str}
    (l : List Mt) (res : Str) (seen : Seen)
    (h : ∀ m ∈ l, (m.group 1).getD [] ∈ spare ∨ sourceOf W s b file ((m.group 1).getD []) q = .ok .keep) :
    expandMany W s b rec file spare q l res seen = .ok (res, seen) := by
  induction l with
  | nil => rfl
  | cons m l ih =>
    have h1 : expandOne W s b rec file spare q m res seen = .ok (res, seen) := by
      unfold expandOne
      simp only
      split
      · rfl
      · rename_i hs
        rcases h m (by simp) with h | h
        · exact absurd (List.contains_iff_mem.2 h) hs
        · rw [h]
    rw [expandMany, h1]
    exact ih (fun m hm => h m (by simp [hm]))

/-- a text all of whose references are unknown or spared stays as it is -/
theorem expandTermF_keep (W : World) (s : Stash) {b : J} (hb : setsBase s.consts = .ok b) (fuel : Nat) (file : Str)
    (spare : List Str) (value : Str) (seen : Seen) (h1 : ∀ n, Refers value n → n ∈ spare ∨ Unknown s file n)
    (h2 : ∀ n, CallsGetVar value n → n ∈ spare ∨ Unknown s file n) (h3 : ¬ ReadsFile value) :
    expandTermF W s (fuel + 1) file spare value seen = .ok (value, seen) := by
  unfold expandTermF
  rw [hb]
  simp only
  rw [expandMany_keep]
  · simp only
    rw [expandMany_keep]
    · simp only
      rw [finditer_readFile_nil h3]
      rfl
    · intro m hm
      obtain ⟨n, g1, g2⟩ := mem_finditer_getVar hm
      rw [g1]
      exact (h2 n g2).imp id (sourceOf_unknown hb g2.choose_spec.choose_spec.choose_spec.2.2)
  · intro m hm
    obtain ⟨n, -, g1, g2⟩ := mem_finditer_variable hm
    rw [g1]
    exact (h1 n g2).imp id (sourceOf_unknown hb g2.2.1)

theorem expandBound_pos (s : Stash) (value : Str) : ∃ k, expandBound s value = k + 1 := ⟨_, rfl⟩

theorem expandTermS_keep (W : World) (s : Stash) {b : J} (hb : setsBase s.consts = .ok b) (file : Str)
    (spare : List Str) (value : Str) (h1 : ∀ n, Refers value n → n ∈ spare ∨ Unknown s file n)
    (h2 : ∀ n, CallsGetVar value n → n ∈ spare ∨ Unknown s file n) (h3 : ¬ ReadsFile value) :
    expandTermS W s file spare value = .ok value := by
  obtain ⟨k, hk⟩ := expandBound_pos s value
  unfold expandTermS
  rw [hk, expandTermF_keep W s hb k file spare value [] h1 h2 h3]
  rfl

end Oelint

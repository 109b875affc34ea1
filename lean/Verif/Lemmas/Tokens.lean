import Verif.Spec.Tokens
import Verif.Model.Item
import Verif.Lemmas.Chunks
import Verif.Lemmas.RecipeNames
/-! Splitting values into items. -/
set_option linter.unusedSectionVars false
set_option linter.unusedSimpArgs false
namespace Oelint
variable [Uni]
open Spec

/-- split at the characters that a predicate (on the character and the text behind it) tells -/
def splitBy (sep : Char → Str → Bool) : Str → List Str
  | [] => [[]]
  | c :: t => if sep c t then [] :: splitBy sep t else consHead c (splitBy sep t)

theorem splitGo_eq_splitBy {r : Re} {sep : Char → Str → Bool}
    (h1 : ∀ pos c t, sep c t = true → ∃ m, matchAt r pos (c :: t) = some m ∧ m.stop = pos + 1)
    (h2 : ∀ pos c t, sep c t = false → matchAt r pos (c :: t) = none) (pos : Nat) (s : Str) :
    splitGo r pos 0 s = splitBy sep s := by
  induction s generalizing pos with
  | nil => rfl
  | cons c t ih =>
    rw [splitGo, splitBy]
    cases hs : sep c t with
    | true =>
      obtain ⟨m, hm, hst⟩ := h1 pos c t hs
      rw [hm]
      simp only [hst, if_true]
      rw [show pos + 1 - pos - 1 = 0 by omega, ih]
    | false =>
      rw [h2 pos c t hs]
      simp only [Bool.false_eq_true, if_false, ih]

/-- the separators of `safe_linesplit` -/
def itemSep (c : Char) (t : Str) : Bool := reSpace c || (c == contMark && t.head? != some 'x')

theorem itemSep_iff {c : Char} {t : Str} : itemSep c t = true ↔ Separates c t := by
  simp [itemSep, Separates]

theorem mem_safeline {pos : Nat} {c : Char} {t : Str} {st : St} :
    st ∈ ms reSafelineSplit.re ⟨pos, c :: t, []⟩ ↔ itemSep c t = true ∧ st = ⟨pos + 1, t, []⟩ := by
  simp only [reSafelineSplit, mem_ms_alt, mem_ms_cls, mem_ms_lit, mem_ms_seq, space_test]
  constructor
  · rintro (⟨x, u, he, hx, rfl⟩ | ⟨hp, rfl⟩ | ⟨u, ⟨hp, rfl⟩, hl⟩)
    · cases he
      exact ⟨by simp [itemSep, hx], rfl⟩
    · obtain ⟨q, hq⟩ := hp
      cases hq
      exact ⟨by simp [itemSep]; exact Or.inl (by decide), by simp⟩
    · obtain ⟨q, hq⟩ := hp
      cases hq
      simp only [ms] at hl
      simp at hl
      obtain ⟨hl1, rfl⟩ := hl
      refine ⟨?_, rfl⟩
      rw [itemSep_iff]
      refine Or.inr ⟨rfl, fun hh => ?_⟩
      obtain ⟨t', rfl⟩ : ∃ t', q = 'x' :: t' := by
        cases q with
        | nil => cases hh
        | cons a t' => cases hh; exact ⟨t', rfl⟩
      simp at hl1
  · rintro ⟨h, rfl⟩
    rw [itemSep_iff] at h
    rcases h with h | ⟨rfl, h⟩
    · exact Or.inl ⟨c, t, rfl, h, rfl⟩
    · refine Or.inr (Or.inr ⟨⟨pos + 1, t, []⟩, ⟨⟨t, rfl⟩, rfl⟩, ?_⟩)
      simp only [ms]
      simp
      cases t with
      | nil => simp
      | cons a t' =>
        simp at h
        simp [Ne.symm h]

/-- all successes of a one-character separator -/
theorem matchAt_one {r : Re} {sep : Char → Str → Bool}
    (h : ∀ {pos c t st}, st ∈ ms r ⟨pos, c :: t, []⟩ ↔ sep c t = true ∧ st = ⟨pos + 1, t, []⟩) (s : Str) :
    reSplit r s = splitBy sep s := by
  refine splitGo_eq_splitBy (fun pos c t hs => ?_) (fun pos c t hs => ?_) 0 s
  · unfold matchAt
    cases hm : ms r ⟨pos, c :: t, []⟩ with
    | nil =>
      have := (h (pos := pos) (c := c) (t := t)).2 ⟨hs, rfl⟩
      rw [hm] at this
      cases this
    | cons st l =>
      have : st ∈ ms r ⟨pos, c :: t, []⟩ := by rw [hm]; simp
      obtain ⟨-, rfl⟩ := h.1 this
      exact ⟨_, rfl, rfl⟩
  · unfold matchAt
    cases hm : ms r ⟨pos, c :: t, []⟩ with
    | nil => rfl
    | cons st l =>
      have : st ∈ ms r ⟨pos, c :: t, []⟩ := by rw [hm]; simp
      rw [(h.1 this).1] at hs
      cases hs

theorem safeLinesplit_eq (s : Str) : safeLinesplit s = (splitBy itemSep s).filter (fun x => !x.isEmpty) := by
  unfold safeLinesplit
  rw [matchAt_one mem_safeline]

/-! ## runs -/

theorem splitBy_ne_nil (sep : Char → Str → Bool) (s : Str) : splitBy sep s ≠ [] := by
  cases s with
  | nil => simp [splitBy]
  | cons c t =>
    rw [splitBy]
    split
    · simp
    · cases splitBy sep t <;> simp [consHead]

theorem splitBy_run {sep : Char → Str → Bool} (w t : Str) (h : ∀ a c b, w = a ++ c :: b → sep c (b ++ t) = false) :
    splitBy sep (w ++ t) = (w ++ (splitBy sep t).headD []) :: (splitBy sep t).tail := by
  induction w with
  | nil =>
    cases hs : splitBy sep t with
    | nil => exact absurd hs (splitBy_ne_nil sep t)
    | cons a l => simpa using hs
  | cons c w ih =>
    rw [List.cons_append, splitBy, h [] c w rfl]
    rw [ih (fun a c' b hw => h (c :: a) c' b (by rw [hw]; rfl))]
    rfl

theorem noSeparator_tail {c : Char} {w t : Str} (h : NoSeparator (c :: w) t) : NoSeparator w t :=
  fun a c' b hw => h (c :: a) c' b (by rw [hw]; rfl)

theorem safeLinesplit_of_tokens {s : Str} {ts : List Str} (h : Tokens s ts) : safeLinesplit s = ts := by
  induction h with
  | nil => rfl
  | @skip c t ts h ht ih =>
    rw [safeLinesplit_eq, splitBy, itemSep_iff.2 h, if_pos rfl, List.filter_cons]
    rw [safeLinesplit_eq] at ih
    simpa using ih
  | @token w t ts hw h hm ht ih =>
    rw [safeLinesplit_eq] at ih ⊢
    rw [splitBy_run w t (fun a c b hw => by
      have := h a c b hw
      rw [← itemSep_iff] at this
      simpa using this)]
    have h0 : (splitBy itemSep t).headD [] = [] := by
      cases t with
      | nil => rfl
      | cons c u => rw [splitBy, itemSep_iff.2 (hm c u rfl)]; rfl
    rw [h0, List.append_nil]
    have ht' : splitBy itemSep t = [] :: (splitBy itemSep t).tail := by
      cases hs : splitBy itemSep t with
      | nil => exact absurd hs (splitBy_ne_nil _ t)
      | cons a l => rw [hs] at h0; simp at h0; rw [h0]; rfl
    rw [ht'] at ih
    simp only [List.filter_cons, List.isEmpty_nil, Bool.not_true, Bool.false_eq_true, if_false] at ih
    rw [List.filter_cons, if_pos (by simpa using hw), ih]

/-- every text has tokens -/
theorem tokens_total (s : Str) : ∃ ts, Tokens s ts := by
  induction s with
  | nil => exact ⟨[], .nil⟩
  | cons c t ih =>
    obtain ⟨ts, ih⟩ := ih
    by_cases h : Separates c t
    · exact ⟨ts, .skip h ih⟩
    · cases ih with
      | nil =>
        refine ⟨[[c]], .token (w := [c]) (t := []) (by simp) (fun a c' b hw => ?_) (by simp) .nil⟩
        cases a with
        | nil => cases hw; exact h
        | cons x a => simp at hw
      | @skip c' t' ts h' ht' =>
        refine ⟨[c] :: ts, .token (w := [c]) (t := c' :: t') (by simp) (fun a c'' b hw => ?_) (fun c'' u hu => ?_) (.skip h' ht')⟩
        · cases a with
          | nil => cases hw; exact h
          | cons x a => simp at hw
        · cases hu; exact h'
      | @token w t' ts hw hn hm ht' =>
        refine ⟨(c :: w) :: ts, .token (w := c :: w) (by simp) (fun a c'' b hw => ?_) hm ht'⟩
        cases a with
        | nil => cases hw; exact h
        | cons x a => cases hw; exact hn a c'' b rfl

theorem safeLinesplit_iff {s : Str} {ts : List Str} : safeLinesplit s = ts ↔ Tokens s ts := by
  constructor
  · rintro rfl
    obtain ⟨ts, h⟩ := tokens_total s
    rw [safeLinesplit_of_tokens h]; exact h
  · exact safeLinesplit_of_tokens

/-- a token: not empty, and nothing in it separates when the text ends or a separator follows -/
def IsToken (w : Str) : Prop := w ≠ [] ∧ NoSeparator w []

theorem noSeparator_end {w t : Str} (h : NoSeparator w t) (hm : ∀ c u, t = c :: u → Separates c u) : NoSeparator w [] := by
  rintro a c b hw (hc | ⟨rfl, hc⟩)
  · exact h a c b hw (Or.inl hc)
  · refine h a contMark b hw (Or.inr ⟨rfl, ?_⟩)
    cases b with
    | nil =>
      cases t with
      | nil => simp
      | cons x u =>
        intro hx
        simp at hx
        subst hx
        rcases hm 'x' u rfl with h | ⟨h, -⟩
        · exact absurd h (by decide)
        · exact absurd h (by decide)
    | cons x b => simpa using hc

theorem noSeparator_before {w : Str} (t : Str) (h : NoSeparator w []) : NoSeparator w t := by
  rintro a c b hw (hc | ⟨rfl, hc⟩)
  · exact h a c b hw (Or.inl hc)
  · refine h a contMark b hw (Or.inr ⟨rfl, ?_⟩)
    cases b with
    | nil => simp
    | cons x b => simpa using hc

theorem tokens_isToken {s : Str} {ts : List Str} (h : Tokens s ts) : ∀ w ∈ ts, IsToken w ∧ w <:+: s := by
  induction h with
  | nil => simp
  | @skip c t ts h ht ih =>
    exact fun w hw => ⟨(ih w hw).1, (ih w hw).2.trans (List.suffix_cons c t).isInfix⟩
  | @token w t ts hw h hm ht ih =>
    intro v hv
    rcases List.mem_cons.1 hv with rfl | hv
    · exact ⟨⟨hw, noSeparator_end h hm⟩, (List.prefix_append v t).isInfix⟩
    · exact ⟨(ih v hv).1, (ih v hv).2.trans (List.suffix_append w t).isInfix⟩

theorem separates_space (c : Char) (t : Str) (h : reSpace c = true) : Separates c t := Or.inl h

/-- tokens put together with separators -/
theorem tokens_join {ts : List Str} (h : ∀ w ∈ ts, IsToken w) : Tokens (joinS c!" " ts) ts := by
  induction ts with
  | nil => exact .nil
  | cons w ts ih =>
    cases ts with
    | nil =>
      have := Tokens.token (w := w) (t := []) (h w (by simp)).1 (h w (by simp)).2 (by simp) .nil
      simpa [joinS] using this
    | cons v ts =>
      have hs : Separates ' ' (joinS c!" " (v :: ts)) := Or.inl (by decide)
      have := Tokens.token (w := w) (t := ' ' :: joinS c!" " (v :: ts)) (h w (by simp)).1
        (noSeparator_before _ (h w (by simp)).2) (fun c u hu => by cases hu; exact hs)
        (.skip hs (ih (fun x hx => h x (List.mem_cons_of_mem _ hx))))
      simpa [joinS] using this

/-! ## constraints -/

theorem mem_versioned {pos : Nat} {s : Str} {caps : List (Nat × Str)} {st : St} : st ∈ ms reVersioned.re ⟨pos, s, caps⟩ →
    ∃ ws body, s = ws ++ '(' :: (body ++ ')' :: st.rest) ∧ (∀ c ∈ ws, reSpace c = true) ∧ '\n' ∉ body := by
  simp only [reVersioned, mem_ms_seq, mem_ms_star_cls, mem_ms_star_any, mem_ms_lit, space_test]
  rintro ⟨u1, ⟨ws, h1, h2, -, -⟩, u2, ⟨hp, rfl⟩, u3, ⟨body, h3, h4, -, -⟩, hq, rfl⟩
  obtain ⟨q, hq'⟩ := hp
  obtain ⟨q2, hq2⟩ := hq
  refine ⟨ws, body, ?_, h2, h4⟩
  rw [← hq'] at h1 h3
  simp at h1 h3 ⊢
  rw [h1, h3, ← hq2]
  simp

theorem versioned_none {pos : Nat} {s : Str} (h : ∀ post, ¬ Constraint s post) : matchAt reVersioned.re pos s = none := by
  rw [matchAt_eq_run, run_none]
  intro st hst
  obtain ⟨ws, body, rfl, hws, hb⟩ := mem_versioned hst
  obtain ⟨b1, b2, e, hb1⟩ : ∃ b1 b2, body ++ ')' :: st.rest = b1 ++ ')' :: b2 ∧ ')' ∉ b1 ∧ '\n' ∉ b1 := by
    by_cases hm : ')' ∈ body
    · obtain ⟨b1, b2, rfl, h1⟩ := List.eq_append_cons_of_mem hm
      exact ⟨b1, b2 ++ ')' :: st.rest, by simp, h1, fun h => hb (by simp [h])⟩
    · exact ⟨body, st.rest, rfl, hm, hb⟩
  exact absurd ⟨ws, b1, by rw [e], hws, hb1⟩ (h b2)

theorem run_lazy_close {α : Type} (k : St → Option α) (pos : Nat) (body post : Str) (caps : List (Nat × Str)) (h1 : ')' ∉ body)
    (h2 : '\n' ∉ body) (hk : (k ⟨pos + body.length + 1, post, caps⟩).isSome) :
    run (.star false .any) (run (.lit c!")") k) ⟨pos, body ++ ')' :: post, caps⟩ = k ⟨pos + body.length + 1, post, caps⟩ := by
  induction body generalizing pos with
  | nil =>
    rw [List.nil_append, run_star_lazy_char_cons charRe_any, run_lit, if_pos (by simp)]
    obtain ⟨m, hm⟩ := Option.isSome_iff_exists.1 hk
    simp at hm
    simp [hm]
  | cons c body ih =>
    simp only [List.mem_cons, not_or] at h1 h2
    rw [List.cons_append, run_star_lazy_char_cons charRe_any, run_lit, if_neg (by simp [h1.1])]
    rw [if_pos (by simp [Ne.symm h2.1])]
    have e : pos + 1 + body.length + 1 = pos + (c :: body).length + 1 := by simp; omega
    rw [ih (pos + 1) h1.2 h2.2 (by rw [e]; exact hk), e]
    rfl

theorem run_blanks {α : Type} (k : St → Option α) (pos : Nat) (ws rest : Str) (caps : List (Nat × Str)) (hws : ∀ c ∈ ws, reSpace c = true)
    (hk : ∀ pos t, t.head? ≠ some '(' → k ⟨pos, t, caps⟩ = none) :
    run (.star true (.cls false [.space])) k ⟨pos, ws ++ '(' :: rest, caps⟩ = k ⟨pos + ws.length, '(' :: rest, caps⟩ := by
  induction ws generalizing pos with
  | nil =>
    rw [List.nil_append, run_star_char_cons (charRe_cls _ _), if_neg (by simp [CItem.test]; decide)]
    rfl
  | cons c ws ih =>
    have hc := hws c (by simp)
    rw [List.cons_append, run_star_char_cons (charRe_cls _ _), if_pos (by simpa [CItem.test] using hc)]
    rw [ih (pos + 1) (fun x hx => hws x (List.mem_cons_of_mem _ hx)), hk pos (c :: (ws ++ '(' :: rest)) (by
      simp; rintro rfl; exact absurd hc (by decide)), Option.or_none]
    have e : pos + 1 + ws.length = pos + (c :: ws).length := by simp; omega
    rw [e]

theorem versioned_some {pos : Nat} {s post : Str} (h : Constraint s post) :
    ∃ m, matchAt reVersioned.re pos s = some m ∧ m.stop = pos + (s.length - post.length) ∧ post.length < s.length := by
  obtain ⟨ws, body, rfl, hws, h1, h2⟩ := h
  obtain ⟨k, hk⟩ : ∃ k : St → Option Mt, k = fun t => some (mkMt ⟨pos, ws ++ '(' :: (body ++ ')' :: post), []⟩ t) := ⟨_, rfl⟩
  have hrun : run reVersioned.re k ⟨pos, ws ++ '(' :: (body ++ ')' :: post), []⟩ =
      k ⟨pos + ws.length + 1 + body.length + 1, post, []⟩ := by
    unfold reVersioned
    rw [run_seq, run_blanks _ _ _ _ _ hws]
    · rw [run_seq, run_lit, if_pos (by simp), run_seq]
      simp only [List.length_singleton, List.drop_succ_cons, List.drop_zero]
      rw [run_lazy_close _ _ _ _ _ h1 h2 (by rw [hk]; rfl)]
    · intro pos t ht
      rw [run_seq, run_lit, if_neg]
      intro hq
      obtain ⟨q, hq⟩ := hq
      rw [← hq] at ht
      simp at ht
  rw [matchAt_eq_run, ← hk, hrun, hk]
  exact ⟨_, rfl, by simp [mkMt]; omega, by simp; omega⟩

theorem subGo_drop (r : Re) (f : Mt → Str) (pos k : Nat) (t : Str) (h : k ≤ t.length) :
    subGo r f pos k t = subGo r f (pos + k) 0 (t.drop k) := by
  induction t generalizing pos k with
  | nil =>
    obtain rfl : k = 0 := by simpa using h
    rfl
  | cons c t ih =>
    cases k with
    | zero => rfl
    | succ k =>
      rw [subGo, ih _ _ (by simpa using h)]
      rw [List.drop_succ_cons, show pos + 1 + k = pos + (k + 1) by omega]

theorem constraint_drop {s post : Str} (h : Constraint s post) : post = s.drop (s.length - post.length) := by
  obtain ⟨ws, body, rfl, -⟩ := h
  have e : ws ++ '(' :: (body ++ ')' :: post) = (ws ++ '(' :: (body ++ [')'])) ++ post := by simp
  rw [e]
  have : ((ws ++ '(' :: (body ++ [')'])) ++ post).length - post.length = (ws ++ '(' :: (body ++ [')'])).length := by simp; omega
  rw [this, List.drop_left]

theorem sub_of_unversioned {s r : Str} (h : Unversioned s r) (pos : Nat) :
    subGo reVersioned.re (fun _ => []) pos 0 s = r := by
  induction h generalizing pos with
  | nil => rfl
  | @drop s post r hc hr ih =>
    obtain ⟨m, hm, hst, hl⟩ := versioned_some (pos := pos) hc
    have hd := constraint_drop hc
    cases s with
    | nil => simp at hl
    | cons c t =>
      rw [subGo, hm]
      simp only [hst, List.nil_append]
      rw [subGo_drop _ _ _ _ _ (by simp)]
      have e : t.drop (pos + ((c :: t).length - post.length) - pos - 1) = post := by
        rw [show pos + ((c :: t).length - post.length) - pos - 1 = (c :: t).length - post.length - 1 by omega]
        conv => rhs; rw [hd]
        obtain ⟨n, hn⟩ : ∃ n, (c :: t).length - post.length = n + 1 := ⟨(c :: t).length - post.length - 1, by omega⟩
        rw [hn]; rfl
      rw [e]
      exact ih _
  | @keep c t r h hr ih =>
    rw [subGo, versioned_none h, ih]

theorem unversioned_total (s : Str) : ∃ r, Unversioned s r := by
  induction hn : s.length using Nat.strongRecOn generalizing s with
  | ind n ih =>
    cases s with
    | nil => exact ⟨[], .nil⟩
    | cons c t =>
      by_cases h : ∃ post, Constraint (c :: t) post
      · obtain ⟨post, h⟩ := h
        obtain ⟨m, -, -, hl⟩ := versioned_some (pos := 0) h
        obtain ⟨r, hr⟩ := ih post.length (by omega) post rfl
        exact ⟨r, .drop h hr⟩
      · obtain ⟨r, hr⟩ := ih t.length (by subst hn; simp) t rfl
        exact ⟨c :: r, .keep (fun post hp => h ⟨post, hp⟩) hr⟩

theorem unversioned_iff {s r : Str} : reSub reVersioned.re (fun _ => []) s = r ↔ Unversioned s r := by
  constructor
  · rintro rfl
    obtain ⟨r, h⟩ := unversioned_total s
    unfold reSub
    rw [sub_of_unversioned h]; exact h
  · exact fun h => sub_of_unversioned h 0

/-- a constraint starts with a parenthesis after the blanks -/
theorem constraint_head {s post : Str} (h : Constraint s post) : (s.dropWhile reSpace).head? = some '(' := by
  obtain ⟨ws, body, rfl, hws, -⟩ := h
  rw [List.dropWhile_append_of_pos hws]
  simp [List.dropWhile, show reSpace '(' = false by decide]

/-- a text without opening parenthesis whose last character is no blank is kept -/
theorem unversioned_run {w t r : Str} (h1 : '(' ∉ w) (h2 : ∀ u c, w = u ++ [c] → reSpace c = false) (h : Unversioned t r) :
    Unversioned (w ++ t) (w ++ r) := by
  induction w with
  | nil => exact h
  | cons c w ih =>
    simp only [List.mem_cons, not_or] at h1
    refine .keep (fun post hc => ?_) (ih h1.2 (fun u x hu => h2 (c :: u) x (by rw [hu]; rfl)))
    have hh := constraint_head hc
    have : ∀ v : Str, '(' ∉ v → v ≠ [] → (∀ u x, v = u ++ [x] → reSpace x = false) → ((v ++ t).dropWhile reSpace).head? ≠ some '(' := by
      intro v hv1 hv2 hv3
      induction v with
      | nil => exact absurd rfl hv2
      | cons x v ihv =>
        simp only [List.mem_cons, not_or] at hv1
        rw [List.cons_append, List.dropWhile_cons]
        split
        · rename_i hx
          refine ihv hv1.2 ?_ (fun u y hu => hv3 (x :: u) y (by rw [hu]; rfl))
          rintro rfl
          rw [hv3 [] x rfl] at hx
          cases hx
        · simpa using Ne.symm hv1.1
    exact this (c :: w) (by simpa using ⟨h1.1, h1.2⟩) (by simp) h2 hh

theorem unversioned_self {w : Str} (h1 : '(' ∉ w) : Unversioned w w := by
  induction w with
  | nil => exact .nil
  | cons c w ih =>
    simp only [List.mem_cons, not_or] at h1
    refine .keep (fun post hc => ?_) (ih h1.2)
    obtain ⟨ws, body, e, -⟩ := hc
    have : '(' ∈ c :: w := by rw [e]; simp
    rcases List.mem_cons.1 this with h | h
    · exact h1.1 h
    · exact h1.2 h

end Oelint

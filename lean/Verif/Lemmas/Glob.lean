import Verif.Lemmas.Regex
import Verif.Lemmas.Str
import Verif.Model.Parser
/-! Patterns made of plain characters, `.` and `.*`, with an optional final `$`. -/
set_option linter.unusedSectionVars false
set_option linter.unusedSimpArgs false
namespace Oelint
variable [Uni]

/-- characters with a meaning in patterns -/
def special : Str := c!"\\^$.|?*+()[]{}"

/-- pieces of a pattern -/
inductive Tok where
  | lit (c : Char)
  | any
  | many
  deriving DecidableEq

/-- text of a piece -/
def Tok.text : Tok → Str
  | .lit c => [c]
  | .any => c!"."
  | .many => c!".*"

/-- a plain character has no meaning in patterns -/
def Tok.Ok : Tok → Prop
  | .lit c => c ∉ special
  | _ => True

/-- expression of a piece -/
def Tok.re : Tok → Re
  | .lit c => .lit [c]
  | .any => .any
  | .many => .star true .any

/-- expression of a pattern -/
def toksRe (eos : Bool) : List Tok → Re
  | [] => if eos then .eos else .eps
  | t :: ts => Re.cat t.re (toksRe eos ts)

/-- text of a pattern -/
def toksText (eos : Bool) (ts : List Tok) : Str := (ts.map Tok.text).flatten ++ (if eos then c!"$" else [])

/-- texts matched by the pieces -/
def Den : List Tok → Str → Prop
  | [], u => u = []
  | .lit c :: ts, u => ∃ u', u = c :: u' ∧ Den ts u'
  | .any :: ts, u => ∃ c u', c ≠ '\n' ∧ u = c :: u' ∧ Den ts u'
  | .many :: ts, u => ∃ a u', '\n' ∉ a ∧ u = a ++ u' ∧ Den ts u'

/-- not at a quantifier -/
def NoQuant : Str → Prop
  | [] => True
  | c :: _ => c ≠ '*' ∧ c ≠ '+' ∧ c ≠ '?' ∧ c ≠ '{'

theorem noQuant_toks (eos : Bool) (ts : List Tok) (h : ∀ t ∈ ts, t.Ok) : NoQuant (toksText eos ts) := by
  unfold toksText
  cases ts with
  | nil => cases eos <;> simp [NoQuant]
  | cons t ts =>
    have ht := h t (by simp)
    cases t with
    | lit c =>
      have : c ∉ special := ht
      simp only [List.map_cons, Tok.text, List.flatten_cons, List.cons_append, List.nil_append, NoQuant]
      simp only [special, List.mem_cons, not_or] at this
      obtain ⟨h1, h2, h3, h4, h5, h6, h7, h8, h9, h10, h11, h12, h13, h14, h15⟩ := this
      exact ⟨h7, h8, h6, h13⟩
    | any => simp [Tok.text, NoQuant]
    | many => simp [Tok.text, NoQuant]

theorem atQuant_of_noQuant {s : Str} (h : NoQuant s) : atQuant s = false := by
  cases s with
  | nil => rfl
  | cons c t => obtain ⟨h1, h2, h3, _⟩ := h; simp [atQuant, h1, h2, h3]

theorem parseQuant_of_noQuant {s : Str} (a : Re) (h : NoQuant s) : parseQuant a s = some (a, s) := by
  cases s with
  | nil => rfl
  | cons c t =>
    obtain ⟨h1, h2, h3, h4⟩ := h
    unfold parseQuant
    split <;> simp_all

theorem parseQuant_star {s : Str} (a : Re) (h : NoQuant s) : parseQuant a ('*' :: s) = some (.star true a, s) := by
  cases s with
  | nil => rfl
  | cons c t =>
    obtain ⟨h1, h2, h3, h4⟩ := h
    unfold parseQuant
    split <;> simp_all

theorem parseRe_lit (n : Nat) (st : PSt) (c : Char) (t : Str) (h : c ∉ special) (hq : NoQuant t) :
    parseRe false (n + 1) st (c :: t) = (parseRe false n st t).map fun (b, st, r) => (Re.cat (.lit [c]) b, st, r) := by
  simp only [special, List.mem_cons, not_or] at h
  obtain ⟨h1, h2, h3, h4, h5, h6, h7, h8, h9, h10, h11, h12, h13, h14, h15⟩ := h
  rw [parseRe.eq_def]
  simp only [Bool.false_eq_true, if_false]
  split
  · simp_all
  · simp_all
  · simp_all
  · split <;> try (rename_i heq; simp_all; done)
    · rename_i a st' t' heq
      split at heq <;> try (simp_all; done)
      rename_i c' t'' _ _ _ _ _ _ _ _ _ _ _ _ _ _ _ heq2
      cases heq2
      cases heq
      rw [parseQuant_of_noQuant _ hq]
      simp only [atQuant_of_noQuant hq, Bool.false_eq_true, if_false]

theorem parseRe_any (n : Nat) (st : PSt) (t : Str) (hq : NoQuant t) :
    parseRe false (n + 1) st ('.' :: t) = (parseRe false n st t).map fun (b, st, r) => (Re.cat .any b, st, r) := by
  rw [parseRe.eq_def]
  simp only [Bool.false_eq_true, if_false, parseQuant_of_noQuant _ hq, atQuant_of_noQuant hq]
  rfl

theorem parseRe_many (n : Nat) (st : PSt) (t : Str) (hq : NoQuant t) :
    parseRe false (n + 1) st ('.' :: '*' :: t) =
      (parseRe false n st t).map fun (b, st, r) => (Re.cat (.star true .any) b, st, r) := by
  rw [parseRe.eq_def]
  simp only [Bool.false_eq_true, if_false, parseQuant_star _ hq, atQuant_of_noQuant hq]
  rfl

theorem parseRe_toks (eos : Bool) (ts : List Tok) (h : ∀ t ∈ ts, t.Ok) (n : Nat) (st : PSt) (hn : ts.length + 1 < n) :
    parseRe false n st (toksText eos ts) = some (toksRe eos ts, st, []) := by
  induction ts generalizing n with
  | nil =>
    obtain ⟨n, rfl⟩ : ∃ k, n = k + 2 := ⟨n - 2, by simp at hn; omega⟩
    cases eos <;> rfl
  | cons t ts ih =>
    obtain ⟨n, rfl⟩ : ∃ k, n = k + 1 := ⟨n - 1, by omega⟩
    have hq := noQuant_toks eos ts (fun t ht => h t (by simp [ht]))
    have ih := ih (fun t ht => h t (by simp [ht])) n (by simp at hn; omega)
    cases t with
    | lit c =>
      have : toksText eos (.lit c :: ts) = c :: toksText eos ts := by simp [toksText, Tok.text]
      rw [this, parseRe_lit n st c _ (h (.lit c) (by simp)) hq, ih]; rfl
    | any =>
      have : toksText eos (.any :: ts) = '.' :: toksText eos ts := by simp [toksText, Tok.text]
      rw [this, parseRe_any n st _ hq, ih]; rfl
    | many =>
      have : toksText eos (.many :: ts) = '.' :: '*' :: toksText eos ts := by simp [toksText, Tok.text]
      rw [this, parseRe_many n st _ hq, ih]; rfl

theorem toksText_length (eos : Bool) (ts : List Tok) : ts.length ≤ (toksText eos ts).length := by
  unfold toksText
  rw [List.length_append, List.length_flatten]
  induction ts with
  | nil => simp
  | cons t ts ih =>
    have : 1 ≤ t.text.length := by cases t <;> simp [Tok.text]
    simp only [List.map_cons, List.sum_cons, List.length_cons, List.map_map] at *
    omega

theorem compile_toks (eos : Bool) (ts : List Tok) (h : ∀ t ∈ ts, t.Ok) :
    compile (toksText eos ts) = some ⟨toksRe eos ts, []⟩ := by
  unfold compile
  have hl := toksText_length eos ts
  by_cases hz : toksText eos ts = []
  · have : ts = [] := by
      rw [hz] at hl; exact List.length_eq_zero_iff.1 (by simpa using hl)
    subst this
    cases eos
    · rfl
    · cases hz
  · have hl' : 0 < (toksText eos ts).length := List.length_pos_iff.2 hz
    rw [show 2 * (toksText eos ts).length + 2 = (2 * (toksText eos ts).length + 1) + 1 from rfl, parseRe.eq_def]
    simp only [if_true]
    rw [parseRe_toks eos ts h _ _ (by omega)]

theorem ms_cat (a b : Re) (s : St) : ms (Re.cat a b) s = ms (.seq a b) s := by
  have key : ∀ (x y : Str) (k : St → List St), (ms (.lit (x ++ y)) s).flatMap k = ((ms (.lit x) s).flatMap (ms (.lit y))).flatMap k := by
    intro x y k
    simp only [ms]
    by_cases hx : x.isPrefixOf s.rest = true
    · obtain ⟨r, hr⟩ := List.isPrefixOf_iff_prefix.1 hx
      simp only [hx, if_true, List.flatMap_cons, List.flatMap_nil, List.append_nil]
      rw [← hr]
      simp only [List.drop_left, List.length_append, Nat.add_assoc]
      by_cases hy : y.isPrefixOf r = true
      · have h2 : (x ++ y).isPrefixOf (x ++ r) = true := by
          rw [List.isPrefixOf_iff_prefix] at *; exact (List.prefix_append_right_inj x).2 hy
        have h3 : x.length + y.length = (x ++ y).length := by simp
        simp only [hy, h2, if_true, List.flatMap_cons, List.flatMap_nil, List.append_nil]
        congr 2
        rw [← List.drop_drop, List.drop_left]
      · have h2 : ¬ (x ++ y).isPrefixOf (x ++ r) = true := by
          rw [List.isPrefixOf_iff_prefix] at *; exact fun h => hy ((List.prefix_append_right_inj x).1 h)
        simp [hy, h2]
    · have h2 : ¬ (x ++ y).isPrefixOf s.rest = true := by
        rw [List.isPrefixOf_iff_prefix] at *
        exact fun h => hx ((List.prefix_append x y).trans h)
      simp [hx, h2]
  unfold Re.cat
  split
  · simp [ms]
  · rename_i x y
    have := key x y (fun t => [t])
    simpa [ms] using this
  · rename_i x y r
    have := key x y (ms r)
    simp only [ms] at this ⊢
    rw [this, List.flatMap_assoc]
  · rfl

theorem mem_star_any (s t : St) : t ∈ ms (.star true .any) s ↔
    ∃ u v, s.rest = u ++ v ∧ '\n' ∉ u ∧ t = ⟨s.pos + u.length, v, s.caps⟩ := by
  obtain ⟨pos, rest, caps⟩ := s
  induction rest generalizing pos with
  | nil =>
    rw [ms_star]
    simp [ms]
  | cons x xs ih =>
    rw [ms_star]
    simp only [ms, if_true, List.mem_append, List.mem_flatMap, List.mem_filter, List.mem_singleton]
    constructor
    · rintro (⟨t1, ⟨h1, _⟩, h2⟩ | rfl)
      · by_cases hx : x = '\n'
        · simp [hx] at h1
        · simp only [beq_iff_eq, hx, if_false, List.mem_singleton] at h1
          subst h1
          obtain ⟨u, v, h3, h4, h5⟩ := (ih (pos + 1)).1 h2
          refine ⟨x :: u, v, by simp at h3; simp [h3], by simp [h4, Ne.symm hx], ?_⟩
          rw [h5]; simp; omega
      · exact ⟨[], x :: xs, rfl, by simp, by simp⟩
    · rintro ⟨u, v, h1, h2, h3⟩
      cases u with
      | nil => right; rw [h3]; simp at h1; simp [← h1]
      | cons y u =>
        simp only [List.cons_append, List.cons.injEq] at h1
        obtain ⟨rfl, h1⟩ := h1
        simp only [List.mem_cons, not_or] at h2
        left
        refine ⟨⟨pos + 1, xs, caps⟩, ⟨?_, by simp⟩, (ih (pos + 1)).2 ⟨u, v, h1, h2.2, ?_⟩⟩
        · simp [Ne.symm h2.1]
        · rw [h3]; simp; omega

theorem mem_toksRe (eos : Bool) (ts : List Tok) (s t : St) : t ∈ ms (toksRe eos ts) s ↔
    ∃ u v, s.rest = u ++ v ∧ Den ts u ∧ t = ⟨s.pos + u.length, v, s.caps⟩ ∧ (eos = true → v = [] ∨ v = c!"\n") := by
  induction ts generalizing s with
  | nil =>
    obtain ⟨pos, rest, caps⟩ := s
    constructor
    · intro h
      refine ⟨[], rest, by simp, rfl, ?_, ?_⟩
      · cases eos <;> simp [toksRe, ms] at h <;> simp [h]
      · rintro rfl; simp [toksRe, ms] at h; exact h.1
    · rintro ⟨u, v, h1, rfl, h3, h4⟩
      simp only [List.nil_append] at h1
      subst h1
      cases eos
      · simp [toksRe, ms, h3]
      · have := h4 rfl
        simp [toksRe, ms, h3, this]
  | cons tok ts ih =>
    rw [toksRe, ms_cat]
    simp only [ms, List.mem_flatMap]
    cases tok with
    | lit c =>
      constructor
      · rintro ⟨t1, h1, h2⟩
        obtain ⟨u, v, h3, h4, h5, h6⟩ := (ih t1).1 h2
        simp only [Tok.re, ms] at h1
        split at h1
        · rename_i hp
          obtain ⟨r, hr⟩ := List.isPrefixOf_iff_prefix.1 hp
          simp only [List.mem_singleton] at h1
          subst h1
          rw [← hr] at h3
          simp at h3
          refine ⟨c :: u, v, by rw [← hr, h3]; rfl, ⟨u, rfl, h4⟩, ?_, h6⟩
          rw [h5]; simp; omega
        · cases h1
      · rintro ⟨u, v, h1, ⟨u', rfl, h2⟩, h3, h4⟩
        refine ⟨⟨s.pos + 1, u' ++ v, s.caps⟩, ?_, (ih _).2 ⟨u', v, rfl, h2, ?_, h4⟩⟩
        · simp [Tok.re, ms, h1]
        · rw [h3]; simp; omega
    | any =>
      constructor
      · rintro ⟨t1, h1, h2⟩
        obtain ⟨u, v, h3, h4, h5, h6⟩ := (ih t1).1 h2
        simp only [Tok.re, ms] at h1
        split at h1
        · cases h1
        · rename_i x xs hx
          split at h1
          · cases h1
          · rename_i hn
            simp only [List.mem_singleton] at h1
            subst h1
            refine ⟨x :: u, v, by rw [hx]; simp at h3; simp [h3], ⟨x, u, by simpa using hn, rfl, h4⟩, ?_, h6⟩
            rw [h5]; simp; omega
      · rintro ⟨u, v, h1, ⟨c, u', hc, rfl, h2⟩, h3, h4⟩
        refine ⟨⟨s.pos + 1, u' ++ v, s.caps⟩, ?_, (ih _).2 ⟨u', v, rfl, h2, ?_, h4⟩⟩
        · simp [Tok.re, ms, h1, hc]
        · rw [h3]; simp; omega
    | many =>
      constructor
      · rintro ⟨t1, h1, h2⟩
        obtain ⟨u, v, h3, h4, h5, h6⟩ := (ih t1).1 h2
        obtain ⟨a, b, h7, h8, h9⟩ := (mem_star_any s t1).1 h1
        subst h9
        refine ⟨a ++ u, v, by rw [h7]; simp at h3; simp [h3], ⟨a, u, h8, rfl, h4⟩, ?_, h6⟩
        rw [h5]; simp; omega
      · rintro ⟨u, v, h1, ⟨a, u', ha, rfl, h2⟩, h3, h4⟩
        refine ⟨⟨s.pos + a.length, u' ++ v, s.caps⟩, (mem_star_any _ _).2 ⟨a, u' ++ v, by rw [h1]; simp, ha, rfl⟩,
          (ih _).2 ⟨u', v, rfl, h2, ?_, h4⟩⟩
        rw [h3]; simp; omega

/-- exact meaning of the patterns -/
theorem matchDyn_toks (eos : Bool) (ts : List Tok) (h : ∀ t ∈ ts, t.Ok) (s : Str) :
    matchDyn (toksText eos ts) s = .ok true ↔
      ∃ u v, s = u ++ v ∧ Den ts u ∧ (eos = true → v = [] ∨ v = c!"\n") := by
  unfold matchDyn
  rw [compile_toks eos ts h]
  simp only [Except.ok.injEq]
  rw [reMatch_isSome_iff]
  constructor
  · rintro ⟨t, ht⟩
    obtain ⟨u, v, h1, h2, _, h4⟩ := (mem_toksRe eos ts _ t).1 ht
    exact ⟨u, v, h1, h2, h4⟩
  · rintro ⟨u, v, h1, h2, h3⟩
    exact ⟨_, (mem_toksRe eos ts ⟨0, s, []⟩ _).2 ⟨u, v, h1, h2, rfl, h3⟩⟩

theorem matchDyn_toks_ok (eos : Bool) (ts : List Tok) (h : ∀ t ∈ ts, t.Ok) (s : Str) :
    ∃ b, matchDyn (toksText eos ts) s = .ok b := by
  unfold matchDyn
  rw [compile_toks eos ts h]
  exact ⟨_, rfl⟩

end Oelint

import Verif.Lemmas.Kinds
import Verif.Lemmas.Shipped
import Verif.Props.Known
/-! # C103: which kind of item a statement becomes; what the patterns mean -/
set_option linter.unusedSectionVars false
namespace Oelint
open Spec

section
variable [Uni]

/-- **C103** Whatever the text, `match` with a pattern succeeds if and only if the pattern, read as a regular expression and without any
matching strategy, describes the beginning of the text; what is found is described by the pattern. -/
theorem C103_match (r : Re) (hb : Backtracks r) (t : Str) :
    ((reMatch r t).isSome ↔ Describes r t) ∧
    ∀ m, reMatch r t = some m → ∃ rest, t = m.text ++ rest ∧ Spells r (0, t) (m.text.length, rest) := by
  refine ⟨reMatch_describes hb t, fun m hm => ?_⟩
  obtain ⟨-, rest, h1, h2, h3⟩ := matchAt_reads hb hm
  rw [h3, Nat.zero_add] at h1
  exact ⟨rest, h2, h1⟩

/-- **C103** `search` finds something if and only if the pattern describes a stretch of the text, and then the first such place. -/
theorem C103_search (r : Re) (hb : Backtracks r) (t : Str) :
    ((reSearch r t).isSome ↔ ∃ a b, t = a ++ b ∧ ∃ c, Spells r (a.length, b) c) ∧
    ∀ m, reSearch r t = some m → ∃ a rest, t = a ++ m.text ++ rest ∧ m.start = a.length ∧
      Spells r (a.length, m.text ++ rest) (a.length + m.text.length, rest) ∧
      ∀ a' b', t = a' ++ b' → a'.length < a.length → ¬ ∃ c, Spells r (a'.length, b') c := by
  have key : ∀ (b pre : Str), 
      ((searchFrom r pre.length b).isSome ↔ ∃ a b', b = a ++ b' ∧ ∃ c, Spells r (pre.length + a.length, b') c) ∧
      ∀ m, searchFrom r pre.length b = some m → ∃ a rest, b = a ++ m.text ++ rest ∧ m.start = pre.length + a.length ∧
        Spells r (pre.length + a.length, m.text ++ rest) (pre.length + a.length + m.text.length, rest) ∧
        ∀ a' b', b = a' ++ b' → a'.length < a.length → ¬ ∃ c, Spells r (pre.length + a'.length, b') c := by
    intro b
    induction b with
    | nil =>
      intro pre
      unfold searchFrom
      refine ⟨?_, fun m hm => ?_⟩
      · rw [matchAt_describes hb]
        constructor
        · exact fun h => ⟨[], [], rfl, h⟩
        · rintro ⟨a, b', e, h⟩
          obtain ⟨rfl, rfl⟩ := List.append_eq_nil_iff.1 e.symm
          exact h
      · obtain ⟨h0, rest, h1, h2, h3⟩ := matchAt_reads hb hm
        obtain ⟨e1, rfl⟩ := List.append_eq_nil_iff.1 h2.symm
        refine ⟨[], [], by simp [e1], h0, ?_, fun a' b' _ h => by simp at h⟩
        rw [h3] at h1
        simpa [e1] using h1
    | cons x b ih =>
      intro pre
      rw [searchFrom]
      have ih' := ih (pre ++ [x])
      rw [List.length_append, List.length_singleton] at ih'
      have hd := matchAt_describes hb pre.length (x :: b)
      cases hm : matchAt r pre.length (x :: b) with
      | some m =>
        rw [hm] at hd
        refine ⟨⟨fun _ => ⟨[], x :: b, rfl, hd.1 rfl⟩, fun _ => rfl⟩, ?_⟩
        intro m' e
        cases e
        obtain ⟨h0, rest, h1, h2, h3⟩ := matchAt_reads hb hm
        refine ⟨[], rest, by simpa using h2, h0, ?_, fun a' b' _ h => by simp at h⟩
        rw [h3] at h1
        simpa [← h2] using h1
      | none =>
        rw [hm] at hd
        simp only [Option.isSome_none, Bool.false_eq_true, false_iff] at hd
        refine ⟨?_, fun m hm' => ?_⟩
        · rw [ih'.1]
          constructor
          · rintro ⟨a, b', rfl, h⟩
            exact ⟨x :: a, b', rfl, by simpa [Nat.add_assoc, Nat.add_comm 1] using h⟩
          · rintro ⟨a, b', e, h⟩
            cases a with
            | nil => simp only [List.nil_append] at e; subst e; exact absurd h hd
            | cons y a =>
              cases e
              exact ⟨a, b', rfl, by simpa [Nat.add_assoc, Nat.add_comm 1] using h⟩
        · obtain ⟨a, rest, h1, h2, h3, h4⟩ := ih'.2 m hm'
          have e : pre.length + (x :: a).length = pre.length + 1 + a.length := by simp; omega
          refine ⟨x :: a, rest, by rw [h1]; simp, by rw [h2, e], by rw [e]; exact h3, ?_⟩
          intro a' b' eb hlt
          cases a' with
          | nil => simp only [List.nil_append] at eb; subst eb; exact hd
          | cons y a' =>
            cases eb
            have e' : pre.length + (x :: a').length = pre.length + 1 + a'.length := by simp; omega
            rw [e']
            exact h4 a' b' rfl (by simpa using hlt)
  have := key t []
  unfold reSearch
  simpa using this

/-- **C103** The kind of an item is decided by its own text (the lines put together): it is the first of the kinds, in the fixed order, as
which the text is written; `Item` if it is none of them. Two kinds are passed on in the cases of `PassedOn`. -/
theorem C103_kind (W : World) (n : Nat) (path : Str) (off : Int) (forced : Option Str) (s s' : Stash) (res : List Item)
    (hu : UsableConstants s.consts) (h : addFile W n path off forced s = (.ok res, s')) (it : Item) (hi : it ∈ res) :
    ∃ pre post, rules = pre ++ post ∧ (∀ x ∈ pre, ¬ WrittenAs x.2 (joined it.raw) ∨ PassedOn W s.consts x.1 (joined it.raw)) ∧
      ((post = [] ∧ it.payload.classifier = c!"Item") ∨
        ∃ x ∈ post.head?, WrittenAs x.2 (joined it.raw) ∧ it.payload.classifier = x.1) := by
  obtain ⟨fuel, l, p, s1, s2, d, it0, k, hc, hp⟩ := item_of_consts W (db := s.consts) ⟨hu, fun _ _ _ _ _ => rfl⟩ h hi
  obtain ⟨pre, post, h1, h2, h3⟩ := classify_kind W (addFile W fuel) (abspath W.cwd path) l p (joined it.raw) rules_order hc
  refine ⟨pre, post, h1, fun x hx => (h2 x hx).imp_right (passedOn_of W k hu), ?_⟩
  simpa only [hp] using h3

/-- **C103** Two statements that are put together to the same line are of the same kind, wherever they stand, unless one of them is passed on. -/
theorem C103_same_text (W W' : World) (n n' : Nat) (path path' : Str) (off off' : Int) (forced forced' : Option Str) (s s' t t' : Stash)
    (res res' : List Item) (hu : UsableConstants s.consts) (hu' : UsableConstants s'.consts)
    (h : addFile W n path off forced s = (.ok res, t)) (h' : addFile W' n' path' off' forced' s' = (.ok res', t'))
    (x y : Item) (hx : x ∈ res) (hy : y ∈ res') (e : joined x.raw = joined y.raw)
    (hp : ∀ k, ¬ PassedOn W s.consts k (joined x.raw) ∧ ¬ PassedOn W' s'.consts k (joined x.raw)) :
    x.payload.classifier = y.payload.classifier := by
  obtain ⟨a, b, h1, h2, h3⟩ := C103_kind W n path off forced s t res hu h x hx
  obtain ⟨a', b', h1', h2', h3'⟩ := C103_kind W' n' path' off' forced' s' t' res' hu' h' y hy
  rw [← e] at h2' h3'
  replace h2 : ∀ x' ∈ a, ¬ WrittenAs x'.2 (joined x.raw) := fun z hz => (h2 z hz).resolve_right (hp _).1
  replace h2' : ∀ x' ∈ a', ¬ WrittenAs x'.2 (joined x.raw) := fun z hz => (h2' z hz).resolve_right (hp _).2
  have first : ∀ (a b a' b' : List (Str × Str)), a ++ b = a' ++ b' →
      (∀ x' ∈ a, ¬ WrittenAs x'.2 (joined x.raw)) →
      (∃ z ∈ b'.head?, WrittenAs z.2 (joined x.raw)) → a.length ≤ a'.length := by
    intro a b a' b' e1 h1 ⟨z, hz, hw⟩
    by_contra hlt
    cases b' with
    | nil => simp at hz
    | cons w b' =>
      simp at hz
      subst hz
      have : a = a' ++ w :: (b'.take (a.length - a'.length - 1)) := by
        have := congrArg (List.take a.length) e1
        rw [List.take_left, List.take_append, List.take_of_length_le (by omega)] at this
        rw [this]
        congr 1
        cases hk : a.length - a'.length with
        | zero => omega
        | succ k => simp
      exact h1 w (by rw [this]; simp) hw
  have bound : ∀ (a b : List (Str × Str)), rules = a ++ b → a.length ≤ rules.length := fun a b e => by rw [e]; simp
  rcases h3 with ⟨rfl, e1⟩ | ⟨z, hz, hw, e1⟩
  · rcases h3' with ⟨rfl, e2⟩ | ⟨z', hz', hw', e2⟩
    · rw [e1, e2]
    · have := first a [] a' b' (h1.symm.trans h1') h2 ⟨z', hz', hw'⟩
      cases b' with
      | nil => simp at hz'
      | cons w b' =>
        have l1 := congrArg List.length h1
        have l2 := congrArg List.length h1'
        simp at l1 l2
        omega
  · rcases h3' with ⟨rfl, e2⟩ | ⟨z', hz', hw', e2⟩
    · have := first a' [] a b (h1'.symm.trans h1) h2' ⟨z, hz, hw⟩
      cases b with
      | nil => simp at hz
      | cons w b =>
        have l1 := congrArg List.length h1
        have l2 := congrArg List.length h1'
        simp at l1 l2
        omega
    · have i1 := first a b a' b' (h1.symm.trans h1') h2 ⟨z', hz', hw'⟩
      have i2 := first a' b' a b (h1'.symm.trans h1) h2' ⟨z, hz, hw⟩
      obtain ⟨rfl, rfl⟩ := List.append_inj (h1.symm.trans h1') (by omega)
      rw [hz] at hz'
      cases hz'
      rw [e1, e2]

/-- **C103** With the shipped constants no `include` is passed on: the kind of an item is the first as which its text is written, where
`addtask` does not count for what mentions the scripts of a package. -/
theorem C103_shipped (W : World) (n : Nat) (path : Str) (off : Int) (forced : Option Str) (s s' : Stash) (res : List Item)
    (hs : StartsShipped W s) (h : addFile W n path off forced s = (.ok res, s')) (it : Item) (hi : it ∈ res) :
    ∃ pre post, rules = pre ++ post ∧ (∀ x ∈ pre, WrittenAs x.2 (joined it.raw) → x.1 = c!"TaskAdd" ∧
        ∃ w ∈ [c!"pkg_preinst", c!"pkg_postinst", c!"pkg_prerm", c!"pkg_postrm"], w <:+: joined it.raw) ∧
      ((post = [] ∧ it.payload.classifier = c!"Item") ∨
        ∃ x ∈ post.head?, WrittenAs x.2 (joined it.raw) ∧ it.payload.classifier = x.1) := by
  obtain ⟨h1, h2, h3⟩ := startsShipped_consts hs
  obtain ⟨pre, post, q1, q2, q3⟩ := C103_kind W n path off forced s s' res h1 h it hi
  refine ⟨pre, post, q1, fun x hx hw => ?_, q3⟩
  rcases (q2 x hx).resolve_left (fun hn => hn hw) with hp | ⟨-, a, b, c, d, ign, -, -, h5, h6⟩
  · exact hp
  · have := both_ignoreInclude (db := shippedDb) W (s := s) (s' := { s with consts := shippedDb }) ⟨h1, h2.1⟩
      ⟨shipped_usable, fun _ _ _ _ _ => rfl⟩
    rw [h5] at this
    have e : includeIgnore shippedDb = .ok (.list []) := rfl
    rw [e] at this
    cases this
    cases h6

end

section
attribute [local instance] Sample.asciiUni

/-- the pattern of variables describes this text, with any matching strategy -/
example : ∃ p, compile c! r##"^(?P<varname>([A-Z0-9a-z_.-]|\$|\{|\}|:)+?)(?P<varop>(\s|\t)*(\+|\?|\:|\.)*=(\+|\.)*(\s|\t)*)(?P<varval>.*)"## = some p ∧
    Backtracks p.re ∧ Describes p.re c!"A:b += \"1\"" ∧ ¬ Describes p.re c!"A:b \"1\"" := by
  refine ⟨_, reVar_src, by simp [Backtracks, reVar], ?_, ?_⟩
  · exact (C103_match reVar.re (by simp [Backtracks, reVar]) _).1.1 (by decide +kernel)
  · intro h
    exact absurd ((C103_match reVar.re (by simp [Backtracks, reVar]) _).1.2 h) (by decide +kernel)

/-- `search` finds the first comment sign -/
example : ∃ m, reSearch (.lit c!"#") c!"a # b # c" = some m ∧ m.start = 2 ∧
    ∀ a' b', c!"a # b # c" = a' ++ b' → a'.length < 2 → ¬ ∃ c, Spells (.lit c!"#") (a'.length, b') c := by
  obtain ⟨m, hm⟩ := Option.isSome_iff_exists.1 (show (reSearch (.lit c!"#") c!"a # b # c").isSome = true by decide +kernel)
  have h2 : m.start = 2 := by
    have : (reSearch (.lit c!"#") c!"a # b # c").map (·.start) = some 2 := by decide +kernel
    rw [hm] at this
    exact Option.some.inj this
  obtain ⟨a, rest, -, h3, -, h4⟩ := (C103_search (.lit c!"#") trivial c!"a # b # c").2 m hm
  refine ⟨m, hm, h2, ?_⟩
  rw [← h3, h2] at h4
  exact h4

/-- a recipe with a statement of several kinds -/
def Sample.kinds : World :=
  Sample.world [(c!"/w/r.bb", c!"# A = \"1\"\nA = \"1\"\nB[x] = \"1\"\ninherit \\\n  x\naddtask pkg_postinst_x = \"1\"\n%\n")]

/-- the recipe read with usable constants: the hypotheses of `C103_kind` hold for all six items -/
example : ∃ res s', addFile Sample.kinds 3 c!"/w/r.bb" 0 none (Stash.init false false Sample.constants 0) = (.ok res, s') ∧
    res.map (·.payload.classifier) = [c!"Comment", c!"Variable", c!"FlagAssignment", c!"Inherit", c!"Item", c!"Item"] ∧
    (∀ it ∈ res, ∃ pre post, rules = pre ++ post ∧
      (∀ x ∈ pre, ¬ WrittenAs x.2 (joined it.raw) ∨ PassedOn Sample.kinds Sample.constants x.1 (joined it.raw)) ∧
      ((post = [] ∧ it.payload.classifier = c!"Item") ∨
        ∃ x ∈ post.head?, WrittenAs x.2 (joined it.raw) ∧ it.payload.classifier = x.1)) := by
  obtain ⟨res, s', h, hc⟩ := Sample.okAnd_iff.1 (show Sample.okAnd (addFile Sample.kinds 3 c!"/w/r.bb" 0 none (Stash.init false false Sample.constants 0))
    (fun r => r.map (·.payload.classifier) == [c!"Comment", c!"Variable", c!"FlagAssignment", c!"Inherit", c!"Item", c!"Item"]) = true by decide +kernel)
  exact ⟨res, s', h, by simpa using hc, fun it hi => C103_kind _ _ _ _ _ _ _ _ Sample.usableConstants h it hi⟩

/-- the same statement in another recipe is of the same kind -/
example : ∀ res s' res' t', addFile Sample.kinds 3 c!"/w/r.bb" 0 none { Stash.init false false shippedDb 0 with nextUid := 1 } = (.ok res, s') →
    addFile (Sample.world [(c!"/w/q.bbclass", c!"do_x() {\n}\nA = \"1\"\n")]) 3 c!"/w/q.bbclass" 7 none (Stash.init true false shippedDb 5) = (.ok res', t') →
    ∀ x ∈ res, ∀ y ∈ res', joined x.raw = c!"A = \"1\"" → joined y.raw = c!"A = \"1\"" → x.payload.classifier = y.payload.classifier := by
  intro res s' res' t' h h' x hx y hy e e'
  refine C103_same_text _ _ _ _ _ _ _ _ _ _ _ _ _ _ _ _ shipped_usable shipped_usable h h' x y hx hy (e.trans e'.symm) ?_
  have key : ∀ W k, ¬ PassedOn W shippedDb k c!"A = \"1\"" := by
    rintro W k (⟨-, w, hw, hi⟩ | ⟨-, a, b, c, d, ign, -, -, h5, h6⟩)
    · revert hi; revert w; decide +kernel
    · have e : includeIgnore shippedDb = .ok (.list []) := rfl
      rw [e] at h5
      cases h5
      cases h6
  rw [e]
  exact fun k => ⟨key _ k, key _ k⟩

/-- both are variables -/
example : Sample.okAnd (addFile (Sample.world [(c!"/w/q.bbclass", c!"do_x() {\n}\nA = \"1\"\n")]) 3 c!"/w/q.bbclass" 7 none (Stash.init true false shippedDb 5))
    (fun r => r.map (fun i => (joined i.raw, i.payload.classifier)) == [(c!"do_x() {}", c!"Function"), (c!"A = \"1\"", c!"Variable")]) = true := by
  decide +kernel

end
end Oelint

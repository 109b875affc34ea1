import Verif.Lemmas.Append
import Verif.Lemmas.Glob
import Verif.Spec.Appends
/-! The names of `.bbappend` files and recipes (C41, C42). -/
set_option linter.unusedSectionVars false
set_option linter.unusedSimpArgs false
namespace Oelint
variable [Uni]
open Spec

theorem basename_file {dir n : Str} (h : '/' ∉ n) : basename (dir ++ c!"/" ++ n) = n := by
  unfold basename
  have h1 : (dir ++ c!"/" ++ n).reverse = n.reverse ++ '/' :: dir.reverse := by simp
  rw [h1, List.takeWhile_append_of_pos (by
    intro a ha
    rw [List.mem_reverse] at ha
    simp only [bne_iff_ne, ne_eq]
    rintro rfl; exact h ha)]
  simp

theorem basename_isFile {p stem ext : Str} (h : IsFile p stem ext) (he : '/' ∉ ext) : basename p = stem ++ ext := by
  obtain ⟨dir, rfl, hs⟩ := h
  rw [List.append_assoc]
  exact basename_file (by simp [hs, he])

/-- replacing an extension -/
theorem replaceAll_ext {o new s : Str} (ho : '.' ∉ o) (h : ¬ ('.' :: o) <:+: s) :
    replaceAll ('.' :: o) new (s ++ '.' :: o) = s ++ new := by
  unfold replaceAll
  simp only [List.isEmpty_cons, Bool.false_eq_true, if_false]
  induction s with
  | nil =>
    have := replaceGo_prefix (old := '.' :: o) (new := new) (by simp) []
    rw [List.append_nil] at this
    rw [List.nil_append, this]
    simp [replaceGo]
  | cons c t ih =>
    have hn : ¬ ('.' :: o) <+: c :: (t ++ '.' :: o) := by
      intro hp
      have hp' : ('.' :: o) <+: (c :: t) ++ '.' :: o := hp
      have hp2 : ('.' :: o) <+: (c :: t) ∨ ∃ r, '.' :: o = (c :: t) ++ r ∧ r <+: '.' :: o := by
        rcases List.prefix_or_prefix_of_prefix hp' (List.prefix_append (c :: t) ('.' :: o)) with h1 | ⟨r, h1⟩
        · exact Or.inl h1
        · exact Or.inr ⟨r, h1.symm, (List.prefix_append_right_inj (c :: t)).1 (h1 ▸ hp')⟩
      rcases hp2 with h1 | ⟨r, h1, h2⟩
      · exact h h1.isInfix
      · -- the name ends inside the extension
        simp only [List.cons_append, List.cons.injEq] at h1
        obtain ⟨rfl, h1⟩ := h1
        cases r with
        | nil =>
          rw [List.append_nil] at h1
          subst h1
          exact h List.infix_rfl
        | cons x r =>
          obtain ⟨q, hq⟩ := h2
          simp only [List.cons_append, List.cons.injEq] at hq
          apply ho
          rw [h1]
          simp [hq.1]
    rw [List.cons_append, replaceGo_not_prefix _ _ hn, ih (fun hh => h (hh.trans (List.infix_cons List.infix_rfl)))]
    rfl

/-- the pieces of the pattern of a stem -/
def stemTok (c : Char) : Tok := if c = '%' then .many else if c = '.' then .any else .lit c

theorem stemToks_text (s : Str) : (s.map stemTok).map Tok.text = s.map (fun c => if c = '%' then c!".*" else [c]) := by
  rw [List.map_map]
  apply List.map_congr_left
  intro c _
  simp only [Function.comp, stemTok]
  split
  · rfl
  · split
    · rename_i h; simp [Tok.text, h]
    · rfl

theorem den_glob (s u : Str) : Den (s.map stemTok) u ↔ Glob s u := by
  induction s generalizing u with
  | nil =>
    constructor
    · intro h; rw [show u = [] from h]; exact .nil
    · intro h; cases h; rfl
  | cons c t ih =>
    rw [List.map_cons]
    unfold stemTok
    split
    · rename_i hc
      subst hc
      constructor
      · rintro ⟨a, u', ha, rfl, h⟩; exact .percent ha ((ih _).1 h)
      · intro h
        cases h with
        | percent ha h => exact ⟨_, _, ha, rfl, (ih _).2 h⟩
        | char h1 _ _ => exact absurd rfl h1
    · rename_i hc
      split
      · rename_i hd
        subst hd
        constructor
        · rintro ⟨a, u', ha, rfl, h⟩; exact .dot ha ((ih _).1 h)
        · intro h
          cases h with
          | dot ha h => exact ⟨_, _, ha, rfl, (ih _).2 h⟩
          | char _ h1 _ => exact absurd rfl h1
      · rename_i hd
        constructor
        · rintro ⟨u', rfl, h⟩; exact .char hc hd ((ih _).1 h)
        · intro h
          cases h with
          | percent => exact absurd rfl hc
          | dot => exact absurd rfl hd
          | char _ _ h => exact ⟨_, rfl, (ih _).2 h⟩

theorem glob_append {a b u : Str} : Glob (a ++ b) u ↔ ∃ v w, u = v ++ w ∧ Glob a v ∧ Glob b w := by
  induction a generalizing u with
  | nil =>
    constructor
    · intro h; exact ⟨[], u, rfl, .nil, h⟩
    · rintro ⟨v, w, rfl, h1, h2⟩; cases h1; exact h2
  | cons c t ih =>
    constructor
    · intro h
      rw [List.cons_append] at h
      cases h with
      | percent ha h =>
        obtain ⟨v, w, rfl, h1, h2⟩ := ih.1 h
        exact ⟨_ ++ v, w, by simp, .percent ha h1, h2⟩
      | dot ha h =>
        obtain ⟨v, w, rfl, h1, h2⟩ := ih.1 h
        exact ⟨_ :: v, w, by simp, .dot ha h1, h2⟩
      | char h3 h4 h =>
        obtain ⟨v, w, rfl, h1, h2⟩ := ih.1 h
        exact ⟨_ :: v, w, by simp, .char h3 h4 h1, h2⟩
    · rintro ⟨v, w, rfl, h1, h2⟩
      rw [List.cons_append]
      cases h1 with
      | percent ha h => rw [List.append_assoc]; exact .percent ha (ih.2 ⟨_, _, rfl, h, h2⟩)
      | dot ha h => exact .dot ha (ih.2 ⟨_, _, rfl, h, h2⟩)
      | char h3 h4 h => exact .char h3 h4 (ih.2 ⟨_, _, rfl, h, h2⟩)

/-- a name fits itself -/
theorem glob_self {n : Str} (h : '\n' ∉ n) : Glob n n := by
  induction n with
  | nil => exact .nil
  | cons c t ih =>
    simp only [List.mem_cons, not_or] at h
    have ih := ih h.2
    by_cases hc : c = '%'
    · subst hc
      exact .percent (a := ['%']) (by decide) ih
    · by_cases hd : c = '.'
      · subst hd; exact .dot (by decide) ih
      · exact .char hc hd ih

theorem glob_bb (w : Str) : Glob c!".bb" w ↔ ∃ c, c ≠ '\n' ∧ w = [c, 'b', 'b'] := by
  constructor
  · intro h
    cases h with
    | dot hc h =>
      cases h with
      | char _ _ h =>
        cases h with
        | char _ _ h => cases h; exact ⟨_, hc, rfl⟩
    | char _ h => exact absurd rfl h
  · rintro ⟨c, hc, rfl⟩
    exact .dot hc (.char (by decide) (by decide) (.char (by decide) (by decide) .nil))

theorem stemTok_ok {s : Str} (h : ∀ c ∈ s, c ∉ c!"\\^$|?*+()[]{}") : ∀ t ∈ s.map stemTok, t.Ok := by
  intro t ht
  obtain ⟨c, hc, rfl⟩ := List.mem_map.1 ht
  unfold stemTok
  split
  · exact True.intro
  · split
    · exact True.intro
    · rename_i h1 h2
      have := h c hc
      show c ∉ special
      unfold special
      simp only [List.mem_cons, not_or] at this ⊢
      simp_all

theorem appendPattern_eq {a stem : Str} (h : IsFile a stem c!".bbappend") (hs : PlainAppend stem) :
    appendPattern a = toksText true ((stem ++ c!".bb").map stemTok) := by
  unfold appendPattern
  rw [basename_isFile h (by decide), show (c!".bbappend" : Str) = '.' :: c!"bbappend" from rfl,
    replaceAll_ext (by decide) hs.2, replaceAll_char]
  unfold toksText
  rw [stemToks_text, List.flatMap_def]
  simp

theorem appendPattern'_eq {a stem : Str} (h : IsFile a stem c!".bbappend") (hs : PlainAppend stem) :
    appendPattern' a = toksText false (stem.map stemTok) := by
  unfold appendPattern'
  rw [basename_isFile h (by decide), show (c!".bbappend" : Str) = '.' :: c!"bbappend" from rfl,
    replaceAll_ext (by decide) hs.2, replaceAll_char]
  unfold toksText
  rw [stemToks_text, List.flatMap_def]
  simp

theorem fwd_iff {a x stem n : Str} (ha : IsFile a stem c!".bbappend") (hs : PlainAppend stem) (hx : IsFile x n c!".bb") :
    FwdMatch a x ↔ Glob stem n := by
  unfold FwdMatch
  rw [appendPattern_eq ha hs, basename_isFile hx (by decide), matchDyn_toks _ _ (stemTok_ok (by
    intro c hc
    rcases List.mem_append.1 hc with hc | hc
    · exact hs.1 c hc
    · exact (show ∀ c ∈ c!".bb", c ∉ c!"\\^$|?*+()[]{}" by decide) c hc))]
  constructor
  · rintro ⟨u, v, h1, h2, h3⟩
    have hv : v = [] := by
      rcases h3 rfl with h4 | h4
      · exact h4
      · rw [h4] at h1
        have := congrArg List.reverse h1
        simp at this
    subst hv
    rw [List.append_nil] at h1
    subst h1
    rw [den_glob, glob_append] at h2
    obtain ⟨v, w, h4, h5, h6⟩ := h2
    obtain ⟨c, _, rfl⟩ := (glob_bb w).1 h6
    have h7 := congrArg List.reverse h4
    simp only [List.reverse_append, List.reverse_cons, List.reverse_nil, List.nil_append, List.cons_append, List.cons.injEq] at h7
    have : n = v := List.reverse_injective h7.2.2.2
    rw [this]; exact h5
  · intro h
    refine ⟨n ++ c!".bb", [], by simp, ?_, fun _ => Or.inl rfl⟩
    rw [den_glob, glob_append]
    exact ⟨n, c!".bb", rfl, h, (glob_bb _).2 ⟨'.', by decide, rfl⟩⟩

theorem bwd_iff {a x stem n : Str} (ha : IsFile a stem c!".bbappend") (hs : PlainAppend stem) (hx : IsFile x n c!".bb")
    (hn : PlainRecipe n) : BwdMatch a x ↔ ∃ u, u <+: n ∧ Glob stem u := by
  unfold BwdMatch
  rw [appendPattern'_eq ha hs, basename_isFile hx (by decide), show (c!".bb" : Str) = '.' :: c!"bb" from rfl,
    replaceAll_ext (by decide) hn, List.append_nil, matchDyn_toks _ _ (stemTok_ok hs.1)]
  constructor
  · rintro ⟨u, v, rfl, h2, _⟩
    exact ⟨u, List.prefix_append u v, (den_glob _ _).1 h2⟩
  · rintro ⟨u, ⟨v, rfl⟩, h⟩
    exact ⟨u, v, rfl, (den_glob _ _).2 h, fun hh => by cases hh⟩

theorem isFile_suffix {p stem ext : Str} (h : IsFile p stem ext) : ext <:+ p := by
  obtain ⟨dir, rfl, _⟩ := h
  exact List.suffix_append _ _

theorem pairs_finalize {W : World} {s : Stash} (h : Pairs s) (hc : Closed s) : Pairs (finalize W s).2 := by
  obtain ⟨_, s', h1⟩ := closed_finalize W s hc
  obtain ⟨items, map, hf, hg⟩ := finalize_frame W s
  obtain ⟨h2, _⟩ := finalize_ok h1
  have hgrow : ∀ k v, v ∈ links s k → v ∈ links (finalize W s).2 k := by
    intro k v hv
    rw [h1]
    exact h2.grow k v hv
  have hi : (finalize W s).2.items = items := by rw [hf]
  refine ⟨fun it hit => ?_, fun i hi' j hj g1 g2 g3 g4 => ?_⟩
  · rw [hi] at hit
    obtain ⟨x, hx, fs, he⟩ := forall₂_mem_right hg hit
    rw [he]; exact h.1 x hx
  · rw [hi] at hi' hj
    obtain ⟨x, hx, fs, rfl⟩ := forall₂_mem_right hg hi'
    obtain ⟨y, hy, fs', rfl⟩ := forall₂_mem_right hg hj
    obtain ⟨h3, h4⟩ := h.2 x hx y hy g1 g2 g3 g4
    exact ⟨hgrow _ _ h3, h4⟩

theorem history_pairs {W : World} {s s' : Stash} (h : History W Call.forward s s') (hs : Closed s ∧ Pairs s) :
    Closed s' ∧ Pairs s' := by
  induction h with
  | nil => exact hs
  | snoc h depth c hc ih =>
    cases c with
    | addFile p o fo => exact addFile_pairs W depth p o hc fo _ ih
    | append l => cases hc
    | remove l => cases hc
    | finalize => exact ⟨(closed_finalize W _ ih.1).1, pairs_finalize ih.2 ih.1⟩

theorem pairs_init (ns neg : Bool) (consts : J) (uid : Nat) : Pairs (Stash.init ns neg consts uid) :=
  ⟨by simp [Stash.init], by simp [Stash.init]⟩

end Oelint

import Verif.Lemmas.AppendNames
import Verif.Lemmas.Chunks
import Verif.Lemmas.Expand
import Verif.Spec.RecipeNames
/-! Names of recipes (C56, C57). -/
set_option linter.unusedSectionVars false
set_option linter.unusedSimpArgs false
namespace Oelint
variable [Uni]
open Spec

theorem splitext_base {stem ext : Str} (h1 : '/' ∉ stem) (h2 : '/' ∉ ext) (h3 : '.' ∉ ext) (h4 : ∃ c ∈ stem, c ≠ '.') :
    splitext (stem ++ '.' :: ext) = (stem, '.' :: ext) := by
  have hb : basename (stem ++ '.' :: ext) = stem ++ '.' :: ext := by
    unfold basename
    rw [List.takeWhile_eq_self_iff.2, List.reverse_reverse]
    intro c hc
    simp only [List.reverse_append, List.reverse_cons, List.mem_append, List.mem_reverse, List.mem_singleton] at hc
    simp only [bne_iff_ne, ne_eq]
    rintro rfl
    rcases hc with (hc | hc) | hc
    · exact h2 hc
    · cases hc
    · exact h1 hc
  have hr : (stem ++ '.' :: ext).reverse = ext.reverse ++ '.' :: stem.reverse := by simp
  have hp : ∀ c ∈ ext.reverse, (c != '.') = true := by
    intro c hc
    simp only [bne_iff_ne, ne_eq]
    rintro rfl; exact h3 (List.mem_reverse.1 hc)
  unfold splitext
  simp only [hb, hr]
  rw [List.takeWhile_append_of_pos hp, List.dropWhile_append_of_pos hp]
  have h5 : stem.all (· == '.') = false := by
    obtain ⟨c, hc, hne⟩ := h4
    rw [← Bool.not_eq_true, List.all_eq_true]
    intro h
    exact hne (by simpa using h c hc)
  simp [h5]
  have h6 : stem.length + (ext.length + 1) - ext.length - 1 = stem.length := by omega
  rw [h6, List.take_left]

theorem recipeStem {path stem ext : Str} (h : IsFile path stem ('.' :: ext)) (h2 : '/' ∉ ext) (h3 : '.' ∉ ext)
    (h4 : ∃ c ∈ stem, c ≠ '.') : (splitext (basename path)).1 = stem := by
  rw [basename_isFile h (by simp [h2])]
  obtain ⟨dir, _, hs⟩ := h
  rw [splitext_base hs h2 h3 h4]

/-! ## base names -/

theorem subGo_skip (r : Re) (f : Mt → Str) (pos k : Nat) (t : Str) (h : t.length ≤ k) : subGo r f pos k t = [] := by
  induction t generalizing pos k with
  | nil => cases k <;> rfl
  | cons c t ih =>
    cases k with
    | zero => simp at h
    | succ k => rw [subGo]; exact ih _ _ (by simpa using h)

theorem matchAt_bos {r : Re} {pos : Nat} {t : Str} (hp : pos ≠ 0) : matchAt (.seq .bos r) pos t = none := by
  rw [matchAt_eq_run, run_seq, run_bos, if_neg hp]

theorem subGo_bos (r : Re) (f : Mt → Str) (pos : Nat) (t : Str) (h : pos ≠ 0) : subGo (.seq .bos r) f pos 0 t = t := by
  induction t generalizing pos with
  | nil => rfl
  | cons c t ih => rw [subGo, matchAt_bos h]; simp only; rw [ih _ (by omega)]

/-- text after the substitution of the only match -/
def subWhole (f : Mt → Str) (s : Str) : Option Mt → Str
  | some m => if s = [] then [] else f m
  | none => s

/-- an anchored pattern that matches the whole text or nothing -/
theorem reSub_whole (r : Re) (f : Mt → Str) (s : Str) (h : ∀ m, reMatch (.seq .bos r) s = some m → m.stop = s.length) :
    reSub (.seq .bos r) f s = subWhole f s (reMatch (.seq .bos r) s) := by
  unfold reSub
  cases s with
  | nil => cases reMatch (.seq .bos r) [] <;> rfl
  | cons c t =>
    rw [subGo]
    unfold reMatch at h ⊢
    cases hm : matchAt (.seq .bos r) 0 (c :: t) with
    | none => simp only [subWhole]; rw [subGo_bos _ _ _ _ (by omega)]
    | some m =>
      simp only [subWhole]
      rw [if_neg (by simp), subGo_skip _ _ _ _ _ (by rw [h m hm]; simp), List.append_nil]

/-- a greedy `.*` first takes everything -/
theorem run_any_all {α : Type} (k : St → Option α) (v : α) (pos : Nat) (t : Str) (caps : List (Nat × Str)) (hn : '\n' ∉ t)
    (hk : k ⟨pos + t.length, [], caps⟩ = some v) : run (.star true .any) k ⟨pos, t, caps⟩ = some v := by
  induction t generalizing pos with
  | nil => rw [run_star_char_nil charRe_any]; simpa using hk
  | cons x t ih =>
    simp only [List.mem_cons, not_or] at hn
    rw [run_star_char_cons charRe_any, if_pos (by simp [Ne.symm hn.1])]
    rw [ih (pos + 1) hn.2 (by rw [← hk]; congr 2; simp; omega)]
    rfl

theorem run_star_grp_nil {α : Type} (n : Nat) (p : Str) (hp : p ≠ []) (k : St → Option α) (pos : Nat) (caps : List (Nat × Str)) :
    run (.star true (.grp n (.lit p))) k ⟨pos, [], caps⟩ = k ⟨pos, [], caps⟩ := by
  rw [run_star_greedy, run_grp, run_lit, if_neg (by simpa using hp)]; rfl

theorem reClassId_tail (s0 : St) (pos : Nat) (t : Str) (caps : List (Nat × Str)) (hn : '\n' ∉ t) :
    run (.seq (.grp 2 (.seq .any (.star true .any)))
      (.seq (.star true (.grp 3 (.lit c!"-native"))) (.star true (.grp 4 (.lit c!"-cross"))))) (fun u => some (mkMt s0 u))
      ⟨pos, t, caps⟩ =
    if t = [] then none else some (mkMt s0 ⟨pos + t.length, [], (2, t) :: caps⟩) := by
  cases t with
  | nil => rw [run_seq, run_grp, run_seq, run_any_nil]; rfl
  | cons x t =>
    simp only [List.mem_cons, not_or] at hn
    rw [run_seq, run_grp, run_seq, run_any_cons, if_neg (Ne.symm hn.1)]
    rw [run_any_all _ (mkMt s0 ⟨pos + (x :: t).length, [], (2, x :: t) :: caps⟩) _ _ _ hn.2]
    · simp
    · simp only
      rw [run_seq, run_star_grp_nil _ _ (by simp), run_star_grp_nil _ _ (by simp)]
      have h1 : pos + 1 + t.length - pos = (x :: t).length := by simp; omega
      rw [h1, List.take_length]
      have h2 : pos + 1 + t.length = pos + (x :: t).length := by simp; omega
      rw [h2]

theorem withoutPrefixes_ne {p s o : Str} (h : WithoutPrefixes p s o) (hs : s ≠ []) : o ≠ [] := by
  induction h with
  | done => exact hs
  | step hr _ ih => exact ih hr

theorem withoutPrefixes_suffix {p s o : Str} (h : WithoutPrefixes p s o) : o <:+ s := by
  induction h with
  | done => exact List.suffix_rfl
  | step hr _ ih => exact ih.trans (List.suffix_append _ _)

theorem run_prefixes (s0 : St) {s o : Str} (h : WithoutPrefixes c!"nativesdk-" s o) (hs : s ≠ []) (hn : '\n' ∉ s) (pos : Nat)
    (caps : List (Nat × Str)) : ∃ caps',
    run (.seq (.star true (.grp 1 (.lit c!"nativesdk-"))) (.seq (.grp 2 (.seq .any (.star true .any)))
      (.seq (.star true (.grp 3 (.lit c!"-native"))) (.star true (.grp 4 (.lit c!"-cross")))))) (fun u => some (mkMt s0 u))
      ⟨pos, s, caps⟩ = some (mkMt s0 ⟨pos + s.length, [], (2, o) :: caps'⟩) := by
  induction h generalizing pos caps with
  | @done s h =>
    refine ⟨caps, ?_⟩
    rw [run_seq, run_star_greedy, run_grp, run_lit]
    rw [reClassId_tail _ _ _ _ hn, if_neg hs]
    by_cases hp : c!"nativesdk-" <+: s
    · obtain ⟨r, hr⟩ := hp
      have := h r hr.symm
      subst this
      rw [List.append_nil] at hr
      subst hr
      rw [if_pos (List.prefix_rfl)]
      simp only [List.drop_length]
      rw [if_pos (by simp), run_star_grp_nil _ _ (by simp), reClassId_tail _ _ _ _ (by simp), if_pos rfl]
      rfl
    · rw [if_neg hp]; rfl
  | @step r o hr h ih =>
    have hn' : '\n' ∉ r := fun hh => hn (by simp [hh])
    obtain ⟨caps', hc⟩ := ih hr hn' (pos + (c!"nativesdk-").length)
      ((1, (c!"nativesdk-" ++ r).take (pos + (c!"nativesdk-").length - pos)) :: caps)
    refine ⟨caps', ?_⟩
    rw [run_seq] at hc
    rw [run_seq, run_star_greedy, run_grp, run_lit_append]
    simp only
    rw [if_pos (by simp), hc, Option.some_or]
    congr 3
    rw [List.length_append]; omega

theorem reSub_classId {s o : Str} (h : WithoutPrefixes c!"nativesdk-" s o) (hn : '\n' ∉ s) :
    reSub reClassId.re (fun m => (m.group 2).getD []) s = o := by
  by_cases hs : s = []
  · subst hs
    cases h
    · rfl
  · obtain ⟨caps', hr⟩ := run_prefixes ⟨0, s, []⟩ h hs hn 0 []
    have hm : reMatch reClassId.re s = some (mkMt ⟨0, s, []⟩ ⟨0 + s.length, [], (2, o) :: caps'⟩) := by
      rw [reMatch_eq_run, ← hr]
      show run (.seq .bos _) _ _ = _
      rw [run_seq, run_bos, if_pos rfl]
    have hr := reSub_whole (.seq (.star true (.grp 1 (.lit c!"nativesdk-"))) (.seq (.grp 2 (.seq .any (.star true .any)))
      (.seq (.star true (.grp 3 (.lit c!"-native"))) (.star true (.grp 4 (.lit c!"-cross"))))))
      (fun m => (m.group 2).getD []) s (by
        intro m h'
        have : reMatch reClassId.re s = some m := h'
        rw [hm] at this; cases this; simp [mkMt])
    have hr : reSub reClassId.re (fun m => (m.group 2).getD []) s =
      subWhole (fun m => (m.group 2).getD []) s (reMatch reClassId.re s) := hr
    rw [hr, hm, subWhole, if_neg hs]
    rfl

/-- the patterns for `-native` and `-cross` -/
theorem mem_suffixRe {p s : Str} {t : St} (hn : '\n' ∉ s) : t ∈ ms (.seq .bos (.seq (.grp 1 (.seq .any (.star true .any)))
      (.seq (.grp 2 (.lit p)) .eos))) ⟨0, s, []⟩ ↔
    ∃ b, b ≠ [] ∧ s = b ++ p ∧ t = ⟨s.length, [], [(2, p), (1, b)]⟩ := by
  constructor
  · intro h
    obtain ⟨u, h1, h2⟩ := mem_ms_seq.1 h
    obtain ⟨_, rfl⟩ := mem_ms_bos.1 h1
    obtain ⟨u, h3, h4⟩ := mem_ms_seq.1 h2
    obtain ⟨v, h5, h6⟩ := mem_ms_seq.1 h4
    simp only [ms, List.mem_map] at h3
    obtain ⟨u', h3, rfl⟩ := h3
    have h3 : u' ∈ ms (.seq .any (.star true .any)) ⟨0, s, []⟩ := by simpa only [ms] using h3
    obtain ⟨w, h7, h8⟩ := mem_ms_seq.1 h3
    obtain ⟨x, y, h9, hx, rfl⟩ := mem_ms_any.1 h7
    obtain ⟨z, q, h10, h11, rfl⟩ := (mem_star_any _ _).1 h8
    simp only at h9 h10
    subst h9
    simp only at h5
    have h5 : ∃ a ∈ ms (.lit p) ⟨0 + 1 + z.length, q, (1, (x :: y).take (0 + 1 + z.length - 0)) :: []⟩,
        v = ⟨a.pos, a.rest, (2, q.take (a.pos - (0 + 1 + z.length))) :: a.caps⟩ := by
      simp only [ms, List.mem_map] at h5 ⊢
      obtain ⟨a, ha, hv⟩ := h5
      exact ⟨a, ha, hv.symm⟩
    obtain ⟨a, ha, rfl⟩ := h5
    obtain ⟨⟨q', hq⟩, rfl⟩ := mem_ms_lit.1 ha
    simp only at hq h6
    subst hq
    subst h10
    rw [List.drop_left] at h6
    have hq' : q' = [] ∧ t = ⟨0 + 1 + z.length + p.length, q', (2, (p ++ q').take (0 + 1 + z.length + p.length - (0 + 1 + z.length))) ::
        (1, (x :: (z ++ (p ++ q'))).take (0 + 1 + z.length - 0)) :: []⟩ := by
      simp only [ms] at h6
      split at h6
      · rename_i he
        refine ⟨?_, by simpa using h6⟩
        simp only [Bool.or_eq_true, beq_iff_eq] at he
        rcases he with he | he
        · exact he
        · exfalso; apply hn; rw [he]; simp
      · cases h6
    obtain ⟨rfl, rfl⟩ := hq'
    refine ⟨x :: z, by simp, by simp, ?_⟩
    have e1 : 0 + 1 + z.length + p.length - (0 + 1 + z.length) = p.length := by omega
    have e2 : 0 + 1 + z.length - 0 = (x :: z).length := by simp; omega
    have e3 : x :: (z ++ (p ++ [])) = (x :: z) ++ p := by simp
    rw [e1, e2, e3, List.append_nil, List.take_length, List.take_left]
    congr 1
    simp; omega
  · rintro ⟨b, hb, rfl, rfl⟩
    cases b with
    | nil => exact absurd rfl hb
    | cons x z =>
      simp only [List.cons_append, List.mem_cons, not_or] at hn
      rw [mem_ms_seq]
      refine ⟨_, mem_ms_bos.2 ⟨rfl, rfl⟩, mem_ms_seq.2 ⟨⟨1 + z.length, p, [(1, x :: z)]⟩, ?_, mem_ms_seq.2
        ⟨⟨1 + z.length + p.length, [], [(2, p), (1, x :: z)]⟩, ?_, ?_⟩⟩⟩
      · have : (⟨1 + z.length, p, []⟩ : St) ∈ ms (.seq .any (.star true .any)) ⟨0, x :: z ++ p, []⟩ := by
          refine mem_ms_seq.2 ⟨⟨1, z ++ p, []⟩, mem_ms_any.2 ⟨x, z ++ p, rfl, Ne.symm hn.1, rfl⟩, ?_⟩
          exact (mem_star_any _ _).2 ⟨z, p, rfl, fun h => hn.2 (by simp [h]), rfl⟩
        have h2 : ms (.grp 1 (.seq .any (.star true .any))) ⟨0, x :: z ++ p, []⟩ =
          (ms (.seq .any (.star true .any)) ⟨0, x :: z ++ p, []⟩).map fun t =>
            ⟨t.pos, t.rest, (1, (x :: z ++ p).take (t.pos - 0)) :: t.caps⟩ := rfl
        rw [h2, List.mem_map]
        refine ⟨_, this, ?_⟩
        have e : 1 + z.length - 0 = (x :: z).length := by simp; omega
        rw [e, List.take_left]
      · have h2 : ms (.grp 2 (.lit p)) ⟨1 + z.length, p, [(1, x :: z)]⟩ =
          (ms (.lit p) ⟨1 + z.length, p, [(1, x :: z)]⟩).map fun t =>
            ⟨t.pos, t.rest, (2, p.take (t.pos - (1 + z.length))) :: t.caps⟩ := rfl
        rw [h2, List.mem_map]
        refine ⟨_, mem_ms_lit.2 ⟨List.prefix_rfl, rfl⟩, ?_⟩
        simp
      · have e : (x :: z ++ p).length = 1 + z.length + p.length := by simp; omega
        rw [e]
        simp [ms]

theorem reSub_suffix {p s o : Str} (h : WithoutSuffix p s o) (hn : '\n' ∉ s) :
    reSub (.seq .bos (.seq (.grp 1 (.seq .any (.star true .any))) (.seq (.grp 2 (.lit p)) .eos)))
      (fun m => (m.group 1).getD []) s = o := by
  have key : ∀ m, reMatch (.seq .bos (.seq (.grp 1 (.seq .any (.star true .any))) (.seq (.grp 2 (.lit p)) .eos))) s = some m →
      ∃ b, b ≠ [] ∧ s = b ++ p ∧ m.stop = s.length ∧ m.caps = [(2, p), (1, b)] := by
    intro m hm
    obtain ⟨t, ht, rfl⟩ := matchAt_mem hm
    obtain ⟨b, h1, h2, rfl⟩ := (mem_suffixRe hn).1 ht
    exact ⟨b, h1, h2, rfl, rfl⟩
  rw [reSub_whole _ _ _ (fun m hm => by obtain ⟨_, _, _, h, _⟩ := key m hm; exact h)]
  cases hm : reMatch (.seq .bos (.seq (.grp 1 (.seq .any (.star true .any))) (.seq (.grp 2 (.lit p)) .eos))) s with
  | none =>
    have hno : ∀ b, s = b ++ p → b = [] := by
      intro b hb
      by_cases h0 : b = []
      · exact h0
      · exfalso
        have := reMatch_isSome_iff.2 ⟨_, (mem_suffixRe (p := p) hn).2 ⟨b, h0, hb, rfl⟩⟩
        rw [hm] at this; cases this
    have ho : o = s := by
      rcases h with ⟨h1, h2⟩ | ⟨_, h2⟩
      · exact absurd (hno o h2) h1
      · exact h2
    rw [ho]; rfl
  | some m =>
    obtain ⟨b, h1, h2, _, h3⟩ := key m hm
    have ho : o = b := by
      rcases h with ⟨_, h5⟩ | ⟨h5, _⟩
      · rw [h2] at h5; exact (List.append_cancel_right h5).symm
      · exact absurd (h5 b h2) h1
    rw [ho]
    rw [subWhole, if_neg (by rintro rfl; have := h2.symm; simp at this; exact h1 this.1)]
    unfold Mt.group
    rw [h3]; rfl

theorem guessBase_spec {file n o : Str} (hn : guessRecipeName file = n) (h : BaseName n o) (hl : '\n' ∉ n) :
    guessBaseRecipeName file = o := by
  obtain ⟨a, b, h1, h2, h3⟩ := h
  unfold guessBaseRecipeName
  rw [hn, reSub_classId h1 hl]
  have ha : '\n' ∉ a := fun hh => hl ((withoutPrefixes_suffix h1).subset hh)
  have hb : '\n' ∉ b := by
    rcases h2 with ⟨_, h2⟩ | ⟨_, rfl⟩
    · exact fun hh => ha (by rw [h2]; simp [hh])
    · exact ha
  have e1 : reSub reClassIdNative.re (fun m => (m.group 1).getD []) a = b := reSub_suffix h2 ha
  have e2 : reSub reClassIdCross.re (fun m => (m.group 1).getD []) b = o := reSub_suffix h3 hb
  simp only
  rw [e1, e2]

theorem withoutPrefixes_exists (p s : Str) (hp : p ≠ []) : ∃ o, WithoutPrefixes p s o := by
  generalize hk : s.length = k
  induction k using Nat.strongRecOn generalizing s with
  | ind k ih =>
    by_cases h : ∃ r, r ≠ [] ∧ s = p ++ r
    · obtain ⟨r, hr, rfl⟩ := h
      have : 0 < p.length := List.length_pos_iff.2 hp
      obtain ⟨o, ho⟩ := ih r.length (by rw [List.length_append] at hk; omega) r rfl
      exact ⟨o, .step hr ho⟩
    · exact ⟨s, .done fun r hr => Classical.byContradiction fun hh => h ⟨r, hh, hr⟩⟩

theorem withoutSuffix_exists (p s : Str) : ∃ o, WithoutSuffix p s o := by
  by_cases h : ∃ b, b ≠ [] ∧ s = b ++ p
  · obtain ⟨b, h1, h2⟩ := h; exact ⟨b, Or.inl ⟨h1, h2⟩⟩
  · exact ⟨s, Or.inr ⟨fun b hb => Classical.byContradiction fun hh => h ⟨b, hh, hb⟩, rfl⟩⟩

theorem baseName_exists (n : Str) : ∃ o, BaseName n o := by
  obtain ⟨a, ha⟩ := withoutPrefixes_exists c!"nativesdk-" n (by simp)
  obtain ⟨b, hb⟩ := withoutSuffix_exists c!"-native" a
  obtain ⟨o, ho⟩ := withoutSuffix_exists c!"-cross" b
  exact ⟨o, a, b, ha, hb, ho⟩

end Oelint

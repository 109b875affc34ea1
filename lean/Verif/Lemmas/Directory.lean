import Verif.Lemmas.Parser
import Verif.Spec.Directory
/-! Paths and the working directory (C94). -/
set_option linter.unusedSectionVars false
set_option linter.unusedSimpArgs false
namespace Oelint
variable [Uni]
open Spec

/-! ## paths -/

theorem full_joinS : ∀ ns : List Str, full ns = '/' :: joinS c!"/" ns
  | [] => rfl
  | [n] => by simp [full, joinS]
  | n :: m :: ns => by
    have h := full_joinS (m :: ns)
    have h' : full (n :: m :: ns) = '/' :: n ++ full (m :: ns) := by simp [full]
    rw [h', h, joinS_cons c!"/" n (m :: ns) (by simp)]
    simp

/-- going back over the reversed names -/
def walkBack (acc : List Str) (c : Str) : List Str :=
  if c = [] ∨ c = c!"." then acc else if c = c!".." then acc.tail else c :: acc

theorem walkBack_names {acc : List Str} (h : ∀ n ∈ acc, FileName n) {c : Str} (hc : '/' ∉ c) : ∀ n ∈ walkBack acc c, FileName n := by
  unfold walkBack
  split
  · exact h
  · split
    · exact fun n hn => h n (List.mem_of_mem_tail hn)
    · rename_i h1 h2
      intro n hn
      rcases List.mem_cons.1 hn with rfl | hn
      · exact ⟨fun hh => h1 (Or.inl hh), fun hh => h1 (Or.inr hh), h2, hc⟩
      · exact h n hn

theorem normComps_eq : ∀ (cs acc : List Str), (∀ n ∈ acc, FileName n) → (∀ c ∈ cs, '/' ∉ c) →
    normComps true acc cs = (cs.foldl walkBack acc).reverse
  | [], acc, _, _ => rfl
  | c :: cs, acc, ha, hc => by
    have hn := walkBack_names ha (hc c (by simp))
    have ih := normComps_eq cs (walkBack acc c) hn (fun x hx => hc x (List.mem_cons_of_mem _ hx))
    rw [List.foldl_cons, ← ih, normComps]
    have hhead : (acc.head? == some c!"..") = false := by
      cases acc with
      | nil => rfl
      | cons a l =>
        have := (ha a (by simp)).2.2.1
        simpa using this
    by_cases h1 : c = [] ∨ c = c!"."
    · have : (c == [] || c == c!".") = true := by simpa using h1
      rw [if_pos this, walkBack, if_pos h1]
    · have : ¬ (c == [] || c == c!".") = true := by simpa using h1
      rw [if_neg this, walkBack, if_neg h1]
      by_cases h2 : c = c!".."
      · subst h2
        rw [hhead]
        simp
      · rw [if_neg h2]
        simp [h2]

theorem foldl_walk : ∀ (cs acc : List Str), (cs.foldl walkBack acc).reverse = cs.foldl walk acc.reverse
  | [], _ => rfl
  | c :: cs, acc => by
    rw [List.foldl_cons, List.foldl_cons, foldl_walk cs]
    congr 1
    unfold walkBack walk
    split
    · rfl
    · split
      · rw [List.dropLast_reverse]
      · simp

theorem walk_names : ∀ (cs ns : List Str), (∀ n ∈ ns, FileName n) → (∀ c ∈ cs, '/' ∉ c) → ∀ n ∈ cs.foldl walk ns, FileName n
  | [], _, h, _ => h
  | c :: cs, ns, h, hc => by
    refine walk_names cs (walk ns c) ?_ (fun x hx => hc x (List.mem_cons_of_mem _ hx))
    unfold walk
    split
    · exact h
    · split
      · exact fun n hn => h n (List.mem_of_mem_dropLast hn)
      · rename_i h1 h2
        intro n hn
        rcases List.mem_append.1 hn with hn | hn
        · exact h n hn
        · rw [List.mem_singleton] at hn
          subst hn
          exact ⟨fun hh => h1 (Or.inl hh), fun hh => h1 (Or.inr hh), h2, hc _ (by simp)⟩

theorem walk_of_names : ∀ (cs ns : List Str), (∀ c ∈ cs, FileName c) → cs.foldl walk ns = ns ++ cs
  | [], ns, _ => by simp
  | c :: cs, ns, h => by
    have hc := h c (by simp)
    have : walk ns c = ns ++ [c] := by
      unfold walk
      rw [if_neg (by rintro (hh | hh); exacts [hc.1 hh, hc.2.1 hh]), if_neg hc.2.2.1]
    rw [List.foldl_cons, this, walk_of_names cs _ (fun x hx => h x (List.mem_cons_of_mem _ hx))]
    simp

/-- the number of slashes an absolute path keeps in front -/
def slashes (p : Str) : Nat := if startsWith c!"///" p then 1 else if startsWith c!"//" p then 2 else 1

theorem normpath_abs {p : Str} (h : isAbs p = true) :
    normpath p = List.replicate (slashes p) '/' ++ joinS c!"/" ((splitC '/' p).foldl walk []) := by
  obtain ⟨t, rfl⟩ := (isAbs_cons p).1 h
  have hn : (if startsWith c!"///" ('/' :: t) then 1 else if startsWith c!"//" ('/' :: t) then 2
      else if startsWith c!"/" ('/' :: t) then 1 else 0) = slashes ('/' :: t) := by
    unfold slashes
    rw [show startsWith c!"/" ('/' :: t) = true from h]
    simp
  have h0 : slashes ('/' :: t) ≠ 0 := by
    unfold slashes
    split
    · simp
    · split <;> simp
  have hc : normComps true [] (splitC '/' ('/' :: t)) = (splitC '/' ('/' :: t)).foldl walk [] := by
    rw [normComps_eq _ _ (by simp) (fun c hc => splitC_no_sep hc), foldl_walk]
    rfl
  unfold normpath
  rw [if_neg (by simp)]
  simp only [hn]
  rw [show (slashes ('/' :: t) != 0) = true by simpa using h0, hc, if_neg]
  intro hh
  rw [List.isEmpty_iff, List.append_eq_nil_iff, List.replicate_eq_nil_iff] at hh
  exact h0 hh.1

theorem joinS_head {n : Str} {ns : List Str} (h : ∀ m ∈ n :: ns, FileName m) :
    ∃ x t, x ≠ '/' ∧ joinS c!"/" (n :: ns) = x :: t := by
  have hn := h n (by simp)
  cases n with
  | nil => exact absurd rfl hn.1
  | cons x t =>
    have hx : x ≠ '/' := fun hh => hn.2.2.2 (by simp [hh])
    cases ns with
    | nil => exact ⟨x, t, hx, rfl⟩
    | cons m ms => exact ⟨x, t ++ c!"/" ++ joinS c!"/" (m :: ms), hx, rfl⟩

theorem slashes_joined {n : Nat} (hn : n = 1 ∨ n = 2) {ns : List Str} (h : ∀ m ∈ ns, FileName m) :
    slashes (List.replicate n '/' ++ joinS c!"/" ns) = n := by
  cases ns with
  | nil => rcases hn with rfl | rfl <;> rfl
  | cons a l =>
    obtain ⟨x, t, hx, hj⟩ := joinS_head h
    rw [hj]
    have h1 : ('/' == x) = false := by simpa using fun hh => hx hh.symm
    rcases hn with rfl | rfl
    · simp [slashes, startsWith, List.replicate, List.isPrefixOf, h1]
    · simp [slashes, startsWith, List.replicate, List.isPrefixOf, h1]

theorem splitC_joined {n : Nat} {ns : List Str} (h : ∀ m ∈ ns, FileName m) :
    (splitC '/' (List.replicate n '/' ++ joinS c!"/" ns)).foldl walk [] = ns := by
  induction n with
  | zero =>
    cases ns with
    | nil => rfl
    | cons a l =>
      rw [List.replicate_zero, List.nil_append, splitC_joinS _ (by simp) (fun p hp => (h p hp).2.2.2),
        walk_of_names _ _ h]
      rfl
  | succ n ih =>
    rw [List.replicate_succ, List.cons_append, splitC_cons_eq, List.foldl_cons]
    exact ih

theorem normpath_idem {p : Str} (h : isAbs p = true) : normpath (normpath p) = normpath p := by
  have hN : ∀ n ∈ (splitC '/' p).foldl walk [], FileName n := walk_names _ _ (by simp) (fun c hc => splitC_no_sep hc)
  have hs : slashes p = 1 ∨ slashes p = 2 := by
    unfold slashes
    split
    · exact Or.inl rfl
    · split
      · exact Or.inr rfl
      · exact Or.inl rfl
  conv => lhs; rw [normpath_abs (isAbs_normpath h)]
  rw [normpath_abs h, slashes_joined hs hN, splitC_joined hN]

theorem abspath_idem (W : World) (d p : Str) : abspath d (abspath W.cwd p) = abspath W.cwd p := by
  have h := isAbs_abspath (W := W) p
  unfold abspath at h ⊢
  rw [if_pos h]
  apply normpath_idem
  split
  · assumption
  · exact isAbs_pathJoin W.cwd_abs

theorem abspath_abs {d d' p : Str} (h : isAbs p = true) : abspath d' p = abspath d p := by
  unfold abspath
  rw [if_pos h, if_pos h]

theorem written_joinS : ∀ cs : List Str, written cs = joinS c!"/" cs
  | [] => rfl
  | [c] => rfl
  | c :: m :: cs => by
    rw [joinS_cons c!"/" c (m :: cs) (by simp), ← written_joinS (m :: cs)]
    simp [written]

theorem joinS_append_ne {a b : List Str} (ha : a ≠ []) (hb : b ≠ []) :
    joinS c!"/" (a ++ b) = joinS c!"/" a ++ '/' :: joinS c!"/" b := by
  induction a with
  | nil => exact absurd rfl ha
  | cons x a ih =>
    cases a with
    | nil => rw [List.singleton_append, joinS_cons _ _ _ hb]; simp [joinS]
    | cons y a =>
      rw [List.cons_append, joinS_cons _ _ _ (by simp), ih (by simp), joinS_cons _ x (y :: a) (by simp)]
      simp

theorem joinS_first {n : Str} {ns : List Str} (hn : n ≠ []) (hs : '/' ∉ n) :
    ∃ x t, x ≠ '/' ∧ joinS c!"/" (n :: ns) = x :: t := by
  cases n with
  | nil => exact absurd rfl hn
  | cons x t =>
    have hx : x ≠ '/' := fun hh => hs (by simp [hh])
    cases ns with
    | nil => exact ⟨x, t, hx, rfl⟩
    | cons m ms => exact ⟨x, t ++ c!"/" ++ joinS c!"/" (m :: ms), hx, rfl⟩

theorem not_isAbs_joinS {n : Str} {ns : List Str} (hn : n ≠ []) (hs : '/' ∉ n) : isAbs (joinS c!"/" (n :: ns)) = false := by
  obtain ⟨x, t, hx, h⟩ := joinS_first (ns := ns) hn hs
  rw [h]
  simp [isAbs, startsWith, List.isPrefixOf]
  exact fun hh => hx hh.symm

theorem normpath_written {c : Str} {cs : List Str} (hc : c ≠ []) (h : ∀ x ∈ c :: cs, '/' ∉ x) :
    normpath ('/' :: joinS c!"/" (c :: cs)) = full ((c :: cs).foldl walk []) := by
  have h0 : isAbs ('/' :: joinS c!"/" (c :: cs)) = true := (isAbs_cons _).2 ⟨_, rfl⟩
  have h1 : slashes ('/' :: joinS c!"/" (c :: cs)) = 1 := by
    obtain ⟨x, t, hx, hj⟩ := joinS_first (ns := cs) hc (h c (by simp))
    rw [hj]
    have h1 : ('/' == x) = false := by simpa using fun hh => hx hh.symm
    simp [slashes, startsWith, List.isPrefixOf, h1]
  rw [normpath_abs h0, h1, splitC_cons_eq, splitC_joinS _ (by simp) h, full_joinS]
  rfl

theorem getLast_joinS {ns : List Str} (h0 : ns ≠ []) (h : ∀ n ∈ ns, FileName n) : endsWith c!"/" (joinS c!"/" ns) = false := by
  rw [Bool.eq_false_iff]
  intro hh
  unfold endsWith at hh
  rw [List.isSuffixOf_iff_suffix] at hh
  obtain ⟨a, n, rfl⟩ : ∃ a n, ns = a ++ [n] := ⟨ns.dropLast, ns.getLast h0, (List.dropLast_append_getLast h0).symm⟩
  have hn := h n (by simp)
  obtain ⟨t, ht⟩ : ∃ t, joinS c!"/" (a ++ [n]) = t ++ n := by
    cases a with
    | nil => exact ⟨[], rfl⟩
    | cons x a => exact ⟨joinS c!"/" (x :: a) ++ c!"/", by rw [joinS_append_ne (by simp) (by simp)]; simp [joinS]⟩
  rw [ht] at hh
  obtain ⟨u, hu⟩ := hh
  obtain ⟨b, y, rfl⟩ : ∃ b y, n = b ++ [y] := ⟨n.dropLast, n.getLast hn.1, (List.dropLast_append_getLast hn.1).symm⟩
  rw [← List.append_assoc] at hu
  have := (List.append_inj' hu rfl).2
  rw [List.cons.injEq] at this
  exact hn.2.2.2 (by rw [← this.1]; simp)

theorem pathJoin_full {ns : List Str} (h : ∀ n ∈ ns, FileName n) {c : Str} {cs : List Str} (hc : c ≠ []) (hs : '/' ∉ c) :
    pathJoin (full ns) (joinS c!"/" (c :: cs)) = '/' :: joinS c!"/" (ns ++ c :: cs) := by
  unfold pathJoin
  rw [if_neg (by rw [not_isAbs_joinS hc hs]; simp)]
  cases ns with
  | nil => rfl
  | cons n ns =>
    have h1 : endsWith c!"/" (full (n :: ns)) = false := by
      obtain ⟨x, t, hx, hj⟩ := joinS_head h
      have h2 := getLast_joinS (by simp) h
      rw [full_joinS]
      rw [hj] at h2 ⊢
      rw [Bool.eq_false_iff] at h2 ⊢
      intro hh
      apply h2
      unfold endsWith at hh ⊢
      rw [List.isSuffixOf_iff_suffix] at hh ⊢
      rcases List.suffix_cons_iff.1 hh with hh | hh
      · simp at hh
      · exact hh
    rw [if_neg (by rw [h1]; simp [full]), full_joinS, joinS_append_ne (by simp) (by simp)]
    rfl

theorem dirname_written {p n : Str} (hn : '/' ∉ n) (hp : p ≠ []) (hl : endsWith c!"/" p = false) :
    dirname (p ++ '/' :: n) = p ∧ basename (p ++ '/' :: n) = n := by
  have hr : (p ++ '/' :: n).reverse = n.reverse ++ ('/' :: p.reverse) := by simp
  have hall : ∀ x ∈ n.reverse, (x != '/') = true := by
    intro x hx
    simp only [bne_iff_ne, ne_eq]
    rintro rfl
    exact hn (List.mem_reverse.1 hx)
  constructor
  · unfold dirname
    rw [hr, List.dropWhile_append_of_pos hall]
    simp only [List.dropWhile_cons, bne_self_eq_false, Bool.false_eq_true, if_false, List.reverse_cons, List.reverse_reverse]
    obtain ⟨b, y, rfl⟩ : ∃ b y, p = b ++ [y] := ⟨p.dropLast, p.getLast hp, (List.dropLast_append_getLast hp).symm⟩
    have hy : y ≠ '/' := by
      rintro rfl
      rw [Bool.eq_false_iff] at hl
      apply hl
      unfold endsWith
      rw [List.isSuffixOf_iff_suffix]
      exact ⟨b, rfl⟩
    rw [if_neg (by simp [hy])]
    unfold rstripP
    simp [hy]
  · unfold basename
    rw [hr, List.takeWhile_append_of_pos hall]
    simp

theorem isAbs_dirname {p : Str} (h : isAbs p = true) : isAbs (dirname p) = true := by
  obtain ⟨t, rfl⟩ := (isAbs_cons p).1 h
  have h1 : ∃ u, (('/' :: t).reverse.dropWhile (· != '/')).reverse = '/' :: u := by
    rw [List.reverse_cons, List.dropWhile_append]
    split
    · exact ⟨[], by simp⟩
    · exact ⟨((t.reverse.dropWhile (· != '/'))).reverse, by simp⟩
  obtain ⟨u, hu⟩ := h1
  unfold dirname
  rw [hu]
  simp only
  rw [isAbs_cons]
  split
  · exact ⟨u, rfl⟩
  · rename_i hne
    have h2 : ∃ r, rstripP (· == '/') ('/' :: u) = '/' :: r := by
      unfold rstripP
      rw [List.reverse_cons, List.dropWhile_append]
      split
      · rename_i he
        exfalso
        apply hne
        rw [List.isEmpty_iff] at he
        have := List.dropWhile_eq_nil_iff.1 he
        simp only [List.all_cons, beq_self_eq_true, Bool.true_and, List.all_eq_true]
        intro x hx
        exact this x (List.mem_reverse.2 hx)
      · exact ⟨(u.reverse.dropWhile (· == '/')).reverse, by simp⟩
    exact h2
end Oelint

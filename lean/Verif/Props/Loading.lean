import Verif.Lemmas.Terminates
import Verif.Lemmas.ExpandRefs
import Verif.Lemmas.Sample
/-! Termination of `AddFile`: C47. -/
set_option linter.unusedSectionVars false
namespace Oelint
variable [Uni]
open Spec

/-! ## C47

Full statement: `AddFile` terminates for every file system.  Missing: files with extension `.inc`, `.bb` or `.conf` that can
load themselves, directly or through other files (they are read again and again, see the counterexample), and paths that
start with two slashes (C59). -/

/-- **C47** (part: no cycle of files that are read again). In a file system with finitely many files, if the files that
are read again (`.inc`, `.bb`, `.conf`) have a rank below every file that can load them, there is a depth of the recursion
that is enough for all calls of `AddFile(path)`: every call ends, and a higher limit changes nothing.  Cycles through
classes and `.bbappend` files are allowed. -/
theorem C47_add_file_terminates_partial (W : World) (hw : W.isDir [] = false) (files : List Str) (hfin : OnlyFiles W files)
    (hs : ∀ f ∈ files, ¬ c!"//" <+: f) (path : Str) (hp : ¬ c!"//" <+: abspath W.cwd path) (rank : Str → Nat)
    (hr : ∀ f p, MayLoad W f p → Reread (abspath W.cwd p) → rank (abspath W.cwd p) < rank f) :
    ∃ depth, ∀ n, depth ≤ n → ∀ off forced s,
      addFile W n path off forced s = addFile W depth path off forced s ∧
      (addFile W n path off forced s).1 ≠ .error .recursionError ∧
      (addFile W n path off forced s).1 ≠ .error .diverges := by
  obtain ⟨C, hC⟩ : ∃ C, C = abspath W.cwd path :: files := ⟨_, rfl⟩
  obtain ⟨N, hN⟩ : ∃ N, N = (C.map rank).foldl max 0 + 1 := ⟨_, rfl⟩
  have hrank : ∀ f ∈ C, rank f < N := fun f hf => by
    have := le_foldl_max (C.map rank) (rank f) (List.mem_map.2 ⟨f, hf, rfl⟩); omega
  have hmem : abspath W.cwd path ∈ C := by rw [hC]; simp
  have henough : ∀ n, C.length * N + N + 1 ≤ n → Enough rank N C.length (abspath W.cwd path) n := fun n hn =>
    ⟨fun _ => by have := hrank _ hmem; omega, fun _ => by omega⟩
  refine ⟨C.length * N + N + 1, fun n hn off forced s => ?_⟩
  obtain ⟨h1, h2, -⟩ := addFile_agree hw C (fun f hf => by
      rw [hC] at hf
      rcases List.mem_cons.1 hf with rfl | hf
      · exact hp
      · exact hs f hf)
    (fun f p h => by rw [hC]; exact List.mem_cons_of_mem _ (hfin p (mayLoad_exists h))) rank N hrank hr n
    (C.length * N + N + 1) C.length path hmem (henough n hn) (henough _ (Nat.le_refl _)) off forced s List.countP_le_length
  exact ⟨h1, fun h => (h2 _ h).1 rfl, fun h => (h2 _ h).2 rfl⟩

end Oelint

namespace Oelint
open Spec
attribute [local instance] Sample.asciiUni

/-- a file that includes itself -/
def Sample.selfInc : World := Sample.world [(c!"/w/a.inc", c!"require a.inc\n")]

theorem Sample.selfInc_lines (off : Int) (neg : Bool) :
    ∃ cs, prepareLines Sample.selfInc c!"/w/a.inc" off neg = .ok cs ∧ cs.map (·.cnt) = [c!"require a.inc"] := by
  have h : ∀ neg, ∃ cs, prepareLines Sample.selfInc c!"/w/a.inc" 0 neg = .ok cs ∧ cs.map (·.cnt) = [c!"require a.inc"] := by
    intro neg
    have hd : (match prepareLines Sample.selfInc c!"/w/a.inc" 0 neg with
      | .ok cs => decide (cs.map (·.cnt) = [c!"require a.inc"])
      | .error _ => false) = true := by
      revert neg; decide +kernel
    split at hd
    · rename_i cs hcs; exact ⟨cs, hcs, of_decide_eq_true hd⟩
    · cases hd
  obtain ⟨cs, h1, h2⟩ := h neg
  obtain ⟨cs', h3, h4⟩ := prepareLines_cnt (off' := off) h1
  exact ⟨cs', h3, h4.trans h2⟩

/-- the patterns before the one for includes do not match -/
theorem Sample.selfInc_match : ∃ m, reMatch reInclude.re c!"require a.inc" = some m ∧
    (reInclude.group m c!"incname").getD [] = c!"a.inc" := by
  have hd : (match reMatch reInclude.re c!"require a.inc" with
    | some m => decide ((reInclude.group m c!"incname").getD [] = c!"a.inc")
    | none => false) = true := by decide +kernel
  split at hd
  · rename_i m hm; exact ⟨m, hm, of_decide_eq_true hd⟩
  · cases hd

/-- **C47 is false**: a file that includes itself is read until the recursion limit is reached, whatever the limit is. -/
theorem C47_self_include_counterexample (n : Nat) (off : Int) (forced : Option Str) (s : Stash) (hc : s.consts = J.empty)
    (hs : c!"/w/a.inc" ∉ s.seenClasses) :
    (addFile Sample.selfInc n c!"/w/a.inc" off forced s).1 = .error .recursionError := by
  induction n generalizing off forced s with
  | zero => rfl
  | succ n ih =>
    have habs : abspath Sample.selfInc.cwd c!"/w/a.inc" = c!"/w/a.inc" := by decide +kernel
    have hseen : alreadySeen s (abspath Sample.selfInc.cwd c!"/w/a.inc") = false := by
      rw [habs]
      unfold alreadySeen
      have h1 : [c!".inc", c!".bb", c!".conf", c!".bbclass"].contains (splitext c!"/w/a.inc").2 = true := by decide +kernel
      rw [h1]
      simp [hs]
    have hmark : markSeen s c!"/w/a.inc" =
        { s with seenFiles := (markSeen s c!"/w/a.inc").seenFiles, printed := (markSeen s c!"/w/a.inc").printed } := by
      unfold markSeen Stash.say
      have h1 : ((splitext c!"/w/a.inc").2 == c!".bbclass") = false := by decide +kernel
      rw [h1]; rfl
    obtain ⟨cs, h1, h2⟩ := Sample.selfInc_lines off s.negative
    obtain ⟨c, cs', rfl, h3⟩ : ∃ c cs', cs = c :: cs' ∧ c.cnt = c!"require a.inc" := by
      cases cs with
      | nil => cases h2
      | cons c cs' => exact ⟨c, cs', rfl, (List.cons.inj h2).1⟩
    obtain ⟨m, hm1, hm2⟩ := Sample.selfInc_match
    -- the include loads the file again
    have hkind : ∀ t : Stash, t.consts = J.empty → c!"/w/a.inc" ∉ t.seenClasses → ∀ line p,
        ∃ t', handleKind Sample.selfInc (addFile Sample.selfInc n) c!"/w/a.inc" line p .include reInclude m t =
          (.error .recursionError, t') := by
      intro t ht1 ht2 line p
      have he : expandTerm Sample.selfInc t c!"/w/a.inc" c!"a.inc" = .ok c!"a.inc" := by
        have hb : setsBase t.consts = .ok J.empty := by rw [ht1]; rfl
        refine expandTermS_keep _ _ hb _ _ _ ?_ ?_ (by unfold ReadsFile; decide +kernel)
        · rintro x ⟨h, -⟩
          have hh : c!"${" <:+: c!"a.inc" := (List.prefix_append _ _).isInfix.trans ((List.prefix_append _ _).isInfix.trans h)
          exact absurd hh (by decide +kernel)
        · rintro x ⟨q, q', args, -, h, -⟩
          have hh : c!"getVar(" <:+: c!"a.inc" := (List.prefix_append _ _).isInfix.trans h
          exact absurd hh (by decide +kernel)
      have hf : findLocalOrLayer Sample.selfInc c!"a.inc" (dirname c!"/w/a.inc") = .ok c!"/w/a.inc" := by decide +kernel
      have hi : ∃ j, includeIgnore t.consts = .ok j ∧ j.has c!"a.inc" = false := by rw [ht1]; exact ⟨_, rfl, rfl⟩
      obtain ⟨j, hj1, hj2⟩ := hi
      have hadd := ih line (some c!"/w/a.inc") t ht1 ht2
      rcases hx : addFile Sample.selfInc n c!"/w/a.inc" line (some c!"/w/a.inc") t with ⟨r, t'⟩
      rw [hx] at hadd
      simp only at hadd
      refine ⟨t', ?_⟩
      unfold handleKind
      simp only [hm2, M.bind_def, M.ask, M.lift, he, hf]
      rw [if_neg (by decide)]
      simp only [M.bind_def, M.ask, hj1, hj2, Bool.false_eq_true, if_false, hx, hadd]
    obtain ⟨t', ht'⟩ := hkind (markSeen s c!"/w/a.inc") (by rw [hmark]; exact hc) (by rw [hmark]; exact hs) c.line
      (chunkParams c!"/w/a.inc" off 0 s.newStyle c)
    rw [addFile_eq _ _ _ _ _ _ hseen, habs]
    have hitems : getItems Sample.selfInc (addFile Sample.selfInc n) c!"/w/a.inc" off s.newStyle s.negative
        (markSeen s c!"/w/a.inc") = (.error .recursionError, t') := by
      have habs' : isAbs c!"/w/a.inc" = true := by decide +kernel
      unfold getItems
      rw [habs']
      simp only [if_true, M.bind_def, M.lift, h1]
      rw [itemsLoop, M.bind_def, h3]
      have hcl : classify Sample.selfInc (addFile Sample.selfInc n) c!"/w/a.inc" c.line
          (chunkParams c!"/w/a.inc" off 0 s.newStyle c) c!"require a.inc" parseOrder (markSeen s c!"/w/a.inc") =
          (.error .recursionError, t') := by
        have hp : parseOrder = parseOrder.take 7 ++ (Kind.include, reInclude) :: parseOrder.drop 8 := rfl
        have hn : ∀ kp ∈ parseOrder.take 7, reMatch kp.2.re c!"require a.inc" = none := by
          have : (parseOrder.take 7).all (fun kp => (reMatch kp.2.re c!"require a.inc").isNone) = true := by decide +kernel
          intro kp hkp
          simpa using List.all_eq_true.1 this kp hkp
        rw [hp, classify_skip _ _ hn, classify, hm1]
        simp only [M.bind_def, ht']
      rw [hcl]
    rw [hitems]

/-! ### A file system that meets the hypotheses -/

/-- a recipe with an include -/
def Sample.oneInc : World := Sample.world [(c!"/w/b_1.bb", c!"require a.inc\n"), (c!"/w/a.inc", c!"A = \"1\"\n")]

theorem Sample.oneInc_exists {p : Str} (h : Sample.oneInc.pathExists p = true) : p ∈ [c!"/w/b_1.bb", c!"/w/a.inc", c!"/w"] := by
  unfold Sample.oneInc Sample.world at h
  simp only [Bool.or_eq_true, Bool.and_eq_true] at h
  rcases h with h | ⟨h1, h2⟩
  · by_cases h1 : p = c!"/w/b_1.bb"
    · simp [h1]
    · by_cases h2 : p = c!"/w/a.inc"
      · simp [h2]
      · simp [dhas, dget, Ne.symm h1, Ne.symm h2] at h
  · obtain ⟨f, hf, h⟩ := List.any_eq_true.1 h2
    have hp : p ∈ f.1.inits := (List.mem_inits _ _).2 ((List.prefix_append p c!"/").trans (List.isPrefixOf_iff_prefix.1 h))
    have hall : ∀ f ∈ [(c!"/w/b_1.bb", c!"require a.inc\n"), (c!"/w/a.inc", c!"A = \"1\"\n")], ∀ p ∈ f.1.inits,
        (!p.isEmpty) = true → (p ++ c!"/").isPrefixOf f.1 = true → p ∈ [c!"/w/b_1.bb", c!"/w/a.inc", c!"/w"] := by
      decide +kernel
    exact hall f hf p hp h1 h

/-- the texts of the chunks -/
theorem Sample.oneInc_lines {f : Str} {off : Int} {neg : Bool} {cs : List Chunk} {c : Chunk}
    (h : prepareLines Sample.oneInc f off neg = .ok cs) (hc : c ∈ cs) :
    (f = c!"/w/b_1.bb" ∧ c.cnt = c!"require a.inc") ∨ (f = c!"/w/a.inc" ∧ c.cnt = c!"A = \"1\"") := by
  have hd : ∀ neg, (match prepareLines Sample.oneInc c!"/w/b_1.bb" 0 neg with
      | .ok cs => decide (cs.map (·.cnt) = [c!"require a.inc"])
      | .error _ => false) = true ∧ (match prepareLines Sample.oneInc c!"/w/a.inc" 0 neg with
      | .ok cs => decide (cs.map (·.cnt) = [c!"A = \"1\""])
      | .error _ => false) = true := by decide +kernel
  have hm : c.cnt ∈ cs.map (·.cnt) := List.mem_map.2 ⟨c, hc, rfl⟩
  obtain ⟨cs', h1, h2⟩ := prepareLines_cnt (off' := 0) h
  rw [← h2] at hm
  by_cases hf : f = c!"/w/b_1.bb"
  · have := (hd neg).1
    rw [← hf, h1] at this
    rw [of_decide_eq_true this] at hm
    exact Or.inl ⟨hf, by simpa using hm⟩
  · by_cases hg : f = c!"/w/a.inc"
    · have := (hd neg).2
      rw [← hg, h1] at this
      rw [of_decide_eq_true this] at hm
      exact Or.inr ⟨hg, by simpa using hm⟩
    · have hn : prepareLines Sample.oneInc f off neg = .ok [] := by
        have : Sample.oneInc.file f = .notFound := by
          unfold Sample.oneInc Sample.world
          simp only
          have : dget f [(c!"/w/b_1.bb", c!"require a.inc\n"), (c!"/w/a.inc", c!"A = \"1\"\n")] = none := by
            simp [dget, Ne.symm hf, Ne.symm hg]
          rw [this]
        unfold prepareLines
        rw [this]
      rw [hn] at h
      cases h
      cases hc

theorem Sample.oneInc_rank (f p : Str) (h : MayLoad Sample.oneInc f p) (_ : Reread (abspath Sample.oneInc.cwd p)) :
    (fun x => if x = c!"/w/b_1.bb" then 1 else 0) (abspath Sample.oneInc.cwd p) <
      (fun x : Str => if x = c!"/w/b_1.bb" then 1 else 0) f := by
  rcases h with ⟨n, s, nm, ⟨off, neg, cs, c, m, h1, h2, h3, h4⟩, h5, h6⟩ | ⟨n, s, nm, word, file, loc, ⟨off, neg, cs, c, m, h1, h2, h3⟩, -⟩
  · rcases Sample.oneInc_lines h1 h2 with ⟨rfl, hc⟩ | ⟨rfl, hc⟩
    · rw [hc] at h3
      obtain ⟨m', hm1, hm2⟩ := Sample.selfInc_match
      obtain rfl : m' = m := Option.some.inj (hm1.symm.trans h3)
      rw [hm2] at h4
      subst h4
      have hnm : nm = c!"a.inc" := by
        cases hb : setsBase s.consts with
        | error e =>
          obtain ⟨k, hk⟩ := expandBound_pos s c!"a.inc"
          rw [expandTerm, expandTermS, hk, expandTermF, hb] at h5
          cases h5
        | ok b =>
          rw [expandTerm, expandTermS_keep _ _ hb _ _ _ ?_ ?_ (by unfold ReadsFile; decide +kernel)] at h5
          · exact (Except.ok.inj h5).symm
          · rintro x ⟨h, -⟩
            have hh : c!"${" <:+: c!"a.inc" := (List.prefix_append _ _).isInfix.trans ((List.prefix_append _ _).isInfix.trans h)
            exact absurd hh (by decide +kernel)
          · rintro x ⟨q, q', args, -, h, -⟩
            have hh : c!"getVar(" <:+: c!"a.inc" := (List.prefix_append _ _).isInfix.trans h
            exact absurd hh (by decide +kernel)
      subst hnm
      rcases h6 with ⟨-, rfl⟩ | ⟨hh, -⟩
      · decide +kernel
      · exact absurd hh (by decide +kernel)
    · rw [hc] at h3
      have : reMatch reInclude.re c!"A = \"1\"" = none := by
        have : (reMatch reInclude.re c!"A = \"1\"").isNone = true := by decide +kernel
        simpa using this
      rw [this] at h3; cases h3
  · have hno : ∀ t ∈ [c!"require a.inc", c!"A = \"1\""], (reMatch reInherit.re t).isNone = true ∧
        (reMatch reInheritGlob.re t).isNone = true := by decide +kernel
    have hc : c.cnt ∈ [c!"require a.inc", c!"A = \"1\""] := by
      rcases Sample.oneInc_lines h1 h2 with ⟨rfl, hc⟩ | ⟨rfl, hc⟩ <;> simp [hc]
    obtain ⟨g1, g2⟩ := hno _ hc
    rcases h3 with ⟨h3, -⟩ | ⟨h3, -⟩
    · rw [h3] at g1; cases g1
    · rw [h3] at g2; cases g2

/-- C47: the hypotheses are met by a recipe that includes a file -/
example : ∃ depth, ∀ n, depth ≤ n → ∀ off forced s,
    addFile Sample.oneInc n c!"b_1.bb" off forced s = addFile Sample.oneInc depth c!"b_1.bb" off forced s ∧
    (addFile Sample.oneInc n c!"b_1.bb" off forced s).1 ≠ .error .recursionError ∧
    (addFile Sample.oneInc n c!"b_1.bb" off forced s).1 ≠ .error .diverges :=
  C47_add_file_terminates_partial Sample.oneInc (by decide +kernel) [c!"/w/b_1.bb", c!"/w/a.inc", c!"/w"]
    (fun p h => by
      have := Sample.oneInc_exists h
      revert this p; intro p _ this
      have hall : ∀ p ∈ [c!"/w/b_1.bb", c!"/w/a.inc", c!"/w"], abspath Sample.oneInc.cwd p ∈
        [c!"/w/b_1.bb", c!"/w/a.inc", c!"/w"] := by decide +kernel
      exact hall p this)
    (by decide +kernel) c!"b_1.bb" (by decide +kernel) (fun x => if x = c!"/w/b_1.bb" then 1 else 0) Sample.oneInc_rank

end Oelint

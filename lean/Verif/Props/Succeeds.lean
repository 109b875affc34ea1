import Verif.Lemmas.Succeeds
import Verif.Props.Loading
import Verif.Lemmas.Finalize
/-! Adding files succeeds: C07. -/
set_option linter.unusedSectionVars false
namespace Oelint
open Spec

section
variable [Uni]

/-- **C07** (part). In a file system in which loading ends (the hypotheses of C47), if the file and all files that can be loaded
are missing or texts whose last line is complete, their names can be used to look for recipes, and the constants have the
documented types, then `AddFile` returns - unless expanding a term calls `oe.utils.read_file` on a path that cannot be read
(a directory, say) - and the stash it leaves can be used for the next call in the same way.  Missing: files with an
incomplete last line, for which the property is false. -/
theorem C07_add_file_succeeds_partial (W : World) (hw : W.isDir [] = false) (files : List Str) (hfin : OnlyFiles W files)
    (hs : ∀ f ∈ files, ¬ c!"//" <+: f) (path : Str) (hp : ¬ c!"//" <+: abspath W.cwd path) (rank : Str → Nat)
    (hr : ∀ f p, MayLoad W f p → Reread (abspath W.cwd p) → rank (abspath W.cwd p) < rank f)
    (hpath : UsableFile W (abspath W.cwd path) ∧ UsableName (abspath W.cwd path))
    (hload : ∀ f p, MayLoad W f p → UsableFile W (abspath W.cwd p) ∧ UsableName (abspath W.cwd p)) :
    ∃ depth, ∀ n, depth ≤ n → ∀ off forced s, UsableConstants s.consts → (∀ it ∈ s.items, UsableName it.origin) →
      ∀ r s', addFile W n path off forced s = (r, s') →
        ((∃ res, r = .ok res) ∨ (r = .error .osError ∧ ∃ p, W.file p = .fails)) ∧
        UsableConstants s'.consts ∧ ∀ it ∈ s'.items, UsableName it.origin := by
  obtain ⟨depth, h⟩ := C47_add_file_terminates_partial W hw files hfin hs path hp rank hr
  refine ⟨depth, fun n hn off forced s h1 h2 r s' hx => ?_⟩
  obtain ⟨-, h3, h4⟩ := h n hn off forced s
  obtain ⟨h5, h6⟩ := addFile_safe n path hpath hload off forced s ⟨h1, h2⟩
  rw [hx] at h3 h4 h5 h6
  refine ⟨?_, h6⟩
  cases r with
  | ok res => exact Or.inl ⟨res, rfl⟩
  | error e =>
    rcases h5 e rfl with rfl | rfl | ⟨rfl, hf⟩
    · exact absurd rfl h3
    · exact absurd rfl h4
    · exact Or.inr ⟨rfl, hf⟩


theorem added_cons {W : World} {s s1 s' : Stash} {p : Str} {ps : List Str} {depth : Nat} {res : List Item}
    (hp : addFile W depth p 0 none s = (.ok res, s1)) (h : Added W s1 ps s') : Added W s (p :: ps) s' := by
  induction h with
  | nil => exact Added.snoc .nil hp
  | snoc h hq ih => exact Added.snoc ih hq

/-- a session: all files are added in order, then the stash is finalized; `n` is the recursion limit -/
def Spec.session (W : World) (n : Nat) : List Str → M Unit
  | [] => finalize W
  | p :: ps => do
    let _ ← addFile W n p 0 none
    session W n ps

theorem session_succeeds (W : World) (hfail : ∀ p, W.file p ≠ .fails) (paths : List Str)
    (hone : ∀ path ∈ paths, ∃ depth, ∀ n, depth ≤ n → ∀ off forced s, UsableConstants s.consts → (∀ it ∈ s.items, UsableName it.origin) →
      ∀ r s', addFile W n path off forced s = (r, s') →
        ((∃ res, r = .ok res) ∨ (r = .error .osError ∧ ∃ p, W.file p = .fails)) ∧
        UsableConstants s'.consts ∧ ∀ it ∈ s'.items, UsableName it.origin) :
    ∃ depth, ∀ n, depth ≤ n → ∀ s, UsableConstants s.consts → (∀ it ∈ s.items, UsableName it.origin) → Sound W s →
      ∃ s1 s', session W n paths s = (.ok (), s') ∧ Added W s paths s1 ∧ finalize W s1 = (.ok (), s') := by
  induction paths with
  | nil =>
    refine ⟨0, fun n _ s _ _ hs => ?_⟩
    obtain ⟨_, s', h⟩ := closed_finalize W s hs.closed
    exact ⟨s, s', h, .nil, h⟩
  | cons p ps ih =>
    obtain ⟨d1, h1⟩ := hone p (by simp)
    obtain ⟨d2, h2⟩ := ih (fun q hq => hone q (by simp [hq]))
    refine ⟨max d1 d2, fun n hn s hc hi hs => ?_⟩
    obtain ⟨hr, hc', hi'⟩ := h1 n (le_trans (le_max_left _ _) hn) 0 none s hc hi _ _ rfl
    have hs' : Sound W (addFile W n p 0 none s).2 := addFile_sound hs n p 0 none
    obtain ⟨s1, s', h3, h4, h5⟩ := h2 n (le_trans (le_max_right _ _) hn) _ hc' hi' hs'
    have hok : ∃ res, addFile W n p 0 none s = (.ok res, (addFile W n p 0 none s).2) := by
      rcases hr with ⟨res, hr⟩ | ⟨-, q, hq⟩
      · exact ⟨res, Prod.ext hr rfl⟩
      · exact absurd hq (hfail q)
    obtain ⟨res, hok⟩ := hok
    refine ⟨s1, s', ?_, ?_, h5⟩
    · show (do let _ ← addFile W n p 0 none; session W n ps : M Unit) s = _
      rw [M.bind_def, hok]
      exact h3
    · exact added_cons hok h4

/-- **C07** (part). A whole session succeeds: in such a file system without unreadable paths, adding any list of such files in any
order to a new stash, and finalizing it, raises nothing.  Missing: as above. -/
theorem C07_session_succeeds_partial (W : World) (hw : W.isDir [] = false) (files : List Str) (hfin : OnlyFiles W files)
    (hs : ∀ f ∈ files, ¬ c!"//" <+: f) (hfail : ∀ p, W.file p ≠ .fails) (rank : Str → Nat)
    (hr : ∀ f p, MayLoad W f p → Reread (abspath W.cwd p) → rank (abspath W.cwd p) < rank f)
    (hload : ∀ f p, MayLoad W f p → UsableFile W (abspath W.cwd p) ∧ UsableName (abspath W.cwd p))
    (paths : List Str) (hpaths : ∀ p ∈ paths, ¬ c!"//" <+: abspath W.cwd p ∧ UsableFile W (abspath W.cwd p) ∧ UsableName (abspath W.cwd p))
    (newStyle negative : Bool) (consts : J) (hc : UsableConstants consts) (uid : Nat) :
    ∃ depth, ∀ n, depth ≤ n → ∃ s1 s', session W n paths (Stash.init newStyle negative consts uid) = (.ok (), s') ∧
      Added W (Stash.init newStyle negative consts uid) paths s1 ∧ finalize W s1 = (.ok (), s') := by
  obtain ⟨depth, h⟩ := session_succeeds W hfail paths (fun p hp =>
    C07_add_file_succeeds_partial W hw files hfin hs p (hpaths p hp).1 rank hr (hpaths p hp).2 hload)
  exact ⟨depth, fun n hn => h n hn _ hc (fun it hit => by cases hit) (sound_init W newStyle negative consts uid)⟩

end

attribute [local instance] Sample.asciiUni

theorem Sample.oneInc_usable (f : Str) : UsableFile Sample.oneInc f := by
  have hc : ∀ t : Str, readlines (univNewlines t) = [t] → ¬ Continued t ∧ ¬ FuncHeader t → Complete t := by
    intro t h1 h2 ls hls l hl
    rw [isLines_unique hls, h1] at hl
    simp at hl; subst hl; exact h2
  have hno : ∀ t ∈ [c!"require a.inc\n", c!"A = \"1\"\n"], readlines (univNewlines t) = [t] ∧ '\\' ∉ t ∧ '(' ∉ t := by decide +kernel
  have hcont : ∀ t : Str, '\\' ∉ t → '(' ∉ t → ¬ Continued t ∧ ¬ FuncHeader t := by
    intro t h1 h2
    constructor
    · rintro ⟨a, ws, rfl, _⟩; simp at h1
    · rintro ⟨a, w1, w2, b, rfl, _⟩; simp at h2
  unfold UsableFile
  show (match dget f [(c!"/w/b_1.bb", c!"require a.inc\n"), (c!"/w/a.inc", c!"A = \"1\"\n")] with
    | some t => FileRes.text t
    | none => .notFound) = _ ∨ ∃ t, (match dget f [(c!"/w/b_1.bb", c!"require a.inc\n"), (c!"/w/a.inc", c!"A = \"1\"\n")] with
    | some t => FileRes.text t
    | none => .notFound) = _ ∧ _
  cases hd : dget f [(c!"/w/b_1.bb", c!"require a.inc\n"), (c!"/w/a.inc", c!"A = \"1\"\n")] with
  | none => exact Or.inl rfl
  | some t =>
    have : t ∈ [c!"require a.inc\n", c!"A = \"1\"\n"] := by
      simp only [dget] at hd
      repeat' split at hd
      · cases hd; exact .head _
      · cases hd; exact .tail _ (.head _)
      · cases hd
    obtain ⟨h1, h2, h3⟩ := hno t this
    exact Or.inr ⟨t, rfl, hc t h1 (hcont t h2 h3)⟩

/-- C07: the hypotheses are met by a recipe that includes a file, in a new stash; no path of that file system is unreadable -/
example : ∃ depth, ∀ n, depth ≤ n → ∀ off forced,
    ∃ res, (addFile Sample.oneInc n c!"b_1.bb" off forced Sample.stash).1 = .ok res := by
  have hname : ∀ p ∈ [c!"/w/b_1.bb", c!"/w/a.inc", c!"/w"], ¬ c!".bbappend" <:+ abspath Sample.oneInc.cwd p := by decide +kernel
  obtain ⟨depth, h⟩ := C07_add_file_succeeds_partial Sample.oneInc (by decide +kernel) [c!"/w/b_1.bb", c!"/w/a.inc", c!"/w"]
    (fun p h => by
      have := Sample.oneInc_exists h
      have hall : ∀ p ∈ [c!"/w/b_1.bb", c!"/w/a.inc", c!"/w"], abspath Sample.oneInc.cwd p ∈
        [c!"/w/b_1.bb", c!"/w/a.inc", c!"/w"] := by decide +kernel
      exact hall p this)
    (by decide +kernel) c!"b_1.bb" (by decide +kernel) (fun x => if x = c!"/w/b_1.bb" then 1 else 0) Sample.oneInc_rank
    ⟨Sample.oneInc_usable _, fun h => absurd h (by decide +kernel)⟩
    (fun f p hp => ⟨Sample.oneInc_usable _, fun h => absurd h (hname p (Sample.oneInc_exists (mayLoad_exists hp)))⟩)
  refine ⟨depth, fun n hn off forced => ?_⟩
  obtain ⟨h1, -, -⟩ := h n hn off forced Sample.stash
    ⟨⟨_, rfl⟩, fun k _ x hx => (by cases hx), fun x hx => (by cases hx), fun k _ x hx => by cases hx⟩ (fun it hit => by cases hit) _ _ rfl
  rcases h1 with h1 | ⟨-, p, hf⟩
  · exact h1
  · rcases Sample.oneInc_usable p with h2 | ⟨t, h2, -⟩ <;> rw [h2] at hf <;> cases hf

theorem Sample.oneInc_reads (p : Str) : Sample.oneInc.file p ≠ .fails := by
  intro hf
  rcases Sample.oneInc_usable p with h2 | ⟨t, h2, -⟩ <;> rw [h2] at hf <;> cases hf

/-- C07: a session with the file, its include and a file that does not exist -/
example : ∃ depth, ∀ n, depth ≤ n → ∃ s', session Sample.oneInc n [c!"b_1.bb", c!"a.inc", c!"nothing.bb"] (Stash.init true false J.empty 3) = (.ok (), s') := by
  have hname : ∀ p ∈ [c!"/w/b_1.bb", c!"/w/a.inc", c!"/w"], ¬ c!".bbappend" <:+ abspath Sample.oneInc.cwd p := by decide +kernel
  have hname2 : ∀ p ∈ [c!"b_1.bb", c!"a.inc", c!"nothing.bb"], ¬ c!"//" <+: abspath Sample.oneInc.cwd p ∧
    ¬ c!".bbappend" <:+ abspath Sample.oneInc.cwd p := by decide +kernel
  obtain ⟨depth, h⟩ := C07_session_succeeds_partial Sample.oneInc (by decide +kernel) [c!"/w/b_1.bb", c!"/w/a.inc", c!"/w"]
    (fun p h => by
      have := Sample.oneInc_exists h
      have hall : ∀ p ∈ [c!"/w/b_1.bb", c!"/w/a.inc", c!"/w"], abspath Sample.oneInc.cwd p ∈
        [c!"/w/b_1.bb", c!"/w/a.inc", c!"/w"] := by decide +kernel
      exact hall p this)
    (by decide +kernel) Sample.oneInc_reads (fun x => if x = c!"/w/b_1.bb" then 1 else 0) Sample.oneInc_rank
    (fun f p hp => ⟨Sample.oneInc_usable _, fun h => absurd h (hname p (Sample.oneInc_exists (mayLoad_exists hp)))⟩)
    [c!"b_1.bb", c!"a.inc", c!"nothing.bb"]
    (fun p hp => ⟨(hname2 p hp).1, Sample.oneInc_usable _, fun h => absurd h (hname2 p hp).2⟩) true false J.empty
    ⟨⟨_, rfl⟩, fun k _ x hx => (by cases hx), fun x hx => (by cases hx), fun k _ x hx => by cases hx⟩ 3
  refine ⟨depth, fun n hn => ?_⟩
  obtain ⟨_, s', h1, -⟩ := h n hn
  exact ⟨s', h1⟩

/-- names that are no patterns: a `.bbappend` whose name has an opening parenthesis cannot be added, because its name is used
as a regular expression -/
theorem C07_counterexample_name :
    (addFile (Sample.world [(c!"/w/a(1.bbappend", c!"A = \"1\"\n")]) 3 c!"/w/a(1.bbappend" 0 none Sample.stash).1
      = .error .regexError := by decide +kernel

end Oelint

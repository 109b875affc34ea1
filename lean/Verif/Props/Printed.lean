import Verif.Lemmas.Printed
import Verif.Props.Links
/-!
# The progress output (C99)

`printed` are the lines a stash has printed since it was made.
-/
set_option linter.unusedSectionVars false
namespace Oelint
open Spec

section
variable [Uni]

theorem seenOk_init (ns neg : Bool) (consts : J) (uid : Nat) (q : Bool) : SeenOk (Stash.init ns neg consts uid q) := by
  intro f; simp [Stash.init]

/-- **C99** A stash made with `quiet=True` prints nothing, whatever is done with it. -/
theorem C99_quiet (W : World) (P : Call → Prop) (ns neg : Bool) (consts : J) (uid : Nat) (s : Stash)
    (h : History W P (Stash.init ns neg consts uid true) s) : s.printed = [] := by
  obtain ⟨t, ht⟩ := history_tells h (seenOk_init ns neg consts uid true)
  exact ht.printed

theorem announcement_inj {f g : Str} (h : announcement f = announcement g) : f = g := List.append_cancel_left h

theorem announced_iff {W : World} {P : Call → Prop} {ns neg : Bool} {consts : J} {uid : Nat} {s : Stash}
    (h : History W P (Stash.init ns neg consts uid) s) :
    SeenOk s ∧ s.quiet = false ∧ (∃ t, s.printed = t.map announcement ∧
      ∀ a f b, t = a ++ f :: b → ¬ Reread f → f ∉ a) ∧ ∀ f, f ∈ s.seenFiles ↔ announcement f ∈ s.printed := by
  obtain ⟨t, ht⟩ := history_tells h (seenOk_init ns neg consts uid false)
  have hp : s.printed = t.map announcement := by
    rw [ht.printed]
    show (if false = true then _ else [] ++ t.map announcement) = _
    simp
  refine ⟨ht.inv, ht.quiet, ⟨t, hp, fun a f b e hr => (ht.once a f b e hr).2⟩, fun f => ?_⟩
  rw [ht.seen, hp]
  constructor
  · rintro (h | h)
    · simp [Stash.init] at h
    · exact List.mem_map_of_mem h
  · intro h
    obtain ⟨g, hg, e⟩ := List.mem_map.1 h
    exact Or.inr (announcement_inj e ▸ hg)

/-- **C99** A call of `AddFile` prints `Parsing <absolute path>` first and then such lines for the files it loads - unless the file is
neither a recipe nor an include nor a conf file and has been announced before: then it prints nothing, returns nothing and does
nothing at all. That holds whether the call succeeds or raises (`d + 1`: the interpreter allows at least one more call). -/
theorem C99_add_file (W : World) (P : Call → Prop) (ns neg : Bool) (consts : J) (uid : Nat) (s : Stash)
    (h : History W P (Stash.init ns neg consts uid) s) (d : Nat) (path : Str) (off : Int) (forced : Option Str) :
    (announcement (abspath W.cwd path) ∈ s.printed ∧ ¬ Reread (abspath W.cwd path) ∧
        addFile W (d + 1) path off forced s = (.ok [], s)) ∨
    ((announcement (abspath W.cwd path) ∉ s.printed ∨ Reread (abspath W.cwd path)) ∧ ∃ t : List Str,
        (addFile W (d + 1) path off forced s).2.printed =
          s.printed ++ announcement (abspath W.cwd path) :: t.map announcement) := by
  obtain ⟨h1, h2, -, h4⟩ := announced_iff h
  by_cases hs : alreadySeen s (abspath W.cwd path) = true
  · refine Or.inl ⟨(h4 _).1 ((alreadySeen_inv h1 _).1 hs).1, ((alreadySeen_inv h1 _).1 hs).2, addFile_seen off forced hs⟩
  · refine Or.inr ⟨?_, ?_⟩
    · by_cases hr : Reread (abspath W.cwd path)
      · exact Or.inr hr
      · exact Or.inl fun hm => hs ((alreadySeen_inv h1 _).2 ⟨(h4 _).2 hm, hr⟩)
    · obtain ⟨t, ht⟩ := addFile_tells_first d off forced h1 (by simpa using hs : alreadySeen s (abspath W.cwd path) = false)
      exact ⟨t, by rw [ht.printed, h2]; simp⟩

/-- **C99** Nothing but `AddFile` prints. -/
theorem C99_other_calls (W : World) (d : Nat) (c : Call) (hc : ∀ p o f, c ≠ .addFile p o f) (s : Stash) :
    (c.after W d s).printed = s.printed := by
  cases c with
  | addFile p o fo => exact absurd rfl (hc p o fo)
  | append l => rfl
  | remove l =>
    obtain ⟨items, he⟩ := removeItems_frame l s
    simp only [Call.after, he]
  | finalize =>
    obtain ⟨items, map, he, _⟩ := finalize_frame W s
    simp only [Call.after, he]

/-- **C99** The output consists of such lines only, and apart from recipes, includes and conf files no file is announced twice. -/
theorem C99_once (W : World) (P : Call → Prop) (ns neg : Bool) (consts : J) (uid : Nat) (s : Stash)
    (h : History W P (Stash.init ns neg consts uid) s) :
    (∀ l ∈ s.printed, ∃ f, l = announcement f) ∧ ∀ f, ¬ Reread f → s.printed.count (announcement f) ≤ 1 := by
  obtain ⟨-, -, ⟨t, hp, ho⟩, -⟩ := announced_iff h
  rw [hp]
  refine ⟨fun l hl => ?_, fun f hr => ?_⟩
  · obtain ⟨g, -, rfl⟩ := List.mem_map.1 hl
    exact ⟨g, rfl⟩
  · rw [List.count_eq_length_filter, List.filter_map, List.length_map]
    have e : t.filter ((fun x => x == announcement f) ∘ announcement) = t.filter (· == f) := by
      apply List.filter_congr
      intro g _
      by_cases hg : g = f
      · simp [hg]
      · simp [hg, mt announcement_inj hg]
    rw [e, ← List.count_eq_length_filter]
    by_contra hc
    have hm : f ∈ t := List.count_pos_iff.1 (by omega)
    obtain ⟨a, b, rfl⟩ := List.append_of_mem hm
    have h1 := ho a f b rfl hr
    have hb : f ∈ b := by
      rw [List.count_append, List.count_cons_self, List.count_eq_zero_of_not_mem h1] at hc
      exact List.count_pos_iff.1 (by omega)
    obtain ⟨b1, b2, rfl⟩ := List.append_of_mem hb
    exact ho (a ++ f :: b1) f b2 (by simp) hr (by simp)

/-- **C99** The file of every item has been announced. -/
theorem C99_origins (W : World) (ns neg : Bool) (consts : J) (uid : Nat) (s : Stash)
    (h : History W Call.loading (Stash.init ns neg consts uid) s) : ∀ it ∈ s.items, announcement it.origin ∈ s.printed := by
  intro it hit
  rcases (history_fromSeen h).2 it hit with h1 | ⟨a, ha, -⟩
  · exact ((announced_iff h).2.2.2 _).1 h1
  · exact absurd ha (by simp [Stash.init])

/-- **C99** `quiet` changes the output only: whatever a user does, a quiet stash gives the same results and exceptions, and ends up in the
same state, caches and fingerprint included. -/
theorem C99_same (W : World) (l : List Act) (c : CStash) (q : Bool) (out : List Str) :
    observe W l (withQuiet c q out) = observe W l c ∧
    ∃ out', afterActs W l (withQuiet c q out) = withQuiet (afterActs W l c) q out' := by
  obtain ⟨h1, h2, h3⟩ := (twin_quiet W q).observe_same l (c := c) (c' := withQuiet c q out) ⟨rfl, out, rfl⟩
  refine ⟨h1, ?_⟩
  obtain ⟨p, hp⟩ := h3
  refine ⟨p, ?_⟩
  cases ha : afterActs W l c
  cases hb : afterActs W l (withQuiet c q out)
  rw [ha, hb] at h2 hp
  simp only at h2 hp
  simp [withQuiet, h2, hp]

end

/-! ## concrete cases -/

section
attribute [local instance] Sample.asciiUni

/-- a recipe that inherits two classes, added twice: the recipe is announced again, the classes are not -/
example : ((addFile Sample.inherits 3 c!"both.bb" 0 none (addFile Sample.inherits 3 c!"both.bb" 0 none Sample.stash).2).2).printed =
    [c!"Parsing /w/both.bb", c!"Parsing /w/classes/foo.bbclass", c!"Parsing /w/classes/bar.bbclass", c!"Parsing /w/both.bb"] := by
  decide +kernel

/-- an include is announced after the file that includes it, and again if it is included again -/
example : ((addFile Sample.includes 4 c!"two.bb" 0 none (addFile Sample.includes 4 c!"nested.bb" 0 none Sample.stash).2).2).printed =
    [c!"Parsing /w/nested.bb", c!"Parsing /w/z.inc", c!"Parsing /w/x.inc", c!"Parsing /w/two.bb", c!"Parsing /w/x.inc", c!"Parsing /w/y.inc"] := by
  decide +kernel

/-- the same with `quiet=True` -/
example : (addFile Sample.inherits 3 c!"both.bb" 0 none { Sample.stash with quiet := true }).2.printed = [] := by decide +kernel

/-- the stash of the examples is a new one -/
example : History Sample.inherits Call.loading (Stash.init false false J.empty 0)
    (addFile Sample.inherits 3 c!"both.bb" 0 none (Stash.init false false J.empty 0)).2 :=
  .snoc .nil 3 (.addFile c!"both.bb" 0 none) True.intro

end
end Oelint

import Verif.Lemmas.TwoInstances
import Verif.Lemmas.History
import Verif.Spec.Printed
/-! The progress output (C99). -/
set_option linter.unusedSectionVars false
set_option linter.unusedSimpArgs false
namespace Oelint
variable [Uni]
open Spec

/-- classes are seen files -/
def SeenOk (s : Stash) : Prop := ∀ f, f ∈ s.seenClasses ↔ f ∈ s.seenFiles ∧ (splitext f).2 = c!".bbclass"

theorem alreadySeen_inv {s : Stash} (h : SeenOk s) (f : Str) : alreadySeen s f = true ↔ f ∈ s.seenFiles ∧ ¬ Reread f := by
  constructor
  · intro hs
    obtain ⟨h1, h2⟩ := seen_of_alreadySeen (fun g hg => ((h g).1 hg).2) hs
    exact ⟨h1.elim id (fun hc => ((h f).1 hc).1), h2⟩
  · rintro ⟨h1, h2⟩
    exact alreadySeen_of_seen h1 (fun hb => (h f).2 ⟨h1, hb⟩) h2

/-- the files `t` are announced one after the other -/
structure Announces (s s' : Stash) (t : List Str) : Prop where
  inv : SeenOk s'
  quiet : s'.quiet = s.quiet
  printed : s'.printed = if s.quiet then s.printed else s.printed ++ t.map announcement
  seen : ∀ f, f ∈ s'.seenFiles ↔ f ∈ s.seenFiles ∨ f ∈ t
  once : ∀ a f b, t = a ++ f :: b → ¬ Reread f → f ∉ s.seenFiles ∧ f ∉ a

theorem Announces.refl {s : Stash} (h : SeenOk s) : Announces s s [] where
  inv := h
  quiet := rfl
  printed := by split <;> simp
  seen := by simp
  once := by intro a f b e; simp at e

theorem Announces.trans {a b c : Stash} {t u : List Str} (h1 : Announces a b t) (h2 : Announces b c u) : Announces a c (t ++ u) where
  inv := h2.inv
  quiet := h2.quiet.trans h1.quiet
  printed := by
    rw [h2.printed, h1.printed, h1.quiet]
    split <;> simp
  seen := by intro f; rw [h2.seen, h1.seen]; simp [or_assoc]
  once := by
    intro x f y e hr
    rcases List.append_eq_append_iff.1 e with ⟨z, rfl, e2⟩ | ⟨z, rfl, e2⟩
    · obtain ⟨n1, n2⟩ := h2.once _ _ _ e2 hr
      rw [h1.seen] at n1
      simp only [not_or] at n1
      exact ⟨n1.1, by simp [n1.2, n2]⟩
    · cases z with
      | nil =>
        obtain ⟨n1, n2⟩ := h2.once [] f y (by simpa using e2.symm) hr
        rw [h1.seen] at n1
        simp only [not_or] at n1
        exact ⟨n1.1, by simpa using n1.2⟩
      | cons g z =>
        simp only [List.cons_append, List.cons.injEq] at e2
        exact h1.once x f z (by rw [e2.1]) hr

/-- the relation of C99 -/
def Tells (s s' : Stash) : Prop := SeenOk s → ∃ t, Announces s s' t

theorem Tells.refl (s : Stash) : Tells s s := fun h => ⟨[], .refl h⟩
theorem Tells.trans (a b c : Stash) (h1 : Tells a b) (h2 : Tells b c) : Tells a c := by
  intro h
  obtain ⟨t, ht⟩ := h1 h
  obtain ⟨u, hu⟩ := h2 ht.inv
  exact ⟨t ++ u, ht.trans hu⟩

theorem Tells.of_eq {s s' : Stash} (h1 : s'.seenFiles = s.seenFiles) (h2 : s'.seenClasses = s.seenClasses) (h3 : s'.quiet = s.quiet)
    (h4 : s'.printed = s.printed) : Tells s s' := by
  intro h
  refine ⟨[], ⟨fun f => ?_, h3, ?_, fun f => ?_, ?_⟩⟩
  · rw [h1, h2]; exact h f
  · rw [h4]; split <;> simp
  · rw [h1]; simp
  · intro a f b e; simp at e

theorem markSeen_announces {s : Stash} (h : SeenOk s) {f : Str} (hs : alreadySeen s f = false) : Announces s (markSeen s f) [f] where
  inv := by
    intro g
    unfold markSeen Stash.say
    simp only
    by_cases hb : (splitext f).2 = c!".bbclass"
    · rw [if_pos (by simpa using hb)]
      have : g ∈ (if s.seenFiles.contains f then s.seenFiles else s.seenFiles ++ [f]) ↔ g ∈ s.seenFiles ∨ g = f := by
        split
        · rename_i hc
          exact ⟨Or.inl, fun hg => hg.elim id (fun e => by rw [e]; simpa using hc)⟩
        · simp
      rw [this, List.mem_append, h g, List.mem_singleton]
      constructor
      · rintro (⟨h1, h2⟩ | rfl)
        · exact ⟨Or.inl h1, h2⟩
        · exact ⟨Or.inr rfl, hb⟩
      · rintro ⟨h1 | h1, h2⟩
        · exact Or.inl ⟨h1, h2⟩
        · exact Or.inr h1
    · rw [if_neg (by simpa using hb), h g]
      constructor
      · rintro ⟨h1, h2⟩
        refine ⟨?_, h2⟩
        split
        · exact h1
        · simp [h1]
      · rintro ⟨h1, h2⟩
        refine ⟨?_, h2⟩
        split at h1
        · exact h1
        · rcases List.mem_append.1 h1 with h1 | h1
          · exact h1
          · rw [List.mem_singleton.1 h1] at h2; exact absurd h2 hb
  quiet := rfl
  printed := by
    unfold markSeen Stash.say
    simp only
    split <;> rfl
  seen := by
    intro g
    unfold markSeen
    simp only [List.mem_singleton]
    split
    · rename_i hc
      exact ⟨Or.inl, fun hg => hg.elim id (fun e => by rw [e]; simpa using hc)⟩
    · simp
  once := by
    intro a g b e hr
    have hn := mt (alreadySeen_inv h f).2 (by simp [hs])
    cases a with
    | nil =>
      simp only [List.nil_append, List.cons.injEq] at e
      obtain ⟨rfl, -⟩ := e
      exact ⟨fun hm => hn ⟨hm, hr⟩, by simp⟩
    | cons x a => simp at e

theorem addFile_tells_new (W : World) (fuel : Nat) (ih : ∀ p o f, M.Rel Tells (addFile W fuel p o f)) (path : Str) (off : Int)
    (forced : Option Str) (s : Stash) (hs : alreadySeen s (abspath W.cwd path) = false) :
    Tells (markSeen s (abspath W.cwd path)) (addFile W (fuel + 1) path off forced s).2 := by
  rcases addFile_step Tells.trans W off forced hs
    (fun o ns neg => getItems_rel Tells.refl Tells.trans (fun s => .of_eq rfl rfl rfl rfl) W _ ih o ns neg)
    (enterMap_rel Tells.refl Tells.trans (fun _ _ _ => .of_eq rfl rfl rfl rfl) (fun _ _ _ => .of_eq rfl rfl rfl rfl) _ _)
    (crossLink_rel Tells.refl Tells.trans (fun _ _ _ => .of_eq rfl rfl rfl rfl) (fun _ _ _ => .of_eq rfl rfl rfl rfl) _)
    (addDistroMachine_rel Tells.refl Tells.trans (fun _ _ => .of_eq rfl rfl rfl rfl) W _) with ⟨e, s', he, hR⟩ | ⟨res, s4, he, hR⟩
  · rw [he]; exact hR
  · rw [he]; exact hR.trans _ _ _ (.of_eq rfl rfl rfl rfl)

theorem addFile_tells (W : World) (fuel : Nat) (path : Str) (off : Int) (forced : Option Str) :
    M.Rel Tells (addFile W fuel path off forced) := by
  induction fuel generalizing path off forced with
  | zero => exact M.Rel.raise Tells.refl _
  | succ fuel ih =>
    intro s
    by_cases hs : alreadySeen s (abspath W.cwd path) = true
    · rw [addFile_seen off forced hs]; exact .refl s
    · intro hi
      have hs : alreadySeen s (abspath W.cwd path) = false := by simpa using hs
      obtain ⟨t, ht⟩ := addFile_tells_new W fuel ih path off forced s hs (markSeen_announces hi hs).inv
      exact ⟨_, (markSeen_announces hi hs).trans ht⟩

/-- a call that parses the file announces it first -/
theorem addFile_tells_first {W : World} (fuel : Nat) {path : Str} (off : Int) (forced : Option Str) {s : Stash} (hi : SeenOk s)
    (hs : alreadySeen s (abspath W.cwd path) = false) :
    ∃ t, Announces s (addFile W (fuel + 1) path off forced s).2 (abspath W.cwd path :: t) := by
  obtain ⟨t, ht⟩ := addFile_tells_new W fuel (fun p o f => addFile_tells W fuel p o f) path off forced s hs (markSeen_announces hi hs).inv
  exact ⟨t, (markSeen_announces hi hs).trans ht⟩

theorem history_tells {W : World} {P : Call → Prop} {s s' : Stash} (hh : History W P s s') : Tells s s' := by
  refine history_rel Tells.refl Tells.trans ?_ hh
  intro d c s _
  cases c with
  | addFile p o fo => exact addFile_tells W d p o fo s
  | append l => exact .of_eq rfl rfl rfl rfl
  | remove l =>
    obtain ⟨items, he⟩ := removeItems_frame l s
    simp only [Call.after, he]
    exact .of_eq rfl rfl rfl rfl
  | finalize =>
    obtain ⟨items, map, he, _⟩ := finalize_frame W s
    simp only [Call.after, he]
    exact .of_eq rfl rfl rfl rfl

/-- new items come from seen files -/
def FromSeen (s s' : Stash) : Prop :=
  (∀ f ∈ s.seenFiles, f ∈ s'.seenFiles) ∧ ∀ it ∈ s'.items, it.origin ∈ s'.seenFiles ∨ ∃ a ∈ s.items, a.origin = it.origin

theorem FromSeen.refl (s : Stash) : FromSeen s s := ⟨fun _ h => h, fun it h => Or.inr ⟨it, h, rfl⟩⟩
theorem FromSeen.trans (a b c : Stash) (h1 : FromSeen a b) (h2 : FromSeen b c) : FromSeen a c := by
  refine ⟨fun f hf => h2.1 f (h1.1 f hf), fun it hit => ?_⟩
  rcases h2.2 it hit with h | ⟨x, hx, e⟩
  · exact Or.inl h
  · rcases h1.2 x hx with h | ⟨y, hy, e'⟩
    · exact Or.inl (e ▸ h2.1 _ h)
    · exact Or.inr ⟨y, hy, e'.trans e⟩

theorem FromSeen.of_eq {s s' : Stash} (h1 : s'.seenFiles = s.seenFiles) (h2 : ∀ it ∈ s'.items, ∃ a ∈ s.items, a.origin = it.origin) :
    FromSeen s s' := ⟨fun f hf => h1 ▸ hf, fun it hit => Or.inr (h2 it hit)⟩

theorem relined_origin {l l' : List Item} (h : Relined l l') : ∀ it ∈ l', ∃ a ∈ l, a.origin = it.origin := by
  have e : l'.map (·.origin) = l.map (·.origin) := h.map_eq (fun a n => rfl)
  intro it hit
  have : it.origin ∈ l.map (·.origin) := e ▸ List.mem_map_of_mem hit
  obtain ⟨a, ha, e'⟩ := List.mem_map.1 this
  exact ⟨a, ha, e'⟩

theorem addFile_fromSeen (W : World) (fuel : Nat) (path : Str) (off : Int) (forced : Option Str) :
    M.Rel FromSeen (addFile W fuel path off forced) := by
  induction fuel generalizing path off forced with
  | zero => exact M.Rel.raise FromSeen.refl _
  | succ fuel ih =>
    intro s
    have same : ∀ {s s' : Stash}, s'.seenFiles = s.seenFiles → s'.items = s.items → FromSeen s s' :=
      fun h1 h2 => .of_eq h1 (fun it hit => ⟨it, h2 ▸ hit, rfl⟩)
    by_cases hs : alreadySeen s (abspath W.cwd path) = true
    · rw [addFile_seen off forced hs]; exact .refl s
    · have hs : alreadySeen s (abspath W.cwd path) = false := by simpa using hs
      have hm : FromSeen s (markSeen s (abspath W.cwd path)) ∧ abspath W.cwd path ∈ (markSeen s (abspath W.cwd path)).seenFiles := by
        refine ⟨⟨fun f hf => ?_, fun it hit => Or.inr ⟨it, hit, rfl⟩⟩, ?_⟩
        · unfold markSeen; simp only; split
          · exact hf
          · simp [hf]
        · unfold markSeen; simp only; split
          · rename_i hc; simpa using hc
          · simp
      rcases addFile_step FromSeen.trans W off forced hs
        (fun o ns neg => getItems_rel FromSeen.refl FromSeen.trans (fun s => same rfl rfl) W _ (fun p o f => ih p o f) o ns neg)
        (enterMap_rel FromSeen.refl FromSeen.trans (fun _ _ _ => same rfl rfl) (fun _ _ _ => same rfl rfl) _ _)
        (crossLink_rel FromSeen.refl FromSeen.trans (fun _ _ h => .of_eq rfl (relined_origin h)) (fun _ _ _ => same rfl rfl) _)
        (addDistroMachine_rel FromSeen.refl FromSeen.trans (fun _ _ => same rfl rfl) W _) with ⟨e, s', he, hR⟩ | ⟨res, s4, he, hR⟩
      · rw [he]; exact hm.1.trans _ _ _ hR
      · have ho := addFile_origin he
        rw [he]
        refine (hm.1.trans _ _ _ hR).trans _ _ _ ⟨fun f hf => hf, fun it hit => ?_⟩
        rcases List.mem_append.1 (show it ∈ s4.items ++ res from hit) with h | h
        · exact Or.inr ⟨it, h, rfl⟩
        · exact Or.inl (by rw [ho it h]; exact hR.1 _ hm.2)

theorem history_fromSeen {W : World} {s s' : Stash} (hh : History W Call.loading s s') : FromSeen s s' := by
  refine history_rel FromSeen.refl FromSeen.trans ?_ hh
  intro d c s hc
  cases c with
  | addFile p o fo => exact addFile_fromSeen W d p o fo s
  | append l => exact hc.elim
  | remove l => exact hc.elim
  | finalize =>
    obtain ⟨items, map, he, hg⟩ := finalize_frame W s
    simp only [Call.after, he]
    refine .of_eq rfl fun it hit => ?_
    have e : items.map (·.origin) = s.items.map (·.origin) :=
      map_eq_of_forall₂ (R := Grown) (f := fun i => i.origin) (by rintro a _ ⟨fs, rfl⟩; rfl) hg
    have : it.origin ∈ s.items.map (·.origin) := e ▸ List.mem_map_of_mem hit
    obtain ⟨a, ha, e'⟩ := List.mem_map.1 this
    exact ⟨a, ha, e'⟩

/-- the states differ in `quiet` and what has been printed -/
def QuietRel (q : Bool) (s s' : Stash) : Prop := ∃ p, s' = { s with quiet := q, printed := p }

theorem twin_quiet (W : World) (q : Bool) : Twin W W (QuietRel q) where
  cwd := rfl
  find := fun _ _ => rfl
  root := fun _ => rfl
  glob := rfl
  repr := rfl
  itemOrder := rfl
  strOrder := rfl
  urlparse := rfl
  read := fun p => by cases W.file p <;> rfl
  core := by rintro s _ ⟨p, rfl⟩; exact ⟨rfl, rfl, rfl, rfl, rfl, rfl⟩
  set := by rintro s _ ⟨p, rfl⟩; intros; exact ⟨p, rfl⟩
  say := by rintro s _ ⟨p, rfl⟩ f; exact ⟨_, rfl⟩
  hash := by rintro s _ ⟨p, rfl⟩ t; exact ⟨p, rfl⟩
  conf := by rintro s _ ⟨p, rfl⟩; intros; exact ⟨rfl, p, rfl⟩
  ignoreClass := by rintro s _ ⟨p, rfl⟩; rfl
  ignoreInclude := by rintro s _ ⟨p, rfl⟩; rfl
  functions := by rintro s _ ⟨p, rfl⟩; rfl
  sets := by rintro s _ ⟨p, rfl⟩; rfl
  mirrors := by rintro s _ ⟨p, rfl⟩; rfl
  imgClasses := by rintro s _ ⟨p, rfl⟩; rfl
  imgVars := by rintro s _ ⟨p, rfl⟩; rfl
  prep := by rintro s _ ⟨p, rfl⟩ f off; rfl

end Oelint

import Verif.Lemmas.File
/-! How `AddFile` changes the state. -/
set_option linter.unusedSectionVars false
set_option linter.unusedSimpArgs false
namespace Oelint
variable [Uni]
open Spec

section rel
variable {R : Stash → Stash → Prop} (hr : ∀ a, R a a) (ht : ∀ a b c, R a b → R b c → R a c)
variable (hf : ∀ s, R s { s with nextUid := s.nextUid + 1 })
variable (W : World) {add : AddFn} (file : Str) (hadd : ∀ p o f, M.Rel R (add p o f))
include hr ht hf hadd

theorem freshUid_rel : M.Rel R freshUid := fun s => hf s

theorem inheritLoop_rel (lineno : Int) (inhname : Str) (locs l found : List Str) (off : Int) :
    M.Rel R (inheritLoop W add file lineno inhname locs l found off) := by
  induction l generalizing found off with
  | nil => exact M.Rel.pure hr _
  | cons inh rest ih =>
    unfold inheritLoop
    refine M.Rel.bind ht (M.Rel.lift hr _) fun path => ?_
    split
    · exact ih _ _
    · refine M.Rel.bind ht (M.Rel.ask hr _) fun ign => ?_
      split
      · exact ih _ _
      · exact M.Rel.bind ht (hadd _ _ _) fun tmp => ih _ _

theorem handleKind_rel (lineno : Int) (p : Params) (k : Kind) (pat : Pattern) (m : Mt) :
    M.Rel R (handleKind W add file lineno p k pat m) := by
  have hsimple : ∀ pl : Payload, M.Rel R (do let uid ← freshUid; pure (some (mkItem uid p pl, (0 : Int)))) :=
    fun pl => M.Rel.bind ht (fun s => hf s) fun _ => M.Rel.pure hr _
  unfold handleKind
  cases k <;> simp only
  case inherit | inheritGlob =>
    refine M.Rel.bind ht (M.Rel.ask hr _) fun inhname => ?_
    refine M.Rel.bind ht (inheritLoop_rel hr ht hf W file hadd _ _ _ _ _ _) fun r => ?_
    exact M.Rel.bind ht (fun s => hf s) fun _ => M.Rel.pure hr _
  case «include» =>
    refine M.Rel.bind ht (M.Rel.ask hr _) fun name => ?_
    refine M.Rel.bind ht (M.Rel.lift hr _) fun path => ?_
    split
    · exact hsimple _
    · refine M.Rel.bind ht (M.Rel.ask hr _) fun ign => ?_
      split
      · exact M.Rel.pure hr _
      · refine M.Rel.bind ht (hadd _ _ _) fun tmp => ?_
        exact M.Rel.bind ht (fun s => hf s) fun _ => M.Rel.pure hr _
  case addtask =>
    split
    · exact M.Rel.pure hr _
    · exact M.Rel.bind ht (fun s => hf s) fun _ => M.Rel.pure hr _
  case func =>
    refine M.Rel.bind ht (M.Rel.ask hr _) fun _ => ?_
    exact M.Rel.bind ht (fun s => hf s) fun _ => M.Rel.pure hr _
  all_goals exact M.Rel.bind ht (fun s => hf s) fun _ => M.Rel.pure hr _

theorem classify_rel (lineno : Int) (p : Params) (cnt : Str) (l : List (Kind × Pattern)) :
    M.Rel R (classify W add file lineno p cnt l) := by
  induction l with
  | nil => exact M.Rel.bind ht (fun s => hf s) fun _ => M.Rel.pure hr _
  | cons kp rest ih =>
    obtain ⟨k, pat⟩ := kp
    unfold classify
    split
    · exact ih
    · refine M.Rel.bind ht (handleKind_rel hr ht hf W file hadd _ _ _ _ _) fun r => ?_
      cases r with
      | some r => exact M.Rel.pure hr _
      | none => exact ih

theorem itemsLoop_rel (lineOffset off : Int) (ns : Bool) (cs : List Chunk) :
    M.Rel R (itemsLoop W add file lineOffset off ns cs) := by
  induction cs generalizing off ns with
  | nil => exact M.Rel.pure hr _
  | cons c cs ih =>
    unfold itemsLoop
    refine M.Rel.bind ht (classify_rel hr ht hf W file hadd _ _ _ _) fun r => ?_
    exact M.Rel.bind ht (ih _ _) fun _ => M.Rel.pure hr _

theorem getItems_rel (lineOffset : Int) (ns neg : Bool) : M.Rel R (getItems W add file lineOffset ns neg) := by
  unfold getItems
  exact M.Rel.bind ht (M.Rel.lift hr _) fun _ => itemsLoop_rel hr ht hf W _ hadd _ _ _ _
end rel

/-! ## the parts of `AddFile` -/

theorem linkAppend_cons (file : Str) (x : Str) (xs : List Str) (mx : Int) (s : Stash) :
    linkAppend file (x :: xs) mx s = match matchDyn (appendPattern file) (basename x) with
      | .error e => (.error e, s)
      | .ok false => linkAppend file xs mx s
      | .ok true =>
        linkAppend file xs (max mx (maxLine (s.items.filter (fun i => i.origin == x))))
          { s with map := mapAppend s.map x file } := rfl

theorem linkAppend_rel {R : Stash → Stash → Prop} (hr : ∀ a, R a a) (ht : ∀ a b c, R a b → R b c → R a c) (file : Str)
    (hm : ∀ s x, R s { s with map := mapAppend s.map x file }) (l : List Str) (mx : Int) : M.Rel R (linkAppend file l mx) := by
  induction l generalizing mx with
  | nil => exact M.Rel.pure hr _
  | cons x xs ih =>
    intro s
    rw [linkAppend_cons]
    split
    · exact hr s
    · exact ih _ s
    · exact ht _ _ _ (hm s x) (ih _ _)

theorem linkRecipe_nil (file bn : Str) (mx : Int) (done : List Item) (s : Stash) :
    linkRecipe file bn mx done [] s = (.ok (), { s with items := done }) := rfl

theorem linkRecipe_cons (file bn : Str) (mx : Int) (done : List Item) (item : Item) (rest : List Item) (s : Stash) :
    linkRecipe file bn mx done (item :: rest) s =
    if !endsWith c!".bbappend" item.origin then linkRecipe file bn mx (done ++ [item]) rest s
    else match matchDyn (appendPattern' item.origin) bn with
      | .error e => (.error e, { s with items := done ++ item :: rest })
      | .ok false => linkRecipe file bn mx (done ++ [item]) rest s
      | .ok true =>
        linkRecipe file bn mx (done ++ [{ item with line := max item.line (item.inFileLine + mx) }]) rest
          { s with map := mapAppend s.map file item.origin } := rfl

/-- the items with another `Line` -/
def Relined (l l' : List Item) : Prop := List.Forall₂ (fun a b => b = { a with line := b.line }) l l'

theorem Relined.refl (l : List Item) : Relined l l := by
  induction l with
  | nil => exact List.Forall₂.nil
  | cons x xs ih => exact List.Forall₂.cons rfl ih

theorem Relined.trans {a b c : List Item} (h1 : Relined a b) (h2 : Relined b c) : Relined a c := by
  induction h1 generalizing c with
  | nil => cases h2; exact List.Forall₂.nil
  | cons hx _ ih =>
    cases h2 with
    | cons hy h2 => 
      refine List.Forall₂.cons ?_ (ih h2)
      rw [hy]; rw [hx]

theorem Relined.append {a b c d : List Item} (h1 : Relined a b) (h2 : Relined c d) : Relined (a ++ c) (b ++ d) := by
  induction h1 with
  | nil => exact h2
  | cons hx _ ih => exact List.Forall₂.cons hx ih

theorem Relined.map_eq {α} {f : Item → α} (hf : ∀ a n, f { a with line := n } = f a) {a b : List Item} (h : Relined a b) :
    b.map f = a.map f := by
  induction h with
  | nil => rfl
  | cons hx _ ih => rw [List.map_cons, List.map_cons, ih, hx, hf]

theorem linkRecipe_rel {R : Stash → Stash → Prop} (ht : ∀ a b c, R a b → R b c → R a c) (file bn : Str) (mx : Int)
    (hi : ∀ s l, Relined s.items l → R s { s with items := l })
    (hm : ∀ s x, R s { s with map := mapAppend s.map file x }) (done l : List Item) (s : Stash) (h : Relined s.items (done ++ l)) :
    R s (linkRecipe file bn mx done l s).2 := by
  induction l generalizing done s with
  | nil => rw [List.append_nil] at h; rw [linkRecipe_nil]; exact hi s done h
  | cons item rest ih =>
    rw [linkRecipe_cons]
    split
    · exact ih _ s (by simpa using h)
    · split
      · exact hi s _ h
      · exact ih _ s (by simpa using h)
      · refine ht _ _ _ (hm s item.origin) (ih _ _ ?_)
        simp only [List.append_assoc, List.cons_append, List.nil_append]
        refine Relined.trans h ?_
        refine Relined.append (Relined.refl _) ?_
        exact List.Forall₂.cons rfl (Relined.refl _)

theorem crossLink_rel {R : Stash → Stash → Prop} (hr : ∀ a, R a a) (ht : ∀ a b c, R a b → R b c → R a c)
    (hi : ∀ s l, Relined s.items l → R s { s with items := l })
    (hm : ∀ s k x, R s { s with map := mapAppend s.map k x }) (file : Str) (res : List Item) :
    M.Rel R (crossLink file res) := by
  unfold crossLink
  split
  · refine M.Rel.bind ht (M.Rel.get hr) fun s => ?_
    exact M.Rel.bind ht (linkAppend_rel hr ht file (fun s x => hm s x file) _ _) fun _ => M.Rel.pure hr _
  · split
    · intro s
      have : R s (linkRecipe file (replaceAll c!".bb" [] (basename file)) (maxLine res) [] s.items s).2 :=
        linkRecipe_rel ht file _ _ hi (fun s x => hm s file x) [] s.items _ (Relined.refl _)
      change R s ((linkRecipe file (replaceAll c!".bb" [] (basename file)) (maxLine res) [] s.items >>= fun _ => pure res) s).2
      rw [M.bind_def]
      rcases h : linkRecipe file (replaceAll c!".bb" [] (basename file)) (maxLine res) [] s.items s with ⟨r, s'⟩
      rw [h] at this
      cases r <;> exact this
    · exact M.Rel.pure hr _

theorem addConfs_cons (key conf : Str) (rest : List Str) (s : Stash) :
    addConfs key (conf :: rest) s = match addConstants s.consts (replConst key (splitext (basename conf)).1) with
      | (db, none) => addConfs key rest { s with consts := db }
      | (db, some e) => (.error e, { s with consts := db }) := rfl

theorem addConfs_rel {R : Stash → Stash → Prop} (hr : ∀ a, R a a) (ht : ∀ a b c, R a b → R b c → R a c)
    (hc : ∀ s db, R s { s with consts := db }) (key : Str) (l : List Str) : M.Rel R (addConfs key l) := by
  induction l with
  | nil => exact M.Rel.pure hr _
  | cons conf rest ih =>
    intro s
    rw [addConfs_cons]
    split
    · exact ht _ _ _ (hc _ _) (ih _)
    · exact hc _ _

theorem addDistroMachine_rel {R : Stash → Stash → Prop} (hr : ∀ a, R a a) (ht : ∀ a b c, R a b → R b c → R a c)
    (hc : ∀ s db, R s { s with consts := db }) (W : World) (path : Str) : M.Rel R (addDistroMachine W path) := by
  unfold addDistroMachine
  refine M.Rel.bind ht (M.Rel.lift hr _) fun root => ?_
  split
  · exact M.Rel.pure hr _
  · exact M.Rel.bind ht (addConfs_rel hr ht hc _ _) fun _ => addConfs_rel hr ht hc _ _

/-- the outcomes of `AddFile` for a file that is not skipped -/
theorem addFile_step {R : Stash → Stash → Prop} (ht : ∀ a b c, R a b → R b c → R a c) (W : World)
    {fuel : Nat} {path : Str} (off : Int) (forced : Option Str) {s : Stash}
    (hnew : alreadySeen s (abspath W.cwd path) = false)
    (hget : ∀ off ns neg, M.Rel R (getItems W (addFile W fuel) (abspath W.cwd path) off ns neg))
    (henter : ∀ s, R s { s with map := enterMap s.map (abspath W.cwd path) forced })
    (hcross : ∀ its, M.Rel R (crossLink (abspath W.cwd path) its))
    (hdistro : M.Rel R (addDistroMachine W (abspath W.cwd path))) :
    (∃ e s', addFile W (fuel + 1) path off forced s = (.error e, s') ∧ R (markSeen s (abspath W.cwd path)) s') ∨
    ∃ res s4, addFile W (fuel + 1) path off forced s = (.ok res, commitItems W res s4) ∧
      R (markSeen s (abspath W.cwd path)) s4 := by
  have heq : addFile W (fuel + 1) path off forced s =
      (do let res ← getItems W (addFile W fuel) (abspath W.cwd path) off s.newStyle s.negative
          M.modify (fun s => { s with map := enterMap s.map (abspath W.cwd path) forced })
          let res ← crossLink (abspath W.cwd path) res
          addDistroMachine W (abspath W.cwd path)
          M.modify (commitItems W res)
          pure res : M (List Item)) (markSeen s (abspath W.cwd path)) := by
    rw [addFile, M.bind_def]
    simp only [M.get]
    rw [hnew]
    rfl
  rw [heq, M.bind_def]
  have h1 := hget off s.newStyle s.negative (markSeen s (abspath W.cwd path))
  rcases hg : getItems W (addFile W fuel) (abspath W.cwd path) off s.newStyle s.negative (markSeen s (abspath W.cwd path))
    with ⟨r, s1⟩
  rw [hg] at h1
  cases r with
  | error e => exact Or.inl ⟨e, s1, rfl, h1⟩
  | ok its =>
    simp only [M.bind_def, M.modify]
    have h2 := henter s1
    have h3 := hcross its { s1 with map := enterMap s1.map (abspath W.cwd path) forced }
    rcases hx : crossLink (abspath W.cwd path) its { s1 with map := enterMap s1.map (abspath W.cwd path) forced } with ⟨r, s3⟩
    rw [hx] at h3
    cases r with
    | error e => exact Or.inl ⟨e, s3, rfl, ht _ _ _ h1 (ht _ _ _ h2 h3)⟩
    | ok res =>
      simp only
      have h4 := hdistro s3
      rcases hd : addDistroMachine W (abspath W.cwd path) s3 with ⟨r, s4⟩
      rw [hd] at h4
      have h5 := ht _ _ _ h1 (ht _ _ _ h2 (ht _ _ _ h3 h4))
      cases r with
      | error e => exact Or.inl ⟨e, s4, rfl, h5⟩
      | ok u => exact Or.inr ⟨res, s4, rfl, h5⟩

theorem addFile_seen {W : World} {fuel : Nat} {path : Str} (off : Int) (forced : Option Str) {s : Stash}
    (h : alreadySeen s (abspath W.cwd path) = true) : addFile W (fuel + 1) path off forced s = (.ok [], s) := by
  rw [addFile, M.bind_def]
  simp only [M.get]
  rw [h]
  rfl

/-- a relation kept by every step of `AddFile` -/
structure StepRel (W : World) (R : Stash → Stash → Prop) : Prop where
  refl : ∀ a, R a a
  trans : ∀ a b c, R a b → R b c → R a c
  uid : ∀ s, R s { s with nextUid := s.nextUid + 1 }
  mark : ∀ s f, R s (markSeen s f)
  link : ∀ s k x, R s { s with map := mapAppend s.map k x }
  enter : ∀ s k, dhas k s.map = false → R s { s with map := dset k [] s.map }
  reline : ∀ s l, Relined s.items l → R s { s with items := l }
  consts : ∀ s db, R s { s with consts := db }
  commit : ∀ s l, R s (commitItems W l s)

theorem enterMap_rel {R : Stash → Stash → Prop} (hr : ∀ a, R a a) (ht : ∀ a b c, R a b → R b c → R a c)
    (hl : ∀ s k x, R s { s with map := mapAppend s.map k x })
    (he : ∀ s k, dhas k s.map = false → R s { s with map := dset k [] s.map }) (file : Str) (forced : Option Str) (s : Stash) :
    R s { s with map := enterMap s.map file forced } := by
  have h1 : R s { s with map := if dhas file s.map then s.map else dset file [] s.map } := by
    by_cases h : dhas file s.map = true
    · rw [if_pos h]; exact hr s
    · rw [if_neg h]; exact he s file (by simpa using h)
  unfold enterMap
  simp only
  split
  · split
    · exact h1
    · exact ht _ _ _ h1 (hl { s with map := if dhas file s.map then s.map else dset file [] s.map } _ _)
  · exact h1

theorem addFile_rel {W : World} {R : Stash → Stash → Prop} (h : StepRel W R) (fuel : Nat) (path : Str) (off : Int)
    (forced : Option Str) : M.Rel R (addFile W fuel path off forced) := by
  induction fuel generalizing path off forced with
  | zero => exact M.Rel.raise h.refl _
  | succ fuel ih =>
    intro s
    by_cases hs : alreadySeen s (abspath W.cwd path) = true
    · rw [addFile_seen off forced hs]; exact h.refl s
    · rcases addFile_step h.trans W off forced (by simpa using hs)
        (fun o ns neg => getItems_rel h.refl h.trans h.uid W _ (fun p o f => ih p o f) o ns neg)
        (enterMap_rel h.refl h.trans h.link h.enter _ _)
        (crossLink_rel h.refl h.trans h.reline h.link _)
        (addDistroMachine_rel h.refl h.trans h.consts W _) with ⟨e, s', he, hR⟩ | ⟨res, s4, he, hR⟩
      · rw [he]; exact h.trans _ _ _ (h.mark s _) hR
      · rw [he]; exact h.trans _ _ _ (h.mark s _) (h.trans _ _ _ hR (h.commit _ _))

/-- the two ways `AddFile` can go for a file it parses -/
theorem addFile_new {W : World} {R : Stash → Stash → Prop} (h : StepRel W R) (fuel : Nat) (path : Str) (off : Int)
    (forced : Option Str) {s : Stash} (hs : alreadySeen s (abspath W.cwd path) = false) :
    (∃ e s', addFile W (fuel + 1) path off forced s = (.error e, s') ∧ R (markSeen s (abspath W.cwd path)) s') ∨
    ∃ res s4, addFile W (fuel + 1) path off forced s = (.ok res, commitItems W res s4) ∧
      R (markSeen s (abspath W.cwd path)) s4 :=
  addFile_step h.trans W off forced hs
    (fun o ns neg => getItems_rel h.refl h.trans h.uid W _ (fun p o f => addFile_rel h fuel p o f) o ns neg)
    (enterMap_rel h.refl h.trans h.link h.enter _ _)
    (crossLink_rel h.refl h.trans h.reline h.link _)
    (addDistroMachine_rel h.refl h.trans h.consts W _)

theorem addFile_marks {W : World} {R : Stash → Stash → Prop} (h : StepRel W R) (fuel : Nat) (path : Str) (off : Int)
    (forced : Option Str) {s : Stash} (hs : alreadySeen s (abspath W.cwd path) = false) :
    R (markSeen s (abspath W.cwd path)) (addFile W (fuel + 1) path off forced s).2 := by
  rcases addFile_new h fuel path off forced hs with ⟨e, s', he, hR⟩ | ⟨res, s4, he, hR⟩
  · rw [he]; exact hR
  · rw [he]; exact h.trans _ _ _ hR (h.commit _ _)

end Oelint

import Verif.Lemmas.ParserErr
import Verif.Lemmas.LayerLoop
import Verif.Lemmas.History
import Verif.Lemmas.Finalize
import Verif.Lemmas.Expand
import Verif.Spec.Loading
/-! Termination of `AddFile` (C47). -/
set_option linter.unusedSectionVars false
set_option linter.unusedSimpArgs false
namespace Oelint
variable [Uni]
open Spec

/-- the computation ends -/
def Ends (e : PyErr) : Prop := e ≠ .recursionError ∧ e ≠ .diverges

/-- from the states with `I` both computations do the same, end, and keep `I` -/
def Agree {α : Type} (I : Stash → Prop) (x y : M α) : Prop :=
  ∀ s, I s → x s = y s ∧ (∀ e, (x s).1 = .error e → Ends e) ∧ I (x s).2

namespace Agree
variable {α β : Type} {I : Stash → Prop}

theorem bind {x y : M α} {f g : α → M β} (hx : Agree I x y) (hf : ∀ a, Agree I (f a) (g a)) : Agree I (x >>= f) (y >>= g) := by
  intro s hs
  obtain ⟨h1, h2, h3⟩ := hx s hs
  simp only [M.bind_def]
  rw [← h1]
  cases hxs : x s with
  | mk r s1 =>
    rw [hxs] at h2 h3
    cases r with
    | error e => exact ⟨rfl, fun e' h' => by cases h'; exact h2 e rfl, h3⟩
    | ok a => exact hf a s1 h3

/-- a part without recursion -/
theorem same {x : M α} (he : M.Err x Ends) (hi : ∀ s, I s → I (x s).2) : Agree I x x := by
  intro s hs
  refine ⟨rfl, fun e h => he s e (x s).2 ?_, hi s hs⟩
  rw [← h]

theorem pure (a : α) : Agree I (Pure.pure a : M α) (Pure.pure a) := same (M.Err.pure _ _) fun _ h => h

theorem askThen {f : Stash → Except PyErr α} {g g' : α → M β} (he : ∀ s e, f s = .error e → Ends e)
    (hg : ∀ s a, I s → f s = .ok a → Agree I (g a) (g' a)) : Agree I (M.ask f >>= g) (M.ask f >>= g') := by
  intro s hs
  simp only [M.bind_def, M.ask]
  cases hf : f s with
  | error e => exact ⟨rfl, fun e' h => by cases h; exact he s e hf, hs⟩
  | ok a => exact hg s a hs hf s hs

theorem liftThen {f : Except PyErr α} {g g' : α → M β} (he : ∀ e, f = .error e → Ends e)
    (hg : ∀ a, f = .ok a → Agree I (g a) (g' a)) : Agree I (M.lift f >>= g) (M.lift f >>= g') := by
  intro s hs
  simp only [M.bind_def, M.lift]
  cases hf : f with
  | error e => exact ⟨rfl, fun e' h => by cases h; exact he e hf, hs⟩
  | ok a => exact hg a hf s hs

end Agree

/-- number of files that are not yet known -/
def unseenFiles (C : List Str) (s : Stash) : Nat := C.countP (fun f => !alreadySeen s f)

theorem alreadySeen_grow {s s' : Stash} (h : SeenGrow s s') {f : Str} (hf : alreadySeen s f = true) : alreadySeen s' f = true := by
  unfold alreadySeen at hf ⊢
  simp only [Bool.or_eq_true, Bool.and_eq_true, List.contains_eq_mem, decide_eq_true_eq] at hf ⊢
  rcases hf with ⟨h1, h2⟩ | h1
  · exact Or.inl ⟨h.1 _ h1, h2⟩
  · exact Or.inr (h.2 _ h1)

theorem unseenFiles_grow {C : List Str} {s s' : Stash} (h : SeenGrow s s') : unseenFiles C s' ≤ unseenFiles C s := by
  unfold unseenFiles
  apply List.countP_mono_left
  intro f _ hf
  cases hs : alreadySeen s f with
  | false => rfl
  | true => rw [alreadySeen_grow h hs] at hf; cases hf

theorem seen_of_mark {s : Stash} {f : Str} (hg : ¬ Reread f) : alreadySeen (markSeen s f) f = true := by
  unfold Reread at hg
  refine alreadySeen_of_seen ?_ ?_ hg
  · unfold markSeen
    simp only
    split
    · rename_i h; simpa using h
    · simp
  · intro he; unfold markSeen; simp [he]

theorem unseenFiles_mark {C : List Str} {s : Stash} {f : Str} (hf : f ∈ C) (hg : ¬ Reread f) (hs : alreadySeen s f = false) :
    unseenFiles C (markSeen s f) < unseenFiles C s := by
  have hgrow : SeenGrow s (markSeen s f) := by
    constructor <;> intro g hg <;> unfold markSeen <;> simp only <;> split <;> simp [hg]
  unfold unseenFiles
  induction C with
  | nil => cases hf
  | cons c C ih =>
    rw [List.countP_cons, List.countP_cons]
    by_cases hc : c = f
    · subst hc
      rw [seen_of_mark hg, hs]
      have := unseenFiles_grow (C := C) hgrow
      unfold unseenFiles at this
      simp; omega
    · have := ih ((List.mem_cons.1 hf).resolve_left (Ne.symm hc))
      have h2 : (if (!alreadySeen (markSeen s f) c) = true then 1 else 0) ≤ (if (!alreadySeen s c) = true then 1 else 0) := by
        cases h : alreadySeen s c with
        | true => rw [alreadySeen_grow hgrow h]
        | false => simp only [Bool.not_false, if_true]; split <;> omega
      omega

variable (W : World)

theorem expandTerm_ends {f v : Str} (s : Stash) (e : PyErr) (h : expandTerm W s f v = .error e) : Ends e := by
  have h1 := (expandTerm_fuel W s f [] v _ (Nat.le_refl _)).2
  rcases expandTerm_error h with rfl | rfl | rfl | rfl
  · exact absurd h h1
  · exact ⟨by simp, by simp⟩
  · exact ⟨by simp, by simp⟩
  · exact ⟨by simp, by simp⟩

theorem const_ends {p : Str} (s : Stash) (e : PyErr) (h : constGet s.consts p = .error e) : Ends e := by
  rw [getKeys_error h]; exact ⟨by simp, by simp⟩

variable {W} {add add' : AddFn} {file : Str} {I : Stash → Prop}

/-- what the recursion is used for -/
def AddAgree (W : World) (I : Stash → Prop) (add add' : AddFn) (file : Str) : Prop :=
  ∀ p, MayLoad W file p → ∀ o f, Agree I (add p o f) (add' p o f)

/-- new objects do not matter -/
def UidFree (I : Stash → Prop) : Prop := ∀ s, I s → I { s with nextUid := s.nextUid + 1 }

theorem freshUid_agree (hI : UidFree I) : Agree I freshUid freshUid := Agree.same (freshUid_err _) hI

theorem findsClass_mem {dir name p : Str} {locs : List Str} (h : FindsClass W dir name locs p) :
    ∃ loc ∈ locs, Finds W dir (pathJoin loc name) p := by
  induction h with
  | here h hp => exact ⟨_, by simp, h⟩
  | next _ _ ih => obtain ⟨loc, h1, h2⟩ := ih; exact ⟨loc, by simp [h1], h2⟩

theorem inheritLoop_agree (hw : W.isDir [] = false) (hc : Climbs file) (hadd : AddAgree W I add add' file)
    (lineno : Int) (n inhname : Str) (s0 : Stash) (hwr : WritesInherit W file n) (he : expandTerm W s0 file n = .ok inhname)
    (locs : List Str) (hl : ∀ l ∈ locs, l ∈ [c!"classes", c!"classes-recipe", c!"classes-global"])
    (l found : List Str) (hsub : ∀ x ∈ l, x ∈ splitNE ' ' inhname) (off : Int) :
    Agree I (inheritLoop W add file lineno inhname locs l found off) (inheritLoop W add' file lineno inhname locs l found off) := by
  induction l generalizing found off with
  | nil => exact Agree.pure _
  | cons i l ih =>
    have ih := fun found off => ih found (fun x hx => hsub x (by simp [hx])) off
    rw [inheritLoop, inheritLoop]
    refine Agree.liftThen (fun e h => ?_) fun path hpath => ?_
    · obtain ⟨p, hp⟩ := findClass_ends (name := withBbclass i) hw hc.dirname locs
      rw [hp] at h; cases h
    · split
      · exact ih _ _
      · rename_i hne
        refine Agree.askThen const_ends fun s ign _ _ => ?_
        split
        · exact ih _ _
        · refine Agree.bind (hadd path ?_ _ _) fun tmp => ih _ _
          have hf := (findClass_spec locs hpath).1 (by simpa using hne)
          obtain ⟨loc, h1, h2⟩ := findsClass_mem hf
          exact Or.inr ⟨n, s0, inhname, i, withBbclass i, loc, hwr, he, hsub i (by simp), classFile_withBbclass i, hl _ h1, h2⟩

theorem getD_some {o : Option Str} {x : Str} (h : o = some x) : o.getD [] = x := by rw [h]; rfl

/-- the pattern belongs to the kind, and its named group takes part in every match -/
theorem handleKind_agree (hw : W.isDir [] = false) (hc : Climbs file) (hI : UidFree I) (hadd : AddAgree W I add add' file)
    (lineno : Int) (p : Params) (k : Kind) (pat : Pattern) (m : Mt)
    (hi : k = .include → WritesInclude W file ((pat.group m c!"incname").getD []))
    (hj : k = .inherit ∨ k = .inheritGlob → WritesInherit W file ((pat.group m c!"inhname").getD [])) :
    Agree I (handleKind W add file lineno p k pat m) (handleKind W add' file lineno p k pat m) := by
  cases k <;> unfold handleKind <;> simp only
  case func =>
    exact Agree.askThen const_ends fun _ _ _ _ => Agree.bind (freshUid_agree hI) fun _ => Agree.pure _
  case inherit =>
    refine Agree.askThen (expandTerm_ends W) fun s inhname _ he => ?_
    refine Agree.bind (inheritLoop_agree hw hc hadd _ _ _ s (hj (by simp)) he _ (fun l h => h) _ _ (fun x h => h) _) fun r => ?_
    exact Agree.bind (freshUid_agree hI) fun uid => Agree.pure _
  case inheritGlob =>
    refine Agree.askThen (expandTerm_ends W) fun s inhname _ he => ?_
    refine Agree.bind (inheritLoop_agree hw hc hadd _ _ _ s (hj (by simp)) he _ (fun l h => ?_) _ _ (fun x h => h) _) fun r => ?_
    · simp only [List.mem_cons, List.not_mem_nil, or_false] at h ⊢
      rcases h with h | h <;> simp [h]
    · exact Agree.bind (freshUid_agree hI) fun uid => Agree.pure _
  case addtask =>
    split
    · exact Agree.pure _
    · exact Agree.bind (freshUid_agree hI) fun uid => Agree.pure _
  case «include» =>
    refine Agree.askThen (expandTerm_ends W) fun s name _ he => ?_
    refine Agree.liftThen (fun e h => ?_) fun path hpath => ?_
    · obtain ⟨p, hp⟩ := findLocalOrLayer_ends (name := name) hw hc.dirname
      rw [hp] at h; cases h
    · split
      · exact Agree.bind (freshUid_agree hI) fun uid => Agree.pure _
      · rename_i hne
        refine Agree.askThen const_ends fun _ ign _ _ => ?_
        split
        · exact Agree.pure _
        · refine Agree.bind (hadd path (Or.inl ⟨_, s, name, hi rfl, he, ?_⟩) _ _) fun tmp =>
            Agree.bind (freshUid_agree hI) fun uid => Agree.pure _
          exact (findLocalOrLayer_spec hpath).1 (by simpa using hne)
  all_goals exact Agree.bind (freshUid_agree hI) fun uid => Agree.pure _

theorem classify_agree (hw : W.isDir [] = false) (hc : Climbs file) (hI : UidFree I) (hadd : AddAgree W I add add' file)
    (lineno : Int) (p : Params) (cnt : Str) (l : List (Kind × Pattern))
    (hi : ∀ k pat m, (k, pat) ∈ l → reMatch pat.re cnt = some m → k = .include →
      WritesInclude W file ((pat.group m c!"incname").getD []))
    (hj : ∀ k pat m, (k, pat) ∈ l → reMatch pat.re cnt = some m → k = .inherit ∨ k = .inheritGlob →
      WritesInherit W file ((pat.group m c!"inhname").getD [])) :
    Agree I (classify W add file lineno p cnt l) (classify W add' file lineno p cnt l) := by
  induction l with
  | nil => rw [classify, classify]; exact Agree.bind (freshUid_agree hI) fun uid => Agree.pure _
  | cons kp l ih =>
    obtain ⟨k, pat⟩ := kp
    have ih := ih (fun k pat m h => hi k pat m (by simp [h])) (fun k pat m h => hj k pat m (by simp [h]))
    rw [classify, classify]
    cases hm : reMatch pat.re cnt with
    | none => exact ih
    | some m =>
      refine Agree.bind (handleKind_agree hw hc hI hadd _ _ _ _ _ (hi k pat m (by simp) hm) (hj k pat m (by simp) hm)) fun r => ?_
      cases r with
      | some x => exact Agree.pure _
      | none => exact ih

theorem itemsLoop_agree (hw : W.isDir [] = false) (hc : Climbs file) (hI : UidFree I) (hadd : AddAgree W I add add' file)
    (lineOffset lo : Int) (neg : Bool) (all : List Chunk) (hp : prepareLines W file lo neg = .ok all)
    (off : Int) (ns : Bool) (cs : List Chunk) (hcs : ∀ c ∈ cs, c ∈ all) :
    Agree I (itemsLoop W add file lineOffset off ns cs) (itemsLoop W add' file lineOffset off ns cs) := by
  induction cs generalizing off ns with
  | nil => exact Agree.pure _
  | cons c cs ih =>
    rw [itemsLoop, itemsLoop]
    refine Agree.bind (classify_agree hw hc hI hadd _ _ _ _ ?_ ?_) fun r =>
      Agree.bind (ih _ _ fun c h => hcs c (by simp [h])) fun _ => Agree.pure _
    · rintro k pat m hmem hm rfl
      have : pat = reInclude := by
        simp only [parseOrder, List.mem_cons, Prod.mk.injEq, reduceCtorEq, false_and, true_and, false_or, or_false,
          List.not_mem_nil] at hmem
        exact hmem
      subst this
      exact ⟨lo, neg, all, c, m, hp, hcs c (by simp), hm, rfl⟩
    · rintro k pat m hmem hm (rfl | rfl)
      · have : pat = reInherit := by
          simp only [parseOrder, List.mem_cons, Prod.mk.injEq, reduceCtorEq, false_and, true_and, false_or, or_false,
            List.not_mem_nil] at hmem
          exact hmem
        subst this
        exact ⟨lo, neg, all, c, m, hp, hcs c (by simp), Or.inl ⟨hm, rfl⟩⟩
      · have : pat = reInheritGlob := by
          simp only [parseOrder, List.mem_cons, Prod.mk.injEq, reduceCtorEq, false_and, true_and, false_or, or_false,
            List.not_mem_nil] at hmem
          exact hmem
        subst this
        exact ⟨lo, neg, all, c, m, hp, hcs c (by simp), Or.inr ⟨hm, rfl⟩⟩

theorem prepareLines_ends {off : Int} {neg : Bool} {e : PyErr} (h : prepareLines W file off neg = .error e) : Ends e := by
  unfold prepareLines at h
  split at h
  · rw [(chunksOf_error h).1]; exact ⟨by simp, by simp⟩
  · cases h
  · cases h; exact ⟨by simp, by simp⟩
  · cases h; exact ⟨by simp, by simp⟩

/-- enough depth for a file when `u` files are not yet known -/
def Enough (rank : Str → Nat) (N u : Nat) (f : Str) (n : Nat) : Prop :=
  (Reread f → u * N + rank f + 2 ≤ n) ∧ (¬ Reread f → u * N + 1 ≤ n)

theorem addFile_agree (hw : W.isDir [] = false) (C : List Str) (hclimb : ∀ f ∈ C, Climbs f)
    (hC : ∀ f p, MayLoad W f p → abspath W.cwd p ∈ C) (rank : Str → Nat) (N : Nat) (hN : ∀ f ∈ C, rank f < N)
    (hr : ∀ f p, MayLoad W f p → Reread (abspath W.cwd p) → rank (abspath W.cwd p) < rank f)
    (n n' u : Nat) (path : Str) (hf : abspath W.cwd path ∈ C) (h1 : Enough rank N u (abspath W.cwd path) n)
    (h2 : Enough rank N u (abspath W.cwd path) n') (o : Int) (fo : Option Str) :
    Agree (fun s => unseenFiles C s ≤ u) (addFile W n path o fo) (addFile W n' path o fo) := by
  induction n generalizing n' u path o fo with
  | zero =>
    exfalso
    by_cases hre : Reread (abspath W.cwd path)
    · have := h1.1 hre; omega
    · have := h1.2 hre; omega
  | succ n ih =>
    cases n' with
    | zero =>
      exfalso
      by_cases hre : Reread (abspath W.cwd path)
      · have := h2.1 hre; omega
      · have := h2.2 hre; omega
    | succ n' =>
      intro s hs
      by_cases hseen : alreadySeen s (abspath W.cwd path) = true
      · rw [addFile_seen o fo hseen, addFile_seen o fo hseen]
        exact ⟨rfl, (fun e (h : Except.ok [] = Except.error e) => by cases h), hs⟩
      · have hseen : alreadySeen s (abspath W.cwd path) = false := by simpa using hseen
        have hgrow : unseenFiles C (addFile W (n + 1) path o fo s).2 ≤ u :=
          Nat.le_trans (unseenFiles_grow (addFile_rel (seenGrow_step W) (n + 1) path o fo s)) hs
        have hm : unseenFiles C (markSeen s (abspath W.cwd path)) ≤ u :=
          Nat.le_trans (unseenFiles_grow ((seenGrow_step W).mark s _)) hs
        have hNf := hN _ hf
        -- the depth left for the files loaded from here
        have hchild : ∀ k, Enough rank N u (abspath W.cwd path) (k + 1) → ∀ p, MayLoad W (abspath W.cwd path) p →
            Enough rank N (unseenFiles C (markSeen s (abspath W.cwd path))) (abspath W.cwd p) k := by
          intro k hk p hp
          by_cases hre : Reread (abspath W.cwd path)
          · have h3 := hk.1 hre
            have h4 := Nat.mul_le_mul_right N hm
            exact ⟨fun hp' => by have := hr _ _ hp hp'; omega, fun _ => by omega⟩
          · have h3 := hk.2 hre
            have h5 : unseenFiles C (markSeen s (abspath W.cwd path)) + 1 ≤ u :=
              Nat.lt_of_lt_of_le (unseenFiles_mark hf hre hseen) hs
            have h4 := Nat.mul_le_mul_right N h5
            rw [Nat.add_mul, Nat.one_mul] at h4
            exact ⟨fun hp' => by have := hr _ _ hp hp'; omega, fun _ => by omega⟩
        have hadd : AddAgree W (fun t => unseenFiles C t ≤ unseenFiles C (markSeen s (abspath W.cwd path)))
            (addFile W n) (addFile W n') (abspath W.cwd path) := by
          intro p hp o fo
          exact ih n' _ p (hC _ _ hp) (hchild n h1 p hp) (hchild n' h2 p hp) o fo
        have hget : Agree (fun t => unseenFiles C t ≤ unseenFiles C (markSeen s (abspath W.cwd path)))
            (getItems W (addFile W n) (abspath W.cwd path) o s.newStyle s.negative)
            (getItems W (addFile W n') (abspath W.cwd path) o s.newStyle s.negative) := by
          rw [getItems_abs, getItems_abs]
          refine Agree.liftThen (fun e h => prepareLines_ends h) fun cs hcs => ?_
          exact itemsLoop_agree hw (hclimb _ hf) (fun t ht => ht) hadd _ o s.negative cs hcs _ _ _ (fun c h => h)
        obtain ⟨g1, g2, _⟩ := hget (markSeen s (abspath W.cwd path)) (Nat.le_refl _)
        refine ⟨?_, ?_, hgrow⟩
        · rw [addFile_eq W n path o fo s hseen, addFile_eq W n' path o fo s hseen, g1]
        · rw [addFile_eq W n path o fo s hseen]
          intro e he
          split at he
          · rename_i heq
            cases he
            exact g2 e (by rw [heq])
          · split at he
            · rename_i heq
              cases he
              exact crossLink_err (E := Ends) ⟨by simp, by simp⟩ _ _ _ _ _ heq
            · split at he
              · rename_i heq
                cases he
                refine addDistroMachine_err (E := Ends) W ⟨by simp, by simp⟩ _ (fun e h => ?_) _ _ _ heq
                obtain ⟨r, hr⟩ := getLayerRoot_ends (name := abspath W.cwd path) hw (hclimb _ hf)
                rw [hr] at h; cases h
              · cases he

theorem chunksFrom_cnt (off off' : Int) (neg : Bool) (num : Nat) (gs : List (List Str)) :
    (chunksFrom off neg num gs).map (·.cnt) = (chunksFrom off' neg num gs).map (·.cnt) := by
  induction gs generalizing num with
  | nil => rfl
  | cons g gs ih => rw [chunksFrom, chunksFrom, List.map_cons, List.map_cons, ih]; rfl

/-- the offset does not change the texts -/
theorem prepareLines_cnt {off off' : Int} {neg : Bool} {cs : List Chunk} (h : prepareLines W file off neg = .ok cs) :
    ∃ cs', prepareLines W file off' neg = .ok cs' ∧ cs'.map (·.cnt) = cs.map (·.cnt) := by
  unfold prepareLines at h ⊢
  split at h
  · obtain ⟨gs, h1, h2⟩ := chunksOf_ok_iff.1 h
    exact ⟨_, chunksOf_ok_iff.2 ⟨gs, h1, rfl⟩, by rw [h2]; exact chunksFrom_cnt _ _ _ _ _⟩
  · exact ⟨cs, h, rfl⟩
  · cases h
  · cases h

/-- patterns that do not match are passed over -/
theorem classify_skip {add : AddFn} {line : Int} {p : Params} {cnt : Str} (pre rest : List (Kind × Pattern))
    (h : ∀ kp ∈ pre, reMatch kp.2.re cnt = none) :
    classify W add file line p cnt (pre ++ rest) = classify W add file line p cnt rest := by
  induction pre with
  | nil => rfl
  | cons kp pre ih =>
    obtain ⟨k, pat⟩ := kp
    rw [List.cons_append, classify, h (k, pat) (by simp)]
    exact ih (fun kp hkp => h kp (List.mem_cons_of_mem _ hkp))

theorem finds_exists {d n p : Str} (h : Finds W d n p) : W.pathExists p = true := by
  rcases h with ⟨h, rfl⟩ | ⟨_, r, _, h, rfl⟩
  · exact h
  · exact h

theorem mayLoad_exists {f p : Str} (h : MayLoad W f p) : W.pathExists p = true := by
  rcases h with ⟨_, _, _, _, _, h⟩ | ⟨_, _, _, _, _, _, _, _, _, _, _, h⟩
  · exact finds_exists h
  · exact finds_exists h

theorem le_foldl_max (l : List Nat) (x : Nat) (h : x ∈ l) : x ≤ l.foldl max 0 := (foldl_max_nat l 0).2 x h

end Oelint

import Verif.Model.StashOps
import Verif.Lemmas.Inline
/-! The state monad, `get_items` and `AddFile`: structure of results. -/
set_option linter.unusedSectionVars false
set_option linter.unusedSimpArgs false
namespace Oelint
variable [Uni]
open Spec

namespace M
variable {α β : Type}

theorem bind_def (x : M α) (f : α → M β) (s : Stash) :
    (x >>= f) s = match x s with
      | (.ok a, s') => f a s'
      | (.error e, s') => (.error e, s') := rfl

theorem pure_def (a : α) (s : Stash) : (Pure.pure a : M α) s = (.ok a, s) := rfl

theorem bind_ok {x : M α} {f : α → M β} {s s' : Stash} {b : β} :
    (x >>= f) s = (.ok b, s') ↔ ∃ a s1, x s = (.ok a, s1) ∧ f a s1 = (.ok b, s') := by
  rw [bind_def]
  constructor
  · intro h
    cases hx : x s with
    | mk r s1 =>
      rw [hx] at h
      cases r with
      | ok a => exact ⟨a, s1, rfl, h⟩
      | error e => cases h
  · rintro ⟨a, s1, h1, h2⟩
    rw [h1]; exact h2

theorem bind_error {x : M α} {f : α → M β} {s s' : Stash} {e : PyErr} :
    (x >>= f) s = (.error e, s') ↔
      x s = (.error e, s') ∨ ∃ a s1, x s = (.ok a, s1) ∧ f a s1 = (.error e, s') := by
  rw [bind_def]
  constructor
  · intro h
    cases hx : x s with
    | mk r s1 =>
      rw [hx] at h
      cases r with
      | ok a => exact Or.inr ⟨a, s1, rfl, h⟩
      | error e' => left; simp at h; rw [h.1, h.2]
  · rintro (h | ⟨a, s1, h1, h2⟩)
    · rw [h]
    · rw [h1]; exact h2

/-- every successful run gives a value with `Q` -/
def Post (x : M α) (Q : α → Prop) : Prop := ∀ s a s', x s = (.ok a, s') → Q a

theorem Post.bind {x : M α} {f : α → M β} {P : α → Prop} {Q : β → Prop} (hx : Post x P)
    (hf : ∀ a, P a → Post (f a) Q) : Post (x >>= f) Q := by
  intro s b s' h
  obtain ⟨a, s1, h1, h2⟩ := bind_ok.1 h
  exact hf a (hx _ _ _ h1) _ _ _ h2

theorem Post.pure {a : α} {Q : α → Prop} (h : Q a) : Post (Pure.pure a : M α) Q := by
  intro s b s' hb; cases hb; exact h

theorem Post.trivial (x : M α) : Post x (fun _ => True) := fun _ _ _ _ => True.intro

theorem Post.mono {x : M α} {P Q : α → Prop} (h : Post x P) (hpq : ∀ a, P a → Q a) : Post x Q :=
  fun s a s' ha => hpq a (h s a s' ha)

/-- whatever happens, initial and final state are related -/
def Rel (R : Stash → Stash → Prop) (x : M α) : Prop := ∀ s, R s (x s).2

theorem Rel.bind {R : Stash → Stash → Prop} (ht : ∀ a b c, R a b → R b c → R a c) {x : M α} {f : α → M β}
    (hx : Rel R x) (hf : ∀ a, Rel R (f a)) : Rel R (x >>= f) := by
  intro s
  have h := hx s
  rw [bind_def]
  cases hxs : x s with
  | mk r s1 =>
    rw [hxs] at h
    cases r with
    | ok a => exact ht _ _ _ h (hf a s1)
    | error e => exact h

/-- every exception satisfies `E` -/
def Err (x : M α) (E : PyErr → Prop) : Prop := ∀ s e s', x s = (.error e, s') → E e

theorem Err.bind {x : M α} {f : α → M β} {E : PyErr → Prop} (hx : Err x E) (hf : ∀ a, Err (f a) E) :
    Err (x >>= f) E := by
  intro s e s' h
  rcases bind_error.1 h with h | ⟨a, s1, _, h⟩
  · exact hx _ _ _ h
  · exact hf a _ _ _ h

theorem Err.pure (a : α) (E : PyErr → Prop) : Err (Pure.pure a : M α) E := by
  intro s e s' h; cases h
theorem Err.get (E : PyErr → Prop) : Err get E := by
  intro s e s' h; cases h
theorem Err.modify (f : Stash → Stash) (E : PyErr → Prop) : Err (modify f) E := by
  intro s e s' h; cases h
theorem Err.raise {e : PyErr} {E : PyErr → Prop} (h : E e) : Err (raise e : M α) E := by
  intro s e s' h; cases h; assumption
theorem Err.lift {x : Except PyErr α} {E : PyErr → Prop} (h : ∀ e, x = .error e → E e) : Err (lift x) E := by
  intro s e s' hh; cases hh; exact h _ rfl
theorem Err.ask {f : Stash → Except PyErr α} {E : PyErr → Prop} (h : ∀ s e, f s = .error e → E e) : Err (ask f) E := by
  intro s e s' hh
  simp only [M.ask] at hh
  simp only [Prod.mk.injEq] at hh
  exact h _ _ hh.1

theorem Rel.pure {R : Stash → Stash → Prop} (hr : ∀ a, R a a) (a : α) : Rel R (Pure.pure a : M α) := fun s => hr s
theorem Rel.raise {R : Stash → Stash → Prop} (hr : ∀ a, R a a) (e : PyErr) : Rel R (raise e : M α) := fun s => hr s
theorem Rel.get {R : Stash → Stash → Prop} (hr : ∀ a, R a a) : Rel R get := fun s => hr s
theorem Rel.lift {R : Stash → Stash → Prop} (hr : ∀ a, R a a) (x : Except PyErr α) : Rel R (lift x) := fun s => hr s
theorem Rel.ask {R : Stash → Stash → Prop} (hr : ∀ a, R a a) (f : Stash → Except PyErr α) : Rel R (ask f) := fun s => hr s

end M

/-! ## items carry the data of their chunk -/

/-- the fields that come from the chunk -/
structure FromParams (p : Params) (it : Item) : Prop where
  line : it.line = p.line
  raw : it.raw = p.rawtext
  realRaw : it.realRaw = if p.realraw.isEmpty then p.rawtext else p.realraw
  origin : it.origin = p.origin
  inFileLine : it.inFileLine = p.infileline
  inlineBlocks : it.inlineBlocks = p.inlineBlocks
  includedFrom : it.includedFrom = []
  delim : p.newStyle = true → it.delim = ':'

theorem fromParams_mkItem (uid : Nat) (p : Params) (pl : Payload) : FromParams p (mkItem uid p pl) := by
  constructor <;> first | rfl | (intro h; simp [mkItem, mkItemD, initDelim, h])

theorem delimFor_colon (n : Str) : delimFor ':' n = ':' := by unfold delimFor; split <;> rfl

theorem extractSub_delim (d : Char) (n : Str) : (extractSub d n).1 = delimFor d n := by
  unfold extractSub; rfl

theorem extractSubFunc_delim (k : Str → Bool) (d : Char) (n : Str) : (extractSubFunc k d n).1 = delimFor d n := by
  unfold extractSubFunc; simp only; split <;> rfl

theorem mkVariable_delim (uid : Nat) (p : Params) (n v o : Str) :
    (mkVariable uid p n v o).delim = delimFor (initDelim p.newStyle) n := by
  unfold mkVariable; rw [← extractSub_delim]; rfl

theorem fromParams_mkVariable (uid : Nat) (p : Params) (n v o : Str) : FromParams p (mkVariable uid p n v o) := by
  constructor <;> try rfl
  intro h; rw [mkVariable_delim]; simp [initDelim, h, delimFor_colon]

theorem mkFunction_delim (k : Str → Bool) (uid : Nat) (p : Params) (n : Option Str) (b : Str) (py fr : Option Str) :
    (mkFunction k uid p n b py fr).delim = delimFor (initDelim p.newStyle) (stripP pySpace (n.getD [])) := by
  unfold mkFunction; rw [← extractSubFunc_delim k]; rfl

theorem fromParams_mkFunction (k : Str → Bool) (uid : Nat) (p : Params) (n : Option Str) (b : Str) (py fr : Option Str) :
    FromParams p (mkFunction k uid p n b py fr) := by
  constructor <;> try rfl
  intro h; rw [mkFunction_delim]; simp [initDelim, h, delimFor_colon]

theorem fromParams_mkTaskAdd (uid : Nat) (p : Params) (n : Str) (b a c : Option Str) :
    FromParams p (mkTaskAdd uid p n b a c) := fromParams_mkItem _ _ _

theorem fromParams_mkTaskDel (uid : Nat) (p : Params) (n : Str) (c : Option Str) :
    FromParams p (mkTaskDel uid p n c) := fromParams_mkItem _ _ _

/-! ## one chunk -/

variable (W : World) (add : AddFn) (file : Str)

/-- the offsets that included files add are not negative if the lines of their items are not -/
def AddPos (add : AddFn) : Prop := ∀ p o f, M.Post (add p o f) (fun l => ∀ it ∈ l, (1 : Int) ≤ it.inFileLine)

theorem foldl_max_ge (x : Int) (l : List Int) : x ≤ l.foldl max x := by
  induction l generalizing x with
  | nil => exact Int.le_refl _
  | cons y t ih => exact Int.le_trans (Int.le_max_left x y) (ih _)

theorem foldl_max_mem_le (x : Int) (l : List Int) : ∀ y ∈ l, y ≤ l.foldl max x := by
  induction l generalizing x with
  | nil => simp
  | cons z t ih =>
    intro y hy
    rcases List.mem_cons.1 hy with rfl | hy
    · exact Int.le_trans (Int.le_max_right x y) (foldl_max_ge _ _)
    · exact ih _ y hy

theorem maxInFileLine_nonneg {l : List Item} (h : ∀ it ∈ l, (1 : Int) ≤ it.inFileLine) : 0 ≤ maxInFileLine l := by
  unfold maxInFileLine
  cases l with
  | nil => simp
  | cons x xs =>
    simp only [List.map_cons]
    have h1 := h x (by simp)
    have h2 := foldl_max_ge x.inFileLine (xs.map (·.inFileLine))
    omega

theorem inheritLoop_post (hadd : AddPos add) (lineno : Int) (inhname : Str) (locs l found : List Str) (off : Int)
    (h : 0 ≤ off) : M.Post (inheritLoop W add file lineno inhname locs l found off) (fun r => 0 ≤ r.2) := by
  induction l generalizing found off with
  | nil => exact M.Post.pure h
  | cons i l ih =>
    rw [inheritLoop]
    refine M.Post.bind (M.Post.trivial _) fun path _ => ?_
    split
    · exact ih _ _ h
    · refine M.Post.bind (M.Post.trivial _) fun ign _ => ?_
      split
      · exact ih _ _ h
      · refine M.Post.bind (hadd _ _ _) fun tmp htmp => ?_
        exact ih _ _ (by have := maxInFileLine_nonneg htmp; omega)

/-- does the statement load other files -/
def Payload.loads : Payload → Bool
  | .include .. => true
  | .inherit .. => true
  | _ => false

/-- what is known about the result of classifying a chunk -/
def GoodResult (p : Params) (r : Item × Int) : Prop :=
  FromParams p r.1 ∧ 0 ≤ r.2 ∧ (r.1.payload.loads = false → r.2 = 0)

theorem handleKind_post (hadd : AddPos add) (lineno : Int) (p : Params) (k : Kind) (pat : Pattern) (m : Mt) :
    M.Post (handleKind W add file lineno p k pat m) (fun r => ∀ x ∈ r, GoodResult p x) := by
  have simple : ∀ pl, M.Post (do let uid ← freshUid; pure (some (mkItem uid p pl, (0 : Int))) : M (Option (Item × Int)))
      (fun r => ∀ x ∈ r, GoodResult p x) := by
    intro pl
    refine M.Post.bind (M.Post.trivial _) fun uid _ => M.Post.pure ?_
    rintro x hx; cases hx; exact ⟨fromParams_mkItem _ _ _, Int.le_refl _, fun _ => rfl⟩
  cases k <;> unfold handleKind <;> simp only
  case vars =>
    refine M.Post.bind (M.Post.trivial _) fun uid _ => M.Post.pure ?_
    rintro x hx; cases hx; exact ⟨fromParams_mkVariable _ _ _ _ _, Int.le_refl _, fun _ => rfl⟩
  case func =>
    refine M.Post.bind (M.Post.trivial _) fun known _ => ?_
    refine M.Post.bind (M.Post.trivial _) fun uid _ => M.Post.pure ?_
    rintro x hx; cases hx; exact ⟨fromParams_mkFunction _ _ _ _ _ _ _, Int.le_refl _, fun _ => rfl⟩
  case inherit =>
    refine M.Post.bind (M.Post.trivial _) fun inhname _ => ?_
    refine M.Post.bind (inheritLoop_post W add file hadd _ _ _ _ _ _ (Int.le_refl _)) fun r hr => ?_
    refine M.Post.bind (M.Post.trivial _) fun uid _ => M.Post.pure ?_
    rintro x hx; cases hx; exact ⟨fromParams_mkItem _ _ _, hr, fun h => by cases h⟩
  case inheritGlob =>
    refine M.Post.bind (M.Post.trivial _) fun inhname _ => ?_
    refine M.Post.bind (inheritLoop_post W add file hadd _ _ _ _ _ _ (Int.le_refl _)) fun r hr => ?_
    refine M.Post.bind (M.Post.trivial _) fun uid _ => M.Post.pure ?_
    rintro x hx; cases hx; exact ⟨fromParams_mkItem _ _ _, hr, fun h => by cases h⟩
  case addtask =>
    split
    · exact M.Post.pure (by simp)
    · refine M.Post.bind (M.Post.trivial _) fun uid _ => M.Post.pure ?_
      rintro x hx; cases hx; exact ⟨fromParams_mkTaskAdd _ _ _ _ _ _, Int.le_refl _, fun _ => rfl⟩
  case deltask =>
    refine M.Post.bind (M.Post.trivial _) fun uid _ => M.Post.pure ?_
    rintro x hx; cases hx; exact ⟨fromParams_mkTaskDel _ _ _ _, Int.le_refl _, fun _ => rfl⟩
  case «include» =>
    refine M.Post.bind (M.Post.trivial _) fun name _ => ?_
    refine M.Post.bind (M.Post.trivial _) fun path _ => ?_
    split
    · exact simple _
    · refine M.Post.bind (M.Post.trivial _) fun ign _ => ?_
      split
      · exact M.Post.pure (by simp)
      · refine M.Post.bind (hadd _ _ _) fun tmp htmp => ?_
        refine M.Post.bind (M.Post.trivial _) fun uid _ => M.Post.pure ?_
        rintro x hx; cases hx; exact ⟨fromParams_mkItem _ _ _, maxInFileLine_nonneg htmp, fun h => by cases h⟩
  all_goals exact simple _

theorem classify_post (hadd : AddPos add) (lineno : Int) (p : Params) (cnt : Str) (l : List (Kind × Pattern)) :
    M.Post (classify W add file lineno p cnt l) (GoodResult p) := by
  induction l with
  | nil =>
    rw [classify]
    exact M.Post.bind (M.Post.trivial _) fun uid _ => M.Post.pure ⟨fromParams_mkItem _ _ _, Int.le_refl _, fun _ => rfl⟩
  | cons kp l ih =>
    obtain ⟨k, pat⟩ := kp
    rw [classify]
    split
    · exact ih
    · refine M.Post.bind (handleKind_post W add file hadd _ _ _ _ _) fun r hr => ?_
      cases r with
      | some x => exact M.Post.pure (hr x rfl)
      | none => exact ih

/-! ## one file -/

/-- how the items of a file arise from its chunks: every item is the classification of its chunk in some state -/
inductive Traced (W : World) (add : AddFn) (file : Str) (lineOffset : Int) : Int → Bool → List Chunk → List Item → Prop
  | nil {off ns} : Traced W add file lineOffset off ns [] []
  | cons {off d ns c cs it its s s'} :
      classify W add file c.line (chunkParams file lineOffset off ns c) c.cnt parseOrder s = (.ok (it, d), s') →
      Traced W add file lineOffset (off + d) (ns || it.isNewStyle) cs its →
      Traced W add file lineOffset off ns (c :: cs) (it :: its)

theorem itemsLoop_traced (lineOffset off : Int) (ns : Bool) (cs : List Chunk) :
    M.Post (itemsLoop W add file lineOffset off ns cs) (Traced W add file lineOffset off ns cs) := by
  induction cs generalizing off ns with
  | nil => exact M.Post.pure .nil
  | cons c cs ih =>
    intro s a s' h
    rw [itemsLoop] at h
    obtain ⟨⟨it, d⟩, s1, h1, h⟩ := M.bind_ok.1 h
    obtain ⟨rest, s2, h2, h⟩ := M.bind_ok.1 h
    cases h
    exact .cons h1 (ih _ _ _ _ _ h2)

/-- the data of an item agree with those of its chunk -/
structure ItemOf (file : Str) (lineOffset : Int) (c : Chunk) (it : Item) : Prop where
  raw : it.raw = c.raw
  realRaw : it.realRaw = if c.realraw.isEmpty then c.raw else c.realraw
  origin : it.origin = file
  inFileLine : it.inFileLine = c.line - lineOffset
  inlineBlocks : it.inlineBlocks = c.inlineBlocks
  includedFrom : it.includedFrom = []
  line_ge : c.line ≤ it.line

theorem traced_itemOf {add : AddFn} (hadd : AddPos add) {lineOffset off : Int} {ns : Bool} {cs : List Chunk} {its : List Item}
    (h0 : 0 ≤ off) (h : Traced W add file lineOffset off ns cs its) : List.Forall₂ (ItemOf file lineOffset) cs its := by
  induction h with
  | nil => exact .nil
  | @cons off d ns c cs it its s s' h1 h2 ih =>
    obtain ⟨hp, hd, _⟩ := classify_post W add file hadd _ _ _ _ _ _ _ h1
    refine .cons ⟨hp.raw, hp.realRaw, hp.origin, hp.inFileLine, hp.inlineBlocks, hp.includedFrom, ?_⟩ (ih (by simp at hd; omega))
    rw [hp.line]; simp [chunkParams]; omega

/-- `Line`s increase along the file -/
theorem traced_lines {add : AddFn} (hadd : AddPos add) {lineOffset off : Int} {ns : Bool} {cs : List Chunk} {its : List Item}
    (hcs : cs.Pairwise (fun a b => a.line < b.line))
    (h : Traced W add file lineOffset off ns cs its) :
    its.Pairwise (fun a b => a.line < b.line) ∧ ∀ k, (∀ c ∈ cs, k < c.line) → ∀ it ∈ its, k + off < it.line := by
  induction h with
  | nil => simp
  | @cons off d ns c cs it its s s' h1 h2 ih =>
    obtain ⟨hp, hd, _⟩ := classify_post W add file hadd _ _ _ _ _ _ _ h1
    rw [List.pairwise_cons] at hcs
    obtain ⟨ih1, ih2⟩ := ih hcs.2
    have hl : it.line = c.line + off := by rw [hp.line]; simp [chunkParams]
    simp only at hd
    refine ⟨List.pairwise_cons.2 ⟨?_, ih1⟩, ?_⟩
    · intro x hx
      have := ih2 c.line hcs.1 x hx
      omega
    · intro k hk x hx
      rcases List.mem_cons.1 hx with rfl | hx
      · have := hk c (by simp); omega
      · have := ih2 k (fun y hy => hk y (by simp [hy])) x hx
        omega

/-- without loading statements before it, the line of an item is that of its chunk plus the initial offset -/
theorem traced_line_eq {add : AddFn} (hadd : AddPos add) {lineOffset off : Int} {ns : Bool} {cs : List Chunk} {its : List Item}
    (h : Traced W add file lineOffset off ns cs its) (pre post : List Item) (it : Item)
    (he : its = pre ++ it :: post) (hpre : ∀ x ∈ pre, x.payload.loads = false) :
    it.line = it.inFileLine + lineOffset + off := by
  induction h generalizing pre with
  | nil => simp at he
  | @cons off d ns c cs x its s s' h1 h2 ih =>
    obtain ⟨hp, _, hd⟩ := classify_post W add file hadd _ _ _ _ _ _ _ h1
    cases pre with
    | nil =>
      simp at he
      rw [← he.1, hp.line, hp.inFileLine]; simp [chunkParams]
    | cons y pre =>
      simp at he
      obtain ⟨rfl, he⟩ := he
      have h0 := hd (hpre x (by simp))
      simp only at h0
      have := ih pre he (fun z hz => hpre z (by simp [hz]))
      omega

/-! ## AddFile -/

theorem isAbs_cons (p : Str) : isAbs p = true ↔ ∃ t, p = '/' :: t := by
  unfold isAbs startsWith
  rw [List.isPrefixOf_iff_prefix]
  constructor
  · rintro ⟨t, rfl⟩; exact ⟨t, rfl⟩
  · rintro ⟨t, rfl⟩; exact ⟨t, rfl⟩

theorem isAbs_normpath {p : Str} (h : isAbs p = true) : isAbs (normpath p) = true := by
  obtain ⟨t, rfl⟩ := (isAbs_cons p).1 h
  unfold normpath
  rw [if_neg (by simp)]
  simp only
  have hs : startsWith c!"/" ('/' :: t) = true := h
  obtain ⟨n, hn⟩ : ∃ n, (if startsWith c!"///" ('/' :: t) then 1 else if startsWith c!"//" ('/' :: t) then 2
    else if startsWith c!"/" ('/' :: t) then 1 else 0) = n + 1 := by
    rw [hs]
    split
    · exact ⟨0, rfl⟩
    · split
      · exact ⟨1, rfl⟩
      · exact ⟨0, rfl⟩
  rw [hn, if_neg (by simp [List.replicate_succ])]
  rw [isAbs_cons]
  exact ⟨_, by rw [List.replicate_succ, List.cons_append]⟩

theorem isAbs_pathJoin {a b : Str} (h : isAbs a = true) : isAbs (pathJoin a b) = true := by
  unfold pathJoin
  split
  · assumption
  · obtain ⟨t, rfl⟩ := (isAbs_cons a).1 h
    split <;> rw [isAbs_cons] <;> exact ⟨_, rfl⟩

theorem isAbs_abspath (p : Str) : isAbs (abspath W.cwd p) = true := by
  unfold abspath
  apply isAbs_normpath
  split
  · assumption
  · exact isAbs_pathJoin W.cwd_abs

/-- the items of a file with `Line`s moved by a fixed amount -/
def shiftLines (mx : Int) (l : List Item) : List Item := l.map (fun r => { r with line := r.line + mx })

theorem linkAppend_nonneg (f : Str) (l : List Str) (mx : Int) (h : 0 ≤ mx) :
    M.Post (linkAppend f l mx) (fun r => mx ≤ r) := by
  induction l generalizing mx with
  | nil => exact M.Post.pure (Int.le_refl _)
  | cons x xs ih =>
    intro s a s' hh
    rw [linkAppend] at hh
    simp only at hh
    split at hh
    · cases hh
    · exact ih _ h _ _ _ hh
    · have h1 := Int.le_max_left mx (maxLine (s.items.filter (fun i => i.origin == x)))
      have := ih _ (by omega) _ _ _ hh
      omega

theorem crossLink_post (f : Str) (its : List Item) :
    M.Post (crossLink f its) (fun r => ∃ mx : Int, 0 ≤ mx ∧ r = shiftLines mx its ∧
      (endsWith c!".bbappend" f = false → mx = 0)) := by
  unfold crossLink
  have hz : shiftLines 0 its = its := by simp [shiftLines]
  split
  · rename_i hf
    refine M.Post.bind (M.Post.trivial _) fun s _ => ?_
    refine M.Post.bind (linkAppend_nonneg _ _ _ (Int.le_refl _)) fun mx hmx => ?_
    exact M.Post.pure ⟨mx, hmx, rfl, fun h => by rw [hf] at h; cases h⟩
  · split
    · refine M.Post.bind (M.Post.trivial _) fun s _ => ?_
      refine M.Post.bind (M.Post.trivial _) fun u _ => ?_
      exact M.Post.pure ⟨0, Int.le_refl _, hz.symm, fun _ => rfl⟩
    · exact M.Post.pure ⟨0, Int.le_refl _, hz.symm, fun _ => rfl⟩

theorem getItems_abs (lineOffset : Int) (ns neg : Bool) (p : Str) :
    getItems W add (abspath W.cwd p) lineOffset ns neg =
      (do let chunks ← M.lift (prepareLines W (abspath W.cwd p) lineOffset neg)
          itemsLoop W add (abspath W.cwd p) lineOffset 0 ns chunks) := by
  unfold getItems
  rw [isAbs_abspath]
  rfl

/-- a successful `AddFile` of a file that is not skipped -/
structure AddOk (W : World) (fuel : Nat) (file : Str) (lineOffset : Int) (forced : Option Str) (s s' : Stash)
    (res : List Item) where
  its : List Item
  chunks : List Chunk
  s1 : Stash
  s3 : Stash
  s4 : Stash
  prep : prepareLines W file lineOffset s.negative = .ok chunks
  loop : itemsLoop W (addFile W fuel) file lineOffset 0 s.newStyle chunks (markSeen s file) = (.ok its, s1)
  cross : crossLink file its { s1 with map := enterMap s1.map file forced } = (.ok res, s3)
  distro : addDistroMachine W file s3 = (.ok (), s4)
  final : s' = commitItems W res s4

theorem addFile_ok {fuel : Nat} {path : Str} {lineOffset : Int} {forced : Option Str} {s s' : Stash} {res : List Item}
    (h : addFile W (fuel + 1) path lineOffset forced s = (.ok res, s')) :
    (alreadySeen s (abspath W.cwd path) = true ∧ res = [] ∧ s' = s) ∨
    (alreadySeen s (abspath W.cwd path) = false ∧ Nonempty (AddOk W fuel (abspath W.cwd path) lineOffset forced s s' res)) := by
  rw [addFile] at h
  obtain ⟨s0, s0', h0, h⟩ := M.bind_ok.1 h
  cases h0
  split at h
  · rename_i hs
    left; cases h; exact ⟨hs, rfl, rfl⟩
  · rename_i hs
    right
    refine ⟨by simpa using hs, ?_⟩
    obtain ⟨u, s1, h1, h⟩ := M.bind_ok.1 h
    cases h1
    obtain ⟨its, s2, h2, h⟩ := M.bind_ok.1 h
    rw [getItems_abs] at h2
    obtain ⟨chunks, s2', h2a, h2b⟩ := M.bind_ok.1 h2
    unfold M.lift at h2a
    simp only [Prod.mk.injEq] at h2a
    obtain ⟨h2a, rfl⟩ := h2a
    obtain ⟨u, s3, h3, h⟩ := M.bind_ok.1 h
    cases h3
    obtain ⟨res', s4, h4, h⟩ := M.bind_ok.1 h
    obtain ⟨u, s5, h5, h⟩ := M.bind_ok.1 h
    obtain ⟨u, s6, h6, h⟩ := M.bind_ok.1 h
    cases h6; cases h
    exact ⟨⟨its, chunks, s2, s4, s5, h2a, h2b, h4, h5, rfl⟩⟩

theorem chunksFrom_line_pos {lineOffset : Int} {neg : Bool} (num : Nat) (gs : List (List Str)) :
    ∀ c ∈ chunksFrom lineOffset neg num gs, (num : Int) + lineOffset ≤ c.line := by
  induction gs generalizing num with
  | nil => simp [chunksFrom]
  | cons g gs ih =>
    intro c hc
    rcases List.mem_cons.1 hc with rfl | hc
    · simp [mkChunk]
    · have := ih _ c hc
      push_cast at this; omega

theorem forall₂_mem_right {α β : Type} {R : α → β → Prop} {l : List α} {l' : List β} (h : List.Forall₂ R l l') {b : β}
    (hb : b ∈ l') : ∃ a ∈ l, R a b := by
  induction h with
  | nil => simp at hb
  | @cons a b' l l' hr _ ih =>
    rcases List.mem_cons.1 hb with rfl | hb
    · exact ⟨a, by simp, hr⟩
    · obtain ⟨x, hx, hxr⟩ := ih hb
      exact ⟨x, by simp [hx], hxr⟩

theorem addPos_addFile (fuel : Nat) : AddPos (addFile W fuel) := by
  induction fuel with
  | zero => intro p o f s a s' h; cases h
  | succ fuel ih =>
    intro p o f s res s' h
    rcases addFile_ok W h with ⟨_, rfl, _⟩ | ⟨_, ⟨ok⟩⟩
    · simp
    · obtain ⟨mx, _, hres, _⟩ := crossLink_post _ _ _ _ _ ok.cross
      rw [hres]
      have ht := itemsLoop_traced W _ _ _ _ _ _ _ _ _ ok.loop
      have h2 := traced_itemOf W _ ih (Int.le_refl _) ht
      have hpos : ∀ c ∈ ok.chunks, (1 : Int) + o ≤ c.line := by
        have hp := ok.prep
        unfold prepareLines at hp
        split at hp
        · obtain ⟨gs, _, hgs⟩ := chunksOf_ok_iff.1 hp
          intro c hc
          rw [hgs] at hc
          exact chunksFrom_line_pos 1 gs c hc
        · simp only [Except.ok.injEq] at hp
          rw [← hp]; simp
        · cases hp
        · cases hp
      intro it hit
      simp only [shiftLines, List.mem_map] at hit
      obtain ⟨x, hx, rfl⟩ := hit
      obtain ⟨c, hc, hcx⟩ := forall₂_mem_right h2 hx
      have := hpos c hc
      simp only [hcx.inFileLine]; omega

end Oelint

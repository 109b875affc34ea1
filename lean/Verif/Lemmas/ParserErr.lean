import Verif.Lemmas.Parser
/-! Which exceptions `AddFile` can raise. -/
set_option linter.unusedSectionVars false
set_option linter.unusedSimpArgs false
namespace Oelint
variable [Uni]
open Spec

theorem getKeys_error {ks : List Str} {d : J} {e : PyErr} (h : getKeys ks d = .error e) : e = .attributeError := by
  induction ks generalizing d with
  | nil => cases h
  | cons k ks ih =>
    cases d with
    | dict d => exact ih h
    | list _ => cases h; rfl
    | str _ => cases h; rfl

theorem sourceOf_error {W : World} {s : Stash} {b : J} {f n q : Str} {e : PyErr} (h : sourceOf W s b f n q = .error e) :
    e = .typeError := by
  unfold sourceOf at h
  split at h
  · cases h
  · split at h
    · split at h
      · split at h
        · cases h
        · cases h; rfl
      · cases h; rfl
    · repeat' (first | cases h | split at h)

theorem expandOne_error {W : World} {s : Stash} {b : J} {rec : Str → Seen → Except PyErr (Str × Seen)} {f : Str}
    {sp : List Str} {q : Str} {m : Mt} {res : Str} {seen : Seen} {e : PyErr}
    (h : expandOne W s b rec f sp q m res seen = .error e) : e = .typeError ∨ ∃ v sn, rec v sn = .error e := by
  unfold expandOne at h
  simp only at h
  split at h
  · cases h
  · split at h
    · rename_i hs; cases h; exact Or.inl (sourceOf_error hs)
    · cases h
    · cases h
    · split at h
      · cases h
      · split at h
        · rename_i hr; cases h; exact Or.inr ⟨_, _, hr⟩
        · cases h

theorem expandMany_error {W : World} {s : Stash} {b : J} {rec : Str → Seen → Except PyErr (Str × Seen)} {f : Str}
    {sp : List Str} {q : Str} {l : List Mt} {res : Str} {seen : Seen} {e : PyErr}
    (h : expandMany W s b rec f sp q l res seen = .error e) : e = .typeError ∨ ∃ v sn, rec v sn = .error e := by
  induction l generalizing res seen with
  | nil => cases h
  | cons m l ih =>
    rw [expandMany] at h
    split at h
    · cases h; rename_i h; exact expandOne_error h
    · exact ih h

theorem readFiles_error {W : World} {rec : Str → Seen → Except PyErr (Str × Seen)} {l : List Mt} {res : Str} {seen : Seen}
    {e : PyErr} (h : readFiles W rec l res seen = .error e) : e = .osError ∨ ∃ v sn, rec v sn = .error e := by
  induction l generalizing res seen with
  | nil => cases h
  | cons m l ih =>
    rw [readFiles] at h
    split at h
    · cases h; rename_i h; exact Or.inr ⟨_, _, h⟩
    · simp only at h
      split at h
      · exact ih h
      · exact ih h
      · exact ih h
      · cases h; exact Or.inl rfl

/-- the exceptions of `ExpandTerm` -/
theorem expandTermF_error {W : World} {s : Stash} {n : Nat} {f : Str} {sp : List Str} {v : Str} {sn : Seen} {e : PyErr}
    (h : expandTermF W s n f sp v sn = .error e) :
    e = .recursionError ∨ e = .attributeError ∨ e = .typeError ∨ e = .osError := by
  induction n generalizing f sp v sn with
  | zero => cases h; simp
  | succ n ih =>
    rw [expandTermF] at h
    split at h
    · cases h; rename_i h; exact Or.inr (Or.inl (getKeys_error h))
    · simp only at h
      split at h
      · cases h; rename_i h
        rcases expandMany_error h with h | ⟨_, _, h⟩
        · simp [h]
        · exact ih h
      · split at h
        · cases h; rename_i h
          rcases expandMany_error h with h | ⟨_, _, h⟩
          · simp [h]
          · exact ih h
        · rcases readFiles_error h with h | ⟨_, _, h⟩
          · simp [h]
          · exact ih h

theorem expandTerm_error {W : World} {s : Stash} {f v : Str} {e : PyErr} (h : expandTerm W s f v = .error e) :
    e = .recursionError ∨ e = .attributeError ∨ e = .typeError ∨ e = .osError := by
  unfold expandTerm expandTermS at h
  cases hx : expandTermF W s (expandBound s v) f [] v [] with
  | ok a => rw [hx] at h; cases h
  | error e' =>
    rw [hx] at h; cases h
    exact expandTermF_error hx

/-- any exception but `StopIteration` -/
abbrev NoStop (e : PyErr) : Prop := e ≠ .stopIteration

theorem expandTerm_noStop {W : World} {f v : Str} (s : Stash) (e : PyErr) (h : expandTerm W s f v = .error e) : NoStop e := by
  rcases expandTerm_error h with rfl | rfl | rfl | rfl <;> simp

theorem findLocal_noStop {W : World} {n d : Str} {e : PyErr} (h : findLocalOrLayer W n d = .error e) : NoStop e := by
  unfold findLocalOrLayer at h
  split at h
  · cases h
  · split at h <;> cases h; simp

theorem findClass_noStop {W : World} {d i : Str} {locs : List Str} {e : PyErr} (h : findClass W d i locs = .error e) :
    NoStop e := by
  induction locs with
  | nil => cases h
  | cons l ls ih =>
    rw [findClass] at h
    split at h
    · cases h; rename_i h; exact findLocal_noStop h
    · split at h
      · exact ih h
      · cases h

theorem freshUid_err (E : PyErr → Prop) : M.Err freshUid E := by
  intro s e s' h; cases h

variable (W : World) (add : AddFn) (file : Str)

/-- the recursive call does not raise `StopIteration` -/
def AddNoStop (add : AddFn) : Prop := ∀ p o f, M.Err (add p o f) NoStop

theorem const_noStop {p : Str} (s : Stash) (e : PyErr) (h : constGet s.consts p = .error e) : NoStop e := by
  rw [getKeys_error h]; simp

theorem inheritLoop_err (hadd : AddNoStop add) (lineno : Int) (inhname : Str) (locs l found : List Str) (off : Int) :
    M.Err (inheritLoop W add file lineno inhname locs l found off) NoStop := by
  induction l generalizing found off with
  | nil => exact M.Err.pure _ _
  | cons i l ih =>
    rw [inheritLoop]
    refine M.Err.bind (M.Err.lift fun e h => findClass_noStop h) fun path => ?_
    split
    · exact ih _ _
    · refine M.Err.bind (M.Err.ask const_noStop) fun ign => ?_
      split
      · exact ih _ _
      · exact M.Err.bind (hadd _ _ _) fun tmp => ih _ _

theorem handleKind_err (hadd : AddNoStop add) (lineno : Int) (p : Params) (k : Kind) (pat : Pattern) (m : Mt) :
    M.Err (handleKind W add file lineno p k pat m) NoStop := by
  cases k <;> unfold handleKind <;> simp only
  case func =>
    exact M.Err.bind (M.Err.ask const_noStop) fun _ => M.Err.bind (freshUid_err _) fun _ => M.Err.pure _ _
  case inherit =>
    refine M.Err.bind (M.Err.ask expandTerm_noStop) fun inhname => ?_
    refine M.Err.bind (inheritLoop_err W add file hadd _ _ _ _ _ _) fun r => ?_
    exact M.Err.bind (freshUid_err _) fun uid => M.Err.pure _ _
  case inheritGlob =>
    refine M.Err.bind (M.Err.ask expandTerm_noStop) fun inhname => ?_
    refine M.Err.bind (inheritLoop_err W add file hadd _ _ _ _ _ _) fun r => ?_
    exact M.Err.bind (freshUid_err _) fun uid => M.Err.pure _ _
  case addtask =>
    split
    · exact M.Err.pure _ _
    · exact M.Err.bind (freshUid_err _) fun uid => M.Err.pure _ _
  case «include» =>
    refine M.Err.bind (M.Err.ask expandTerm_noStop) fun name => ?_
    refine M.Err.bind (M.Err.lift fun e h => findLocal_noStop h) fun path => ?_
    split
    · exact M.Err.bind (freshUid_err _) fun uid => M.Err.pure _ _
    · refine M.Err.bind (M.Err.ask const_noStop) fun ign => ?_
      split
      · exact M.Err.pure _ _
      · exact M.Err.bind (hadd _ _ _) fun tmp => M.Err.bind (freshUid_err _) fun uid => M.Err.pure _ _
  all_goals exact M.Err.bind (freshUid_err _) fun uid => M.Err.pure _ _

theorem classify_err (hadd : AddNoStop add) (lineno : Int) (p : Params) (cnt : Str) (l : List (Kind × Pattern)) :
    M.Err (classify W add file lineno p cnt l) NoStop := by
  induction l with
  | nil => rw [classify]; exact M.Err.bind (freshUid_err _) fun uid => M.Err.pure _ _
  | cons kp l ih =>
    obtain ⟨k, pat⟩ := kp
    rw [classify]
    split
    · exact ih
    · refine M.Err.bind (handleKind_err W add file hadd _ _ _ _ _) fun r => ?_
      cases r with
      | some x => exact M.Err.pure _ _
      | none => exact ih

theorem itemsLoop_err (hadd : AddNoStop add) (lineOffset off : Int) (ns : Bool) (cs : List Chunk) :
    M.Err (itemsLoop W add file lineOffset off ns cs) NoStop := by
  induction cs generalizing off ns with
  | nil => exact M.Err.pure _ _
  | cons c cs ih =>
    rw [itemsLoop]
    exact M.Err.bind (classify_err W add file hadd _ _ _ _) fun r => M.Err.bind (ih _ _) fun _ => M.Err.pure _ _

theorem matchDyn_error {p s : Str} {e : PyErr} (h : matchDyn p s = .error e) : e = .regexError := by
  unfold matchDyn at h
  split at h <;> cases h; rfl

theorem linkAppend_err {E : PyErr → Prop} (hE : E .regexError) (f : Str) (l : List Str) (mx : Int) :
    M.Err (linkAppend f l mx) E := by
  induction l generalizing mx with
  | nil => exact M.Err.pure _ _
  | cons x xs ih =>
    intro s e s' h
    rw [linkAppend] at h
    simp only at h
    split at h
    · cases h; rename_i h; rw [matchDyn_error h]; exact hE
    · exact ih _ _ _ _ h
    · exact ih _ _ _ _ h

theorem linkRecipe_err {E : PyErr → Prop} (hE : E .regexError) (f bn : Str) (mx : Int) (done l : List Item) :
    M.Err (linkRecipe f bn mx done l) E := by
  induction l generalizing done with
  | nil => intro s e s' h; cases h
  | cons x xs ih =>
    intro s e s' h
    rw [linkRecipe] at h
    simp only at h
    split at h
    · exact ih _ _ _ _ h
    · split at h
      · cases h; rename_i h; rw [matchDyn_error h]; exact hE
      · exact ih _ _ _ _ h
      · exact ih _ _ _ _ h

theorem crossLink_err {E : PyErr → Prop} (hE : E .regexError) (f : Str) (its : List Item) : M.Err (crossLink f its) E := by
  unfold crossLink
  split
  · exact M.Err.bind (M.Err.get _) fun s => M.Err.bind (linkAppend_err hE _ _ _) fun _ => M.Err.pure _ _
  · split
    · exact M.Err.bind (M.Err.get _) fun s => M.Err.bind (linkRecipe_err hE _ _ _ _ _) fun _ => M.Err.pure _ _
    · exact M.Err.pure _ _

theorem descendErr_noStop {op : MergeOp} {j : J} {l : List Str} {e : PyErr} (h : descendErr op j l = some e) :
    e = .typeError := by
  induction l with
  | nil => cases h
  | cons k ks ih =>
    rw [descendErr.eq_def] at h
    cases j with
    | list xs =>
      dsimp only at h
      by_cases hb : (xs.contains k || op != .remove) = true
      · rw [if_pos hb] at h; cases h; rfl
      · rw [if_neg hb] at h; exact ih h
    | str xs =>
      dsimp only at h
      by_cases hb : (hasSub k xs || op != .remove) = true
      · rw [if_pos hb] at h; cases h; rfl
      · rw [if_neg hb] at h; exact ih h
    | dict d =>
      dsimp only at h
      rw [if_pos (by simp)] at h; cases h; rfl

theorem leafMerge_error {op : MergeOp} {a v : J} {e : PyErr} (h : leafMerge op a v = .error e) : e = .typeError := by
  unfold leafMerge at h
  split at h
  · unfold plusEq at h; split at h <;> cases h; rfl
  · cases h
  · cases h

mutual
theorem mergeKV_error (op : MergeOp) (a : KV) (b : KV) (e : PyErr) (h : (mergeKV op a b).2 = some e) : e = .typeError := by
  cases b with
  | nil => rw [mergeKV] at h; cases h
  | cons k v rest =>
    rw [mergeKV.eq_def] at h
    simp only at h
    split at h
    · exact mergeKV_error op _ rest e h
    · split at h
      · exact mergeKV_error op _ rest e h
      · rename_i ak _ _ ak' e' hm
        cases h
        exact mergeJ_error op ak v _ (by rw [hm])
theorem mergeJ_error (op : MergeOp) (ak : J) (b : J) (e : PyErr) (h : (mergeJ op ak b).2 = some e) : e = .typeError := by
  cases b with
  | dict b =>
    rw [mergeJ.eq_def] at h
    simp only at h
    split at h
    · exact mergeKV_error op _ b e h
    · exact descendErr_noStop h
  | list ys =>
    rw [mergeJ] at h
    split at h
    · cases h
    · rename_i hl; cases h; exact leafMerge_error hl
  | str ys =>
    rw [mergeJ] at h
    split at h
    · cases h
    · rename_i hl; cases h; exact leafMerge_error hl
end

theorem addConfs_err {E : PyErr → Prop} (hE : E .typeError) (key : Str) (l : List Str) : M.Err (addConfs key l) E := by
  induction l with
  | nil => exact M.Err.pure _ _
  | cons x xs ih =>
    intro s e s' h
    rw [addConfs] at h
    simp only at h
    split at h
    · exact ih _ _ _ h
    · rename_i db e' hm
      cases h
      have : e = .typeError := mergeJ_error .add s.consts (.dict (replConst key (splitext (basename x)).1)) e (by
        have : mergeJ .add s.consts (.dict (replConst key (splitext (basename x)).1)) = (db, some e) := hm
        rw [this])
      rw [this]; exact hE

theorem addDistroMachine_err {E : PyErr → Prop} (hE : E .typeError) (p : Str) (hl : ∀ e, getLayerRoot W p = .error e → E e) :
    M.Err (addDistroMachine W p) E := by
  unfold addDistroMachine
  refine M.Err.bind (M.Err.lift hl) fun root => ?_
  split
  · exact M.Err.pure _ _
  · exact M.Err.bind (addConfs_err hE _ _) fun _ => addConfs_err hE _ _

theorem getLayerRoot_error {W : World} {p : Str} {e : PyErr} (h : getLayerRoot W p = .error e) : e = .diverges := by
  unfold getLayerRoot at h
  split at h <;> cases h; rfl

theorem prepareLines_noStop {W : World} {file : Str} {off : Int} {neg : Bool} {e : PyErr}
    (hw : ∀ t, W.file file = .text t → ∀ l ∈ (readlines (univNewlines t)).getLast?, ¬ Continued l ∧ ¬ FuncHeader l)
    (h : prepareLines W file off neg = .error e) : NoStop e := by
  unfold prepareLines at h
  split at h
  · rename_i t ht
    obtain ⟨_, l, hl, hb⟩ := chunksOf_error h
    have := hw t ht l hl
    rcases hb with hb | hb
    · exact absurd hb this.1
    · exact absurd hb this.2
  · cases h
  · cases h; simp
  · cases h; simp

theorem addFile_err (fuel : Nat)
    (hw : ∀ f t, W.file f = .text t → ∀ l ∈ (readlines (univNewlines t)).getLast?, ¬ Continued l ∧ ¬ FuncHeader l) :
    AddNoStop (addFile W fuel) := by
  induction fuel with
  | zero => intro p o f; exact M.Err.raise (by simp)
  | succ fuel ih =>
    intro p o f
    rw [addFile]
    refine M.Err.bind (M.Err.get _) fun s => ?_
    split
    · exact M.Err.pure _ _
    · refine M.Err.bind (M.Err.modify _ _) fun _ => ?_
      refine M.Err.bind ?_ fun res => ?_
      · rw [getItems_abs]
        exact M.Err.bind (M.Err.lift fun e h => prepareLines_noStop (hw _) h) fun cs => itemsLoop_err W _ _ ih _ _ _ _
      · refine M.Err.bind (M.Err.modify _ _) fun _ => ?_
        refine M.Err.bind (crossLink_err (by simp) _ _) fun res => ?_
        refine M.Err.bind (addDistroMachine_err W (by simp) _ fun e he => by rw [getLayerRoot_error he]; simp) fun _ => ?_
        exact M.Err.bind (M.Err.modify _ _) fun _ => M.Err.pure _ _

end Oelint

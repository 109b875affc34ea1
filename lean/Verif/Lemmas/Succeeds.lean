import Verif.Lemmas.Terminates
import Verif.Lemmas.AppendNames
import Verif.Lemmas.Glob
import Verif.Lemmas.Constants
import Verif.Spec.Succeeds
/-! When `AddFile` succeeds (C07). -/
set_option linter.unusedSectionVars false
set_option linter.unusedSimpArgs false
namespace Oelint
variable [Uni]
open Spec

/-! ## constants -/

theorem usable_get {db : J} (h : UsableConstants db) {k k' : Str} (hk : k ∈ [c!"functions", c!"ignore", c!"sets", c!"replacements"]) :
    ∃ x, getKeys [k, k'] db = .ok x := by
  obtain ⟨d, rfl⟩ := h.dict
  rw [getKeys]
  cases hd : d.get k with
  | none => exact ⟨_, rfl⟩
  | some y =>
    obtain ⟨d', rfl⟩ := h.sections k hk y (by simp [valueAt, hd])
    exact ⟨_, rfl⟩

theorem usable_functionsKnown {db : J} (h : UsableConstants db) : ∃ x, functionsKnown db = .ok x := by
  unfold functionsKnown constGet getByPath
  rw [show pathKeys c!"functions/known" = [c!"functions", c!"known"] by decide]
  exact usable_get h (by decide)
theorem usable_classIgnore {db : J} (h : UsableConstants db) : ∃ x, classIgnore db = .ok x := by
  unfold classIgnore constGet getByPath
  rw [show pathKeys c!"ignore/classes" = [c!"ignore", c!"classes"] by decide]
  exact usable_get h (by decide)
theorem usable_includeIgnore {db : J} (h : UsableConstants db) : ∃ x, includeIgnore db = .ok x := by
  unfold includeIgnore constGet getByPath
  rw [show pathKeys c!"ignore/include" = [c!"ignore", c!"include"] by decide]
  exact usable_get h (by decide)

theorem usable_setsBase {db : J} (h : UsableConstants db) :
    ∃ d, setsBase db = .ok (.dict d) ∧ ∀ n y, d.get n = some y → ∃ t, y = .str t := by
  have hb := h.base
  have hs := h.sections c!"sets" (by decide)
  obtain ⟨d, rfl⟩ := h.dict
  unfold setsBase constGet getByPath
  rw [show pathKeys c!"sets/base" = [c!"sets", c!"base"] by decide, getKeys]
  cases hd : d.get c!"sets" with
  | none => exact ⟨.nil, rfl, fun n y hy => by cases hy⟩
  | some y =>
    obtain ⟨d', rfl⟩ := hs y (by simp [valueAt, hd])
    simp only [Option.getD_some, getKeys]
    cases hd' : d'.get c!"base" with
    | none => exact ⟨.nil, rfl, fun n y hy => by cases hy⟩
    | some z =>
      obtain ⟨d2, rfl, h2⟩ := hb z (by simp [valueAt, hd, hd'])
      exact ⟨d2, rfl, h2⟩

/-- a change below `replacements` that keeps the types -/
theorem usable_set {d r : KV} (h : UsableConstants (.dict d))
    (hr : ∀ k ∈ [c!"distros", c!"machines"], ∀ x, r.get k = some x → ∃ l, x = .list l) :
    UsableConstants (.dict (d.set c!"replacements" (.dict r))) := by
  refine ⟨⟨_, rfl⟩, fun k hk x hx => ?_, fun x hx => ?_, fun k hk x hx => ?_⟩
  · simp only [valueAt, KV.get_set] at hx
    by_cases hk' : k = c!"replacements"
    · rw [if_pos hk'] at hx; cases hx; exact ⟨_, rfl⟩
    · rw [if_neg hk'] at hx
      exact h.sections k hk x (by simpa [valueAt] using hx)
  · simp only [valueAt, KV.get_set] at hx
    rw [if_neg (by decide)] at hx
    exact h.base x (by simpa [valueAt] using hx)
  · simp only [valueAt, KV.get_set, if_true, Option.bind_some, Option.bind_eq_bind] at hx
    cases hg : r.get k with
    | none => rw [hg] at hx; cases hx
    | some y => rw [hg] at hx; cases hx; exact hr k hk _ hg

theorem addConstants_repl {db : J} (h : UsableConstants db) {key fn : Str} (hk : key ∈ [c!"distros", c!"machines"]) :
    ∃ db', addConstants db (replConst key fn) = (db', none) ∧ UsableConstants db' := by
  have hl := h.lists
  have hs := h.sections c!"replacements" (by decide)
  obtain ⟨d, rfl⟩ := h.dict
  unfold addConstants mergeDb replConst
  rw [mergeJ]
  simp only
  rw [mergeKV.eq_def]
  simp only
  cases hd : d.get c!"replacements" with
  | none =>
    simp only [mergeKV]
    refine ⟨_, rfl, usable_set h fun k _ x hx => ?_⟩
    rw [KV.get] at hx
    split at hx
    · cases hx; exact ⟨_, rfl⟩
    · cases hx
  | some y =>
    obtain ⟨r, rfl⟩ := hs y (by simp [valueAt, hd])
    have hl' : ∀ k ∈ [c!"distros", c!"machines"], ∀ x, r.get k = some x → ∃ l, x = .list l := fun k hk x hx =>
      hl k hk x (by simp [valueAt, hd, hx])
    have hset : ∀ xs, ∀ k ∈ [c!"distros", c!"machines"], ∀ x, (r.set key (.list xs)).get k = some x → ∃ l, x = .list l := by
      intro xs k hk x hx
      rw [KV.get_set] at hx
      split at hx
      · cases hx; exact ⟨_, rfl⟩
      · exact hl' k hk x hx
    simp only
    rw [mergeJ]
    simp only
    rw [mergeKV.eq_def]
    simp only
    cases hr : r.get key with
    | none =>
      simp only [mergeKV]
      exact ⟨_, rfl, usable_set h (hset _)⟩
    | some z =>
      obtain ⟨l, rfl⟩ := hl' key hk z hr
      simp only [mergeJ, leafMerge, plusEq, mergeKV]
      exact ⟨_, rfl, usable_set h (hset _)⟩

/-! ## computations that keep an invariant and raise only some exceptions -/

/-- from the states with `I` the computation raises only exceptions with `E`, and keeps `I` -/
def Safe {α : Type} (I : Stash → Prop) (E : PyErr → Prop) (x : M α) : Prop :=
  ∀ s, I s → (∀ e, (x s).1 = .error e → E e) ∧ I (x s).2

namespace Safe
variable {α β : Type} {I : Stash → Prop} {E : PyErr → Prop}

theorem bind {x : M α} {f : α → M β} (hx : Safe I E x) (hf : ∀ a, Safe I E (f a)) : Safe I E (x >>= f) := by
  intro s hs
  obtain ⟨h2, h3⟩ := hx s hs
  simp only [M.bind_def]
  cases hxs : x s with
  | mk r s1 =>
    rw [hxs] at h2 h3
    cases r with
    | error e => exact ⟨fun e' h' => by cases h'; exact h2 e rfl, h3⟩
    | ok a => exact hf a s1 h3

theorem pure (a : α) : Safe I E (Pure.pure a : M α) := fun _ h => ⟨fun _ he => (by cases he), h⟩

theorem askThen {f : Stash → Except PyErr α} {g : α → M β} (he : ∀ s, I s → ∀ e, f s = .error e → E e)
    (hg : ∀ s a, I s → f s = .ok a → Safe I E (g a)) : Safe I E (M.ask f >>= g) := by
  intro s hs
  simp only [M.bind_def, M.ask]
  cases hf : f s with
  | error e => exact ⟨fun e' h => by cases h; exact he s hs e hf, hs⟩
  | ok a => exact hg s a hs hf s hs

theorem liftThen {f : Except PyErr α} {g : α → M β} (he : ∀ e, f = .error e → E e)
    (hg : ∀ a, f = .ok a → Safe I E (g a)) : Safe I E (M.lift f >>= g) := by
  intro s hs
  simp only [M.bind_def, M.lift]
  cases hf : f with
  | error e => exact ⟨fun e' h => by cases h; exact he e hf, hs⟩
  | ok a => exact hg a hf s hs

end Safe

/-- the computation does not end, or expanding a term reads a file that exists but cannot be read -/
def Excused (W : World) (e : PyErr) : Prop :=
  e = .recursionError ∨ e = .diverges ∨ (e = .osError ∧ ∃ p, W.file p = .fails)

/-- the constants and the names of the files known so far are usable -/
def Sane (s : Stash) : Prop := UsableConstants s.consts ∧ ∀ it ∈ s.items, UsableName it.origin

theorem sourceOf_usable {W : World} {s : Stash} {d : KV} (hd : ∀ n y, d.get n = some y → ∃ t, y = J.str t) (f n q : Str) :
    ∃ r, sourceOf W s (.dict d) f n q = .ok r := by
  unfold sourceOf
  split
  · exact ⟨_, rfl⟩
  · split
    · rename_i hh
      simp only [J.has] at hh
      obtain ⟨y, hy⟩ := Option.isSome_iff_exists.1 hh
      obtain ⟨t, rfl⟩ := hd _ _ hy
      simp only [hy]
      exact ⟨_, rfl⟩
    · repeat' (first | exact ⟨_, rfl⟩ | split)

theorem expandMany_safe {W : World} {s : Stash} {d : KV} (hd : ∀ n y, d.get n = some y → ∃ t, y = J.str t)
    {rec : Str → Seen → Except PyErr (Str × Seen)} {f : Str} {sp : List Str} {q : Str} {l : List Mt} {res : Str} {seen : Seen}
    {e : PyErr} (h : expandMany W s (.dict d) rec f sp q l res seen = .error e) : ∃ v sn, rec v sn = .error e := by
  induction l generalizing res seen with
  | nil => cases h
  | cons m l ih =>
    rw [expandMany] at h
    split at h
    · cases h; rename_i h
      unfold expandOne at h
      simp only at h
      split at h
      · cases h
      · obtain ⟨r, hr⟩ := sourceOf_usable (W := W) (s := s) hd f ((m.group 1).getD []) q
        rw [hr] at h
        split at h
        · rename_i heq; cases heq
        · cases h
        · cases h
        · split at h
          · cases h
          · split at h
            · rename_i hr; cases h; exact ⟨_, _, hr⟩
            · cases h
    · exact ih h

theorem readFiles_safe {W : World} {rec : Str → Seen → Except PyErr (Str × Seen)} {l : List Mt} {res : Str} {seen : Seen}
    {e : PyErr} (h : readFiles W rec l res seen = .error e) :
    (e = .osError ∧ ∃ p, W.file p = .fails) ∨ ∃ v sn, rec v sn = .error e := by
  induction l generalizing res seen with
  | nil => cases h
  | cons m l ih =>
    rw [readFiles] at h
    split at h
    · cases h; rename_i h; exact Or.inr ⟨_, _, h⟩
    · simp only at h
      split at h
      · exact ih h
      · exact ih h
      · exact ih h
      · rename_i hf; cases h; exact Or.inl ⟨rfl, _, hf⟩

theorem expandTermF_safe {W : World} {s : Stash} (hs : UsableConstants s.consts) {n : Nat} {f : Str} {sp : List Str} {v : Str}
    {sn : Seen} {e : PyErr} (h : expandTermF W s n f sp v sn = .error e) : Excused W e := by
  induction n generalizing f sp v sn with
  | zero => cases h; exact Or.inl rfl
  | succ n ih =>
    rw [expandTermF] at h
    obtain ⟨d, hb, hd⟩ := usable_setsBase hs
    rw [hb] at h
    simp only at h
    split at h
    · cases h; rename_i h
      obtain ⟨_, _, h⟩ := expandMany_safe hd h
      exact ih h
    · split at h
      · cases h; rename_i h
        obtain ⟨_, _, h⟩ := expandMany_safe hd h
        exact ih h
      · rcases readFiles_safe h with h | ⟨_, _, h⟩
        · exact Or.inr (Or.inr h)
        · exact ih h

variable {W : World} {add : AddFn} {file : Str}

theorem expandTerm_safe {f v : Str} (s : Stash) (hs : Sane s) (e : PyErr) (h : expandTerm W s f v = .error e) : Excused W e := by
  unfold expandTerm expandTermS at h
  cases hx : expandTermF W s (expandBound s v) f [] v [] with
  | ok a => rw [hx] at h; cases h
  | error e' => rw [hx] at h; cases h; exact expandTermF_safe hs.1 hx

theorem freshUid_safe : Safe Sane (Excused W) freshUid := fun _ h => ⟨fun _ he => (by cases he), h⟩

/-- what the recursion is used for -/
def AddSafe (W : World) (add : AddFn) (file : Str) : Prop :=
  ∀ p, MayLoad W file p → ∀ o f, Safe Sane (Excused W) (add p o f)

theorem findLocal_excused {n d : Str} {e : PyErr} (h : findLocalOrLayer W n d = .error e) : Excused W e := by
  unfold findLocalOrLayer at h
  split at h
  · cases h
  · split at h <;> cases h; exact Or.inr (Or.inl rfl)

theorem findClass_excused {d i : Str} {locs : List Str} {e : PyErr} (h : findClass W d i locs = .error e) : Excused W e := by
  induction locs with
  | nil => cases h
  | cons l ls ih =>
    rw [findClass] at h
    split at h
    · cases h; rename_i h; exact findLocal_excused h
    · split at h
      · exact ih h
      · cases h

theorem inheritLoop_safe (hadd : AddSafe W add file)
    (lineno : Int) (n inhname : Str) (s0 : Stash) (hwr : WritesInherit W file n) (he : expandTerm W s0 file n = .ok inhname)
    (locs : List Str) (hl : ∀ l ∈ locs, l ∈ [c!"classes", c!"classes-recipe", c!"classes-global"])
    (l found : List Str) (hsub : ∀ x ∈ l, x ∈ splitNE ' ' inhname) (off : Int) :
    Safe Sane (Excused W) (inheritLoop W add file lineno inhname locs l found off) := by
  induction l generalizing found off with
  | nil => exact Safe.pure _
  | cons i l ih =>
    have ih := fun found off => ih found (fun x hx => hsub x (by simp [hx])) off
    rw [inheritLoop]
    refine Safe.liftThen (fun e h => findClass_excused h) fun path hpath => ?_
    split
    · exact ih _ _
    · rename_i hne
      refine Safe.askThen (fun s hs e h => ?_) fun s ign _ _ => ?_
      · obtain ⟨x, hx⟩ := usable_classIgnore hs.1
        rw [hx] at h; cases h
      · split
        · exact ih _ _
        · refine Safe.bind (hadd path ?_ _ _) fun tmp => ih _ _
          have hf := (findClass_spec locs hpath).1 (by simpa using hne)
          obtain ⟨loc, h1, h2⟩ := findsClass_mem hf
          exact Or.inr ⟨n, s0, inhname, i, withBbclass i, loc, hwr, he, hsub i (by simp), classFile_withBbclass i, hl _ h1, h2⟩

theorem handleKind_safe (hadd : AddSafe W add file)
    (lineno : Int) (p : Params) (k : Kind) (pat : Pattern) (m : Mt)
    (hi : k = .include → WritesInclude W file ((pat.group m c!"incname").getD []))
    (hj : k = .inherit ∨ k = .inheritGlob → WritesInherit W file ((pat.group m c!"inhname").getD [])) :
    Safe Sane (Excused W) (handleKind W add file lineno p k pat m) := by
  cases k <;> unfold handleKind <;> simp only
  case func =>
    refine Safe.askThen (fun s hs e h => ?_) fun _ _ _ _ => Safe.bind freshUid_safe fun _ => Safe.pure _
    obtain ⟨x, hx⟩ := usable_functionsKnown hs.1
    rw [hx] at h; cases h
  case inherit =>
    refine Safe.askThen expandTerm_safe fun s inhname _ he => ?_
    refine Safe.bind (inheritLoop_safe hadd _ _ _ s (hj (by simp)) he _ (fun l h => h) _ _ (fun x h => h) _) fun r => ?_
    exact Safe.bind freshUid_safe fun uid => Safe.pure _
  case inheritGlob =>
    refine Safe.askThen expandTerm_safe fun s inhname _ he => ?_
    refine Safe.bind (inheritLoop_safe hadd _ _ _ s (hj (by simp)) he _ (fun l h => ?_) _ _ (fun x h => h) _) fun r => ?_
    · simp only [List.mem_cons, List.not_mem_nil, or_false] at h ⊢
      rcases h with h | h <;> simp [h]
    · exact Safe.bind freshUid_safe fun uid => Safe.pure _
  case addtask =>
    split
    · exact Safe.pure _
    · exact Safe.bind freshUid_safe fun uid => Safe.pure _
  case «include» =>
    refine Safe.askThen expandTerm_safe fun s name _ he => ?_
    refine Safe.liftThen (fun e h => findLocal_excused h) fun path hpath => ?_
    split
    · exact Safe.bind freshUid_safe fun uid => Safe.pure _
    · rename_i hne
      refine Safe.askThen (fun s hs e h => ?_) fun _ ign _ _ => ?_
      · obtain ⟨x, hx⟩ := usable_includeIgnore hs.1
        rw [hx] at h; cases h
      · split
        · exact Safe.pure _
        · refine Safe.bind (hadd path (Or.inl ⟨_, s, name, hi rfl, he, ?_⟩) _ _) fun tmp =>
            Safe.bind freshUid_safe fun uid => Safe.pure _
          exact (findLocalOrLayer_spec hpath).1 (by simpa using hne)
  all_goals exact Safe.bind freshUid_safe fun uid => Safe.pure _

theorem classify_safe (hadd : AddSafe W add file)
    (lineno : Int) (p : Params) (cnt : Str) (l : List (Kind × Pattern))
    (hi : ∀ k pat m, (k, pat) ∈ l → reMatch pat.re cnt = some m → k = .include →
      WritesInclude W file ((pat.group m c!"incname").getD []))
    (hj : ∀ k pat m, (k, pat) ∈ l → reMatch pat.re cnt = some m → k = .inherit ∨ k = .inheritGlob →
      WritesInherit W file ((pat.group m c!"inhname").getD [])) :
    Safe Sane (Excused W) (classify W add file lineno p cnt l) := by
  induction l with
  | nil => rw [classify]; exact Safe.bind freshUid_safe fun uid => Safe.pure _
  | cons kp l ih =>
    obtain ⟨k, pat⟩ := kp
    have ih := ih (fun k pat m h => hi k pat m (by simp [h])) (fun k pat m h => hj k pat m (by simp [h]))
    rw [classify]
    cases hm : reMatch pat.re cnt with
    | none => exact ih
    | some m =>
      refine Safe.bind (handleKind_safe hadd _ _ _ _ _ (hi k pat m (by simp) hm) (hj k pat m (by simp) hm)) fun r => ?_
      cases r with
      | some x => exact Safe.pure _
      | none => exact ih

theorem itemsLoop_safe (hadd : AddSafe W add file)
    (lineOffset lo : Int) (neg : Bool) (all : List Chunk) (hp : prepareLines W file lo neg = .ok all)
    (off : Int) (ns : Bool) (cs : List Chunk) (hcs : ∀ c ∈ cs, c ∈ all) :
    Safe Sane (Excused W) (itemsLoop W add file lineOffset off ns cs) := by
  induction cs generalizing off ns with
  | nil => exact Safe.pure _
  | cons c cs ih =>
    rw [itemsLoop]
    refine Safe.bind (classify_safe hadd _ _ _ _ ?_ ?_) fun r =>
      Safe.bind (ih _ _ fun c h => hcs c (by simp [h])) fun _ => Safe.pure _
    · rintro k pat m hmem hm rfl
      have : pat = reInclude := by
        simp only [parseOrder, List.mem_cons, Prod.mk.injEq, reduceCtorEq, false_and, true_and, false_or, or_false,
          List.not_mem_nil] at hmem
        exact hmem
      subst this
      exact ⟨lo, neg, all, c, m, hp, hcs c (by simp), hm, rfl⟩
    · rintro k pat m hmem hm (rfl | rfl)
      · have : pat = reInherit := by
          simp only [parseOrder, List.mem_cons, Prod.mk.injEq, reduceCtorEq, false_and, true_and, false_or, or_false,
            List.not_mem_nil] at hmem
          exact hmem
        subst this
        exact ⟨lo, neg, all, c, m, hp, hcs c (by simp), Or.inl ⟨hm, rfl⟩⟩
      · have : pat = reInheritGlob := by
          simp only [parseOrder, List.mem_cons, Prod.mk.injEq, reduceCtorEq, false_and, true_and, false_or, or_false,
            List.not_mem_nil] at hmem
          exact hmem
        subst this
        exact ⟨lo, neg, all, c, m, hp, hcs c (by simp), Or.inr ⟨hm, rfl⟩⟩

/-! ## appends -/

theorem usable_append {f : Str} (h : UsableName f) (he : endsWith c!".bbappend" f = true) (s : Str) :
    (∃ b, matchDyn (appendPattern f) s = .ok b) ∧ ∃ b, matchDyn (appendPattern' f) s = .ok b := by
  obtain ⟨stem, h1, h2⟩ := h (endsWith_iff.1 he)
  rw [appendPattern_eq h1 h2, appendPattern'_eq h1 h2]
  refine ⟨matchDyn_toks_ok _ _ (stemTok_ok fun c hc => ?_) s, matchDyn_toks_ok _ _ (stemTok_ok h2.1) s⟩
  rcases List.mem_append.1 hc with hc | hc
  · exact h2.1 c hc
  · have : ∀ c ∈ c!".bb", c ∉ c!"\\^$|?*+()[]{}" := by decide
    exact this c hc

theorem linkAppend_succeeds {f : Str} (h : ∀ s, ∃ b, matchDyn (appendPattern f) s = .ok b) (l : List Str) (mx : Int) (s : Stash) :
    ∃ r, (linkAppend f l mx s).1 = .ok r := by
  induction l generalizing mx s with
  | nil => exact ⟨_, rfl⟩
  | cons x xs ih =>
    rw [linkAppend]
    obtain ⟨b, hb⟩ := h (basename x)
    rw [hb]
    cases b
    · exact ih _ _
    · exact ih _ _

theorem linkRecipe_succeeds (f bn : Str) (mx : Int) (done l : List Item) (s : Stash) (h : ∀ it ∈ l, UsableName it.origin) :
    ∃ r, (linkRecipe f bn mx done l s).1 = .ok r := by
  induction l generalizing done s with
  | nil => exact ⟨_, rfl⟩
  | cons x xs ih =>
    have ih := fun done s => ih done s fun it hit => h it (by simp [hit])
    rw [linkRecipe_cons]
    split
    · exact ih _ _
    · rename_i he
      obtain ⟨b, hb⟩ := (usable_append (h x (by simp)) (by simpa using he) bn).2
      rw [hb]
      cases b
      · exact ih _ _
      · exact ih _ _

theorem relined_mem {l l' : List Item} (h : Relined l l') {it : Item} (hit : it ∈ l') : ∃ a ∈ l, it.origin = a.origin := by
  induction h with
  | nil => cases hit
  | @cons a b l l' h1 _ ih =>
    rcases List.mem_cons.1 hit with rfl | hit
    · exact ⟨a, by simp, by rw [h1]⟩
    · obtain ⟨a', h2, h3⟩ := ih hit
      exact ⟨a', by simp [h2], h3⟩

theorem crossLink_safe (f : Str) (hf : UsableName f) (its : List Item) : Safe Sane (Excused W) (crossLink f its) := by
  intro s hs
  constructor
  · intro e he
    exfalso
    unfold crossLink at he
    split at he
    · rename_i hb
      simp only [M.bind_def, M.get] at he
      obtain ⟨r, hr⟩ := linkAppend_succeeds (fun x => (usable_append hf hb x).1) (s.map.map (·.1)) 0 s
      rcases hx : linkAppend f (s.map.map (·.1)) 0 s with ⟨a, s1⟩
      rw [hx] at hr he
      simp only at hr
      subst hr
      cases he
    · split at he
      · simp only [M.bind_def, M.get] at he
        obtain ⟨r, hr⟩ := linkRecipe_succeeds f (replaceAll c!".bb" [] (basename f)) (maxLine its) [] s.items s hs.2
        rcases hx : linkRecipe f (replaceAll c!".bb" [] (basename f)) (maxLine its) [] s.items s with ⟨a, s1⟩
        rw [hx] at hr he
        simp only at hr
        subst hr
        cases he
      · cases he
  · have := crossLink_rel (R := fun s s' => Sane s → Sane s') (fun _ h => h) (fun _ _ _ h h' hs => h' (h hs))
      (fun s l hl hs => ⟨hs.1, fun it hit => ?_⟩) (fun s k x hs => hs) f its s
    · exact this hs
    · obtain ⟨it0, h0, h1⟩ := relined_mem hl hit
      rw [h1]; exact hs.2 it0 h0

theorem addConfs_safe (key : Str) (hk : key ∈ [c!"distros", c!"machines"]) (l : List Str) :
    Safe Sane (Excused W) (addConfs key l) := by
  induction l with
  | nil => exact Safe.pure _
  | cons x xs ih =>
    intro s hs
    rw [addConfs]
    obtain ⟨db, h1, h2⟩ := addConstants_repl hs.1 (fn := (splitext (basename x)).1) hk
    simp only [h1]
    exact ih _ ⟨h2, hs.2⟩

theorem addDistroMachine_safe (p : Str) : Safe Sane (Excused W) (addDistroMachine W p) := by
  unfold addDistroMachine
  refine Safe.liftThen (fun e h => Or.inr (Or.inl (getLayerRoot_error h))) fun root _ => ?_
  split
  · exact Safe.pure _
  · exact Safe.bind (addConfs_safe _ (by decide) _) fun _ => addConfs_safe _ (by decide) _

theorem prepareLines_usable {off : Int} {neg : Bool} (h : UsableFile W file) : ∃ cs, prepareLines W file off neg = .ok cs := by
  unfold prepareLines
  rcases h with h | ⟨t, h, hc⟩
  · rw [h]; exact ⟨_, rfl⟩
  · rw [h]
    simp only
    cases hx : chunksOf off neg (univNewlines t) with
    | ok cs => exact ⟨cs, rfl⟩
    | error e =>
      obtain ⟨_, l, hl, hb⟩ := chunksOf_error hx
      have := hc _ (readlines_isLines _) l hl
      rcases hb with hb | hb
      · exact absurd hb this.1
      · exact absurd hb this.2

theorem addFile_safe (n : Nat) (path : Str)
    (hpath : UsableFile W (abspath W.cwd path) ∧ UsableName (abspath W.cwd path))
    (hl : ∀ f p, MayLoad W f p → UsableFile W (abspath W.cwd p) ∧ UsableName (abspath W.cwd p)) (o : Int) (fo : Option Str) :
    Safe Sane (Excused W) (addFile W n path o fo) := by
  induction n generalizing path o fo with
  | zero => exact fun s hs => ⟨fun e he => by cases he; exact Or.inl rfl, hs⟩
  | succ n ih =>
    intro s hs
    by_cases hseen : alreadySeen s (abspath W.cwd path) = true
    · rw [addFile_seen o fo hseen]
      exact ⟨fun e h => (by cases h), hs⟩
    · have hseen : alreadySeen s (abspath W.cwd path) = false := by simpa using hseen
      have hadd : AddSafe W (addFile W n) (abspath W.cwd path) := fun p hp o fo => ih p (hl _ _ hp) o fo
      have hget : Safe Sane (Excused W) (getItems W (addFile W n) (abspath W.cwd path) o s.newStyle s.negative) := by
        rw [getItems_abs]
        obtain ⟨cs, hcs⟩ := prepareLines_usable (off := o) (neg := s.negative) hpath.1
        refine Safe.liftThen (fun e h => by rw [hcs] at h; cases h) fun cs' hcs' => ?_
        exact itemsLoop_safe hadd _ o s.negative cs' hcs' _ _ _ (fun c h => h)
      have hmark : Sane (markSeen s (abspath W.cwd path)) := hs
      rw [addFile_eq W n path o fo s hseen]
      obtain ⟨g1, g2⟩ := hget _ hmark
      rcases hx : getItems W (addFile W n) (abspath W.cwd path) o s.newStyle s.negative (markSeen s (abspath W.cwd path)) with ⟨r, s1⟩
      rw [hx] at g1 g2
      cases r with
      | error e => exact ⟨fun e' h => by cases h; exact g1 _ rfl, g2⟩
      | ok its =>
        simp only
        obtain ⟨g3, g4⟩ := crossLink_safe (W := W) (abspath W.cwd path) hpath.2 its
          { s1 with map := enterMap s1.map (abspath W.cwd path) fo } g2
        rcases hy : crossLink (abspath W.cwd path) its { s1 with map := enterMap s1.map (abspath W.cwd path) fo } with ⟨r, s3⟩
        rw [hy] at g3 g4
        cases r with
        | error e => exact ⟨fun e' h => by cases h; exact g3 _ rfl, g4⟩
        | ok res =>
          simp only
          obtain ⟨g5, g6⟩ := addDistroMachine_safe (W := W) (abspath W.cwd path) s3 g4
          rcases hz : addDistroMachine W (abspath W.cwd path) s3 with ⟨r, s4⟩
          rw [hz] at g5 g6
          cases r with
          | error e => exact ⟨fun e' h => by cases h; exact g5 _ rfl, g6⟩
          | ok u =>
            refine ⟨fun e h => (by cases h), g6.1, fun it hit => ?_⟩
            rcases List.mem_append.1 hit with hit | hit
            · exact g6.2 it hit
            · obtain ⟨mx, _, rfl, _⟩ := crossLink_post _ _ _ _ _ hy
              rw [getItems_abs] at hx
              obtain ⟨cs, s5, -, h6⟩ := M.bind_ok.1 hx
              have h7 := traced_itemOf W _ (addPos_addFile W n) (Int.le_refl _) (itemsLoop_traced W _ _ _ _ _ _ _ _ _ h6)
              obtain ⟨it0, hit0, rfl⟩ := List.mem_map.1 hit
              obtain ⟨c, _, hc⟩ := forall₂_mem_right h7 hit0
              show UsableName it0.origin
              rw [hc.origin]; exact hpath.2

end Oelint

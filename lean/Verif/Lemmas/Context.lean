import Verif.Lemmas.Reproducible
import Verif.Lemmas.TwoInstances
import Verif.Lemmas.Shipped
import Verif.Lemmas.Terminates
import Verif.Lemmas.ExpandRefs
import Verif.Spec.Edit
/-! The items of a file in two different stashes (C92). -/
set_option linter.unusedSectionVars false
set_option linter.unusedSimpArgs false
namespace Oelint
variable [Uni]
open Spec

/-- if both methods succeed and `U` holds after both, their results are related -/
structure Both {α β : Type} (K U : Stash → Prop) (P : α → β → Prop) (x : M α) (y : M β) : Prop where
  main : ∀ s s' a b t t', K s → K s' → U t → U t' → x s = (.ok a, t) → y s' = (.ok b, t') → P a b ∧ K t ∧ K t'
  left : Down U x
  right : Down U y

namespace Both
variable {α β γ δ : Type} {K U : Stash → Prop}

theorem pure {P : α → β → Prop} {a : α} {b : β} (h : P a b) : Both K U P (Pure.pure a : M α) (Pure.pure b : M β) where
  main := by
    intro s s' a b t t' k k' _ _ h1 h2
    cases h1; cases h2
    exact ⟨h, k, k'⟩
  left := .pure _
  right := .pure _

theorem bind {P : α → β → Prop} {Q : γ → δ → Prop} {x : M α} {y : M β} {f : α → M γ} {g : β → M δ} (h : Both K U P x y)
    (hl : ∀ a, Down U (f a)) (hr : ∀ b, Down U (g b)) (hf : ∀ a b, P a b → Both K U Q (f a) (g b)) : Both K U Q (x >>= f) (y >>= g) where
  main := by
    intro s s' c d t t' k k' u u' h1 h2
    obtain ⟨a, s1, e1, e2⟩ := M.bind_ok.1 h1
    obtain ⟨b, s2, e3, e4⟩ := M.bind_ok.1 h2
    obtain ⟨h3, k1, k2⟩ := h.main s s' a b s1 s2 k k' ((hl a).ok e2 u) ((hr b).ok e4 u') e1 e3
    exact (hf a b h3).main s1 s2 c d t t' k1 k2 u u' e2 e4
  left := h.left.bind hl
  right := h.right.bind hr

theorem lift (x : Except PyErr α) : Both K U (fun a b => a = b) (M.lift x) (M.lift x) where
  main := by
    intro s s' a b t t' k k' _ _ h1 h2
    unfold M.lift at h1 h2
    obtain ⟨e1, rfl⟩ := Prod.mk.inj h1
    obtain ⟨e2, rfl⟩ := Prod.mk.inj h2
    exact ⟨Except.ok.inj (e1.symm.trans e2), k, k'⟩
  left := .lift _
  right := .lift _

theorem ask {f g : Stash → Except PyErr α} (h : ∀ s s', K s → K s' → U s → U s' → f s = g s') :
    Both K U (fun a b => a = b) (M.ask f) (M.ask g) where
  main := by
    intro s s' a b t t' k k' u u' h1 h2
    unfold M.ask at h1 h2
    obtain ⟨e1, rfl⟩ := Prod.mk.inj h1
    obtain ⟨e2, rfl⟩ := Prod.mk.inj h2
    exact ⟨Except.ok.inj ((e1.symm.trans (h _ _ k k' u u')).trans e2), k, k'⟩
  left := .ask _
  right := .ask _

theorem any {x : M α} {y : M β} (hx : ∀ s a t, K s → x s = (.ok a, t) → K t) (hy : ∀ s a t, K s → y s = (.ok a, t) → K t)
    (dx : Down U x) (dy : Down U y) : Both K U (fun _ _ => True) x y :=
  ⟨fun s s' a b t t' k k' _ _ h1 h2 => ⟨trivial, hx s a t k h1, hy s' b t' k' h2⟩, dx, dy⟩

end Both

/-! ### what is not assigned at the end was not assigned before -/

theorem unassigned_reline {V : Str → Prop} {s : Stash} {l : List Item} (h : Relined s.items l) (u : NoneAssigned V { s with items := l }) : NoneAssigned V s := by
  intro x hx
  have u : ∀ x ∈ l, ∀ v, x.payload = .variable v → appendOperation v = [] → ¬ V v.varName := u
  have : ∃ y ∈ l, y.payload = x.payload := by
    clear u
    rename_i u
    clear u
    generalize s.items = k at h hx
    induction h with
    | nil => cases hx
    | @cons a b k l h _ ih =>
      rcases List.mem_cons.1 hx with rfl | hx
      · exact ⟨b, by simp, by rw [h]⟩
      · obtain ⟨y, h1, h2⟩ := ih hx
        exact ⟨y, by simp [h1], h2⟩
  obtain ⟨y, h1, h2⟩ := this
  rw [← h2]
  exact u y h1

theorem unassigned_step (W : World) (V : Str → Prop) : StepRel W (fun s t => NoneAssigned V t → NoneAssigned V s) :=
  ⟨fun _ h => h, fun _ _ _ h1 h2 h => h1 (h2 h), fun _ h => h, fun _ _ h => h, fun _ _ _ h => h, fun _ _ _ h => h,
    fun _ _ h u => unassigned_reline h u, fun _ _ h => h, fun _ l h x hx => h x (List.mem_append_left l hx)⟩

section
variable {W : World} {V : Str → Prop}

theorem down_fresh : Down (NoneAssigned V) freshUid := fun _ h => h

theorem down_add (n : Nat) (p : Str) (o : Int) (f : Option Str) : Down (NoneAssigned V) (addFile W n p o f) :=
  addFile_rel (unassigned_step W V) n p o f

theorem down_itemsLoop (n : Nat) (file : Str) (off i : Int) (ns : Bool) (cs : List Chunk) :
    Down (NoneAssigned V) (itemsLoop W (addFile W n) file off i ns cs) :=
  itemsLoop_rel (unassigned_step W V).refl (unassigned_step W V).trans (unassigned_step W V).uid W file (fun p o f => down_add n p o f) _ _ _ _

theorem down_classify (n : Nat) (file : Str) (lineno : Int) (p : Params) (cnt : Str) (l : List (Kind × Pattern)) :
    Down (NoneAssigned V) (classify W (addFile W n) file lineno p cnt l) :=
  classify_rel (unassigned_step W V).refl (unassigned_step W V).trans (unassigned_step W V).uid W file (fun p o f => down_add n p o f) _ _ _ _

theorem down_inheritLoop (n : Nat) (file : Str) (lineno : Int) (nm : Str) (locs l found : List Str) (off : Int) :
    Down (NoneAssigned V) (inheritLoop W (addFile W n) file lineno nm locs l found off) :=
  inheritLoop_rel (unassigned_step W V).refl (unassigned_step W V).trans (unassigned_step W V).uid W file (fun p o f => down_add n p o f) _ _ _ _ _ _

theorem down_addOk {fuel : Nat} {file : Str} {off : Int} {forced : Option Str} {s s' : Stash} {res : List Item}
    (ok : AddOk W fuel file off forced s s' res) (u : NoneAssigned V s') : NoneAssigned V ok.s1 := by
  have h := unassigned_step W V
  have u4 : NoneAssigned V ok.s4 := h.commit ok.s4 res (ok.final ▸ u)
  have u3 : NoneAssigned V ok.s3 := by
    have := addDistroMachine_rel h.refl h.trans h.consts W file ok.s3
    rw [ok.distro] at this
    exact this u4
  have := crossLink_rel h.refl h.trans h.reline h.link file ok.its { ok.s1 with map := enterMap ok.s1.map file forced }
  rw [ok.cross] at this
  exact this u3

end

/-! ### expansion of names that refer to such variables only -/

section
variable {V : Str → Prop}

theorem unassigned_nil {W : World} {s : Stash} (u : NoneAssigned V s) {n : Str} (hv : V n) (hn : n ≠ []) (file : Str) :
    assignments W s file n = [] := by
  refine (assignments_nil hn).2 ?_
  rintro x ⟨h1, -, v, h2, rfl, h3⟩
  exact u x h1 v h2 h3 hv

theorem sourceOf_within {W W' : World} {s s' : Stash} (u : NoneAssigned V s) (u' : NoneAssigned V s') {n : Str} (hv : V n) (hn : n ≠ [])
    (b : J) (file q : Str) : sourceOf W s b file n q = sourceOf W' s' b file n q := by
  unfold sourceOf
  rw [unassigned_nil u hv hn, unassigned_nil u' hv hn]

theorem sourceOf_closed {W : World} {s : Stash} {b : J} (hb : setsBase s.consts = .ok b) (hc : SetsWithin s.consts V) (u : NoneAssigned V s)
    {n : Str} (hv : V n) (hn : n ≠ []) {file q t : Str} (h : sourceOf W s b file n q = .ok (.text t)) : RefersWithin V t := by
  unfold sourceOf at h
  rw [unassigned_nil u hv hn] at h
  simp only at h
  split at h
  · split at h
    · split at h
      · rename_i ht
        cases h
        exact hc _ n t hb hv ht
      · cases h
    · cases h
  · repeat' split at h
    all_goals cases h

theorem expandMany_within {W W' : World} {s s' : Stash} {b : J} (hb : setsBase s.consts = .ok b) (hc : SetsWithin s.consts V)
    (u : NoneAssigned V s) (u' : NoneAssigned V s') {rec rec' : ExpandFn} (hr : ∀ t sn, RefersWithin V t → rec t sn = rec' t sn) (file : Str)
    (spare : List Str) (q : Str) (l : List Mt) (hl : ∀ m ∈ l, V ((m.group 1).getD []) ∧ (m.group 1).getD [] ≠ []) (res : Str) (sn : Seen) :
    expandMany W s b rec file spare q l res sn = expandMany W' s' b rec' file spare q l res sn := by
  induction l generalizing res sn with
  | nil => rfl
  | cons m l ih =>
    obtain ⟨hv, hn⟩ := hl m (by simp)
    have h1 : expandOne W s b rec file spare q m res sn = expandOne W' s' b rec' file spare q m res sn := by
      unfold expandOne
      simp only
      split
      · rfl
      · rw [← sourceOf_within (W := W) u u' hv hn]
        cases hs : sourceOf W s b file ((m.group 1).getD []) q with
        | error e => rfl
        | ok x =>
          cases x with
          | keep => rfl
          | lit t => rfl
          | text t => simp only; rw [hr t _ (sourceOf_closed hb hc u hv hn hs)]
    rw [expandMany, expandMany, h1]
    split
    · rfl
    · exact ih (fun m hm => hl m (by simp [hm])) _ _

theorem expandTermF_within {W W' : World} {s s' : Stash} (hb : setsBase s'.consts = setsBase s.consts) (hc : SetsWithin s.consts V)
    (u : NoneAssigned V s) (u' : NoneAssigned V s') (n : Nat) (file : Str) (spare : List Str) (t : Str) (sn : Seen) (h : RefersWithin V t) :
    expandTermF W s n file spare t sn = expandTermF W' s' n file spare t sn := by
  induction n generalizing spare t sn with
  | zero => rfl
  | succ n ih =>
    rw [expandTermF, expandTermF, hb]
    cases hs : setsBase s.consts with
    | error e => rfl
    | ok b =>
      simp only
      have hv : ∀ m ∈ reFinditer reVariablePattern.re t, V ((m.group 1).getD []) ∧ (m.group 1).getD [] ≠ [] := by
        intro m hm
        obtain ⟨n, -, g1, g2⟩ := mem_finditer_variable hm
        rw [g1]
        exact ⟨h.1 n g2, g2.2.1⟩
      have hg : ∀ m ∈ reFinditer reVariablePattern2.re t, V ((m.group 1).getD []) ∧ (m.group 1).getD [] ≠ [] := by
        intro m hm
        obtain ⟨n, g1, g2⟩ := mem_finditer_getVar hm
        rw [g1]
        exact ⟨h.2.1 n g2, g2.choose_spec.choose_spec.choose_spec.2.2⟩
      rw [expandMany_within (W' := W') hs hc u u' (fun t sn ht => ih [] t sn ht) file spare [] _ hv]
      cases expandMany W' s' b (fun v sn => expandTermF W' s' n file [] v sn) file spare [] (reFinditer reVariablePattern.re t) t sn with
      | error e => rfl
      | ok x =>
        simp only
        rw [expandMany_within (W' := W') hs hc u u' (fun t sn ht => ih [] t sn ht) file spare _ _ hg, finditer_readFile_nil h.2.2]
        rfl

theorem expandTerm_within {W W' : World} {s s' : Stash} (hb : setsBase s'.consts = setsBase s.consts) (hc : SetsWithin s.consts V)
    (u : NoneAssigned V s) (u' : NoneAssigned V s') (file : Str) {t : Str} (h : RefersWithin V t) : expandTerm W s file t = expandTerm W' s' file t := by
  unfold expandTerm
  rw [← (expandTerm_fuel W s file [] t (max (expandBound s t) (expandBound s' t)) (Nat.le_max_left _ _)).1,
    ← (expandTerm_fuel W' s' file [] t (max (expandBound s t) (expandBound s' t)) (Nat.le_max_right _ _)).1,
    expandTermF_within hb hc u u' _ _ _ _ _ h]

theorem refersWithin_plain {t : Str} (h1 : '$' ∉ t) (h2 : '(' ∉ t) : RefersWithin V t := by
  refine ⟨?_, ?_, ?_⟩
  · rintro n ⟨h, -⟩
    exact absurd (h.subset (by simp [refText])) h1
  · rintro n ⟨q, q', args, -, h, -⟩
    exact absurd (h.subset (by simp)) h2
  · intro h
    exact absurd (h.subset (by simp)) h2

theorem append_unique {c : Char} {p a x y : Str} (e : p ++ c :: x = a ++ c :: y) (ha : c ∉ a) (hy : c ∉ y) : p = a ∧ x = y := by
  induction p generalizing a with
  | nil =>
    cases a with
    | nil => exact ⟨rfl, (List.cons.inj e).2⟩
    | cons z a => exact absurd (List.cons.inj e).1 (by rintro rfl; simp at ha)
  | cons w p ih =>
    cases a with
    | nil =>
      refine absurd ?_ hy
      rw [← (List.cons.inj e).2]
      simp
    | cons z a =>
      obtain ⟨h1, h2⟩ := List.cons.inj e
      obtain ⟨h3, h4⟩ := ih h2 (by simp at ha; exact ha.2)
      exact ⟨by rw [h1, h3], h4⟩

theorem append_first {c : Char} {p a x y : Str} (e : p ++ c :: x = a ++ c :: y) (hp : c ∉ p) (ha : c ∉ a) : p = a := by
  induction p generalizing a with
  | nil =>
    cases a with
    | nil => rfl
    | cons z a => exact absurd (List.cons.inj e).1 (by rintro rfl; simp at ha)
  | cons w p ih =>
    cases a with
    | nil => exact absurd (List.cons.inj e).1 (by rintro rfl; simp at hp)
    | cons z a =>
      obtain ⟨h1, h2⟩ := List.cons.inj e
      rw [h1, ih h2 (by simp at hp; exact hp.2) (by simp at ha; exact ha.2)]

/-- a text with one reference -/
theorem refersWithin_one {a m b : Str} (ha : '$' ∉ a ∧ '(' ∉ a) (hm : '$' ∉ m ∧ '(' ∉ m ∧ '}' ∉ m ∧ m ≠ []) (hb : '$' ∉ b ∧ '(' ∉ b) :
    RefersWithin (fun n => n = m) (a ++ (refText m ++ b)) := by
  have hp : '(' ∉ a ++ (refText m ++ b) := by simp [refText, ha.2, hm.2.1, hb.2]
  refine ⟨?_, ?_, ?_⟩
  · rintro n ⟨⟨p, q, e⟩, hne, -, hn⟩
    have e1 : p ++ '$' :: ('{' :: (n ++ '}' :: q)) = a ++ '$' :: ('{' :: (m ++ '}' :: b)) := by
      simpa [refText] using e
    obtain ⟨-, e2⟩ := append_unique e1 ha.1 (by simp [hm.1, hb.1])
    have e3 := (List.cons.inj e2).2
    cases n with
    | nil => exact absurd rfl hne
    | cons z n =>
      cases m with
      | nil => exact absurd rfl hm.2.2.2
      | cons w m =>
        obtain ⟨rfl, e4⟩ := List.cons.inj e3
        rw [append_first e4 hn (by have := hm.2.2.1; simp at this; exact this.2)]
  · rintro n ⟨q, q', args, -, h, -⟩
    exact absurd (h.subset (by simp)) hp
  · intro h
    exact absurd (h.subset (by simp)) hp

theorem fileWithin_plain {W : World} {f : Str} (h : PlainFile W f) : FileWithin W V f := fun n hn => refersWithin_plain (h n hn).1 (h n hn).2

theorem noneAssigned_none (s : Stash) : NoneAssigned (fun _ => False) s := fun _ _ _ _ _ h => h

theorem setsWithin_none (db : J) : SetsWithin db (fun _ => False) := fun _ _ _ _ h => h.elim

end

/-- the constants are those of `db`, up to the known distros and machines -/
def ConstsOf (db : J) (s : Stash) : Prop := UsableConstants s.consts ∧ OtherNames db s.consts

section
variable {W : World} {g : Str → FileRes} {db : J} {d : Int} {V : Str → Prop}

theorem both_fresh : Both (ConstsOf db) (NoneAssigned V) (fun _ _ => True) freshUid freshUid :=
  Both.any (fun _ _ _ k h => by cases h; exact k) (fun _ _ _ k h => by cases h; exact k) down_fresh down_fresh

theorem addFile_constsOf {n : Nat} {p : Str} {o : Int} {f : Option Str} {s t : Stash} {a : List Item} (k : ConstsOf db s)
    (h : addFile W n p o f s = (.ok a, t)) : ConstsOf db t := by
  have := addFile_grow W n p o f s k.1
  rw [h] at this
  obtain ⟨h1, h2, -⟩ := this
  exact ⟨h1, fun ks k1 k2 k3 k4 => (h2.1 ks k1 k2 k3 k4).trans (k.2 ks k1 k2 k3 k4)⟩

theorem both_add (n n' : Nat) (p p' : Str) (o o' : Int) (f f' : Option Str) :
    Both (ConstsOf db) (NoneAssigned V) (fun _ _ => True) (addFile W n p o f) (addFile (rewritten W g) n' p' o' f') :=
  Both.any (fun _ _ _ k h => addFile_constsOf k h) (fun _ _ _ k h => addFile_constsOf k h) (down_add _ _ _ _) (down_add _ _ _ _)

/-- the other stash with the constants of the first one -/
theorem constsOf_names {s s' : Stash} (k : ConstsOf db s) (k' : ConstsOf db s') : NamesRel s { s with consts := s'.consts } :=
  ⟨_, rfl, k.1, k'.1, fun ks k1 k2 k3 k4 => (k'.2 ks k1 k2 k3 k4).trans (k.2 ks k1 k2 k3 k4).symm⟩

theorem both_ignoreClass (W : World) {s s' : Stash} (k : ConstsOf db s) (k' : ConstsOf db s') : classIgnore s.consts = classIgnore s'.consts :=
  ((twin_names W).ignoreClass (constsOf_names k k')).symm

theorem both_ignoreInclude (W : World) {s s' : Stash} (k : ConstsOf db s) (k' : ConstsOf db s') : includeIgnore s.consts = includeIgnore s'.consts :=
  ((twin_names W).ignoreInclude (constsOf_names k k')).symm

theorem both_functions (W : World) {s s' : Stash} (k : ConstsOf db s) (k' : ConstsOf db s') : functionsKnown s.consts = functionsKnown s'.consts :=
  ((twin_names W).functions (constsOf_names k k')).symm

/-- the constants are usable, and their base set keeps to `V` -/
structure KeepsTo (db : J) (V : Str → Prop) : Prop where
  usable : UsableConstants db
  closed : SetsWithin db V

theorem KeepsTo.setsWithin (W : World) (hv : KeepsTo db V) {s : Stash} (k : ConstsOf db s) : SetsWithin s.consts V := by
  have hk : ConstsOf db { s with consts := db } := ⟨hv.usable, fun _ _ _ _ _ => rfl⟩
  have hs : setsBase s.consts = setsBase db :=
    (twin_names W).sets (s := { s with consts := db }) (s' := s) (constsOf_names hk k)
  intro d n t h
  rw [hs] at h
  exact hv.closed d n t h

theorem both_expand (hv : KeepsTo db V) {s s' : Stash} (k : ConstsOf db s) (k' : ConstsOf db s') (u : NoneAssigned V s) (u' : NoneAssigned V s')
    {f n : Str} (h : RefersWithin V n) : expandTerm W s f n = expandTerm (rewritten W g) s' f n :=
  expandTerm_within (show setsBase s'.consts = setsBase s.consts from
    (twin_names W).sets (s' := { s with consts := s'.consts }) (constsOf_names k k')) (hv.setsWithin W k) u u' f h

theorem shifted_zero (x : Item) : shifted 0 x = content x := by
  unfold shifted content
  simp

/-- the parameters agree except for the line, and a shift of the line in the file -/
def SameParams (d : Int) (p p' : Params) : Prop := { p' with line := p.line, infileline := p'.infileline - d } = p

theorem findLocalOrLayer_rewritten (W : World) (g : Str → FileRes) : findLocalOrLayer (rewritten W g) = findLocalOrLayer W := by
  funext n d
  unfold findLocalOrLayer rewritten
  rw [findLoop_file]

theorem findClass_rewritten (W : World) (g : Str → FileRes) : findClass (rewritten W g) = findClass W := by
  funext dir inh l
  induction l with
  | nil => rfl
  | cons x l ih => rw [findClass, findClass, ih, findLocalOrLayer_rewritten]

macro "down" : tactic => `(tactic| (
  intro _
  with_reducible (repeat' first
    | exact Down.pure _
    | exact Down.lift _
    | exact Down.ask _
    | exact down_fresh
    | exact down_add _ _ _ _
    | exact down_inheritLoop _ _ _ _ _ _ _ _
    | exact down_classify _ _ _ _ _ _
    | exact down_itemsLoop _ _ _ _ _ _
    | refine Down.bind ?_ (fun _ => ?_)
    | split)))

theorem both_inheritLoop (n n' : Nat) (file : Str) (lineno lineno' : Int) (nm : Str) (locs l found : List Str) (off off' : Int) :
    Both (ConstsOf db) (NoneAssigned V) (fun r r' => r.1 = r'.1) (inheritLoop W (addFile W n) file lineno nm locs l found off)
      (inheritLoop (rewritten W g) (addFile (rewritten W g) n') file lineno' nm locs l found off') := by
  induction l generalizing found off off' with
  | nil => exact Both.pure rfl
  | cons i l ih =>
    rw [inheritLoop, inheritLoop, findClass_rewritten]
    refine Both.bind (Both.lift _) (by down) (by down) fun path _ e => ?_
    subst e
    split
    · exact ih _ _ _
    · refine Both.bind (Both.ask fun s s' k k' _ _ => both_ignoreClass W k k') (by down) (by down) fun ign _ e => ?_
      subst e
      split
      · exact ih _ _ _
      · exact Both.bind (both_add _ _ _ _ _ _ _ _) (by down) (by down) fun _ _ _ => ih _ _ _

theorem content_mkItemD {uid uid' : Nat} {p p' : Params} (h : SameParams d p p') (dl : Char) (pl : Payload) :
    shifted d (mkItemD uid p dl pl) = content (mkItemD uid' p' dl pl) := by
  unfold SameParams at h
  rw [← h]
  unfold shifted content mkItemD
  simp

theorem sameParams_style {p p' : Params} (h : SameParams d p p') : p.newStyle = p'.newStyle ∧ p.rawtext = p'.rawtext := by
  unfold SameParams at h
  rw [← h]
  exact ⟨rfl, rfl⟩

theorem content_mkItem {uid uid' : Nat} {p p' : Params} (h : SameParams d p p') (pl : Payload) :
    shifted d (mkItem uid p pl) = content (mkItem uid' p' pl) := by
  unfold mkItem
  rw [(sameParams_style h).1]
  exact content_mkItemD h _ _

/-- the same outcome of a pattern, up to `Line` and identity -/
def SameOutcome (d : Int) (r r' : Option (Item × Int)) : Prop := r.map (fun x => shifted d x.1) = r'.map (fun x => content x.1)

theorem both_handleKind (hv : KeepsTo db V) (n n' : Nat) (file : Str) (lineno lineno' : Int) {p p' : Params} (hp : SameParams d p p') (k : Kind) (pat : Pattern)
    (m : Mt) (hi : k = .include → RefersWithin V ((pat.group m c!"incname").getD []))
    (hj : k = .inherit ∨ k = .inheritGlob → RefersWithin V ((pat.group m c!"inhname").getD [])) :
    Both (ConstsOf db) (NoneAssigned V) (SameOutcome d) (handleKind W (addFile W n) file lineno p k pat m)
      (handleKind (rewritten W g) (addFile (rewritten W g) n') file lineno' p' k pat m) := by
  have hsimple : ∀ pl : Payload, Both (ConstsOf db) (NoneAssigned V) (SameOutcome d)
      (do let uid ← freshUid; pure (some (mkItem uid p pl, 0)) : M (Option (Item × Int)))
      (do let uid ← freshUid; pure (some (mkItem uid p' pl, 0)) : M (Option (Item × Int))) := fun pl =>
    Both.bind both_fresh (by down) (by down) fun _ _ _ => Both.pure (congrArg some (content_mkItem hp pl))
  unfold handleKind
  rw [findLocalOrLayer_rewritten]
  cases k <;> simp only
  case vars =>
    refine Both.bind both_fresh (by down) (by down) fun _ _ _ => Both.pure (congrArg some ?_)
    simp only [mkVariable, (sameParams_style hp).1]
    exact content_mkItemD hp _ _
  case func =>
    refine Both.bind (Both.ask fun s s' k k' _ _ => both_functions W k k') (by down) (by down) fun known _ e => ?_
    subst e
    refine Both.bind both_fresh (by down) (by down) fun _ _ _ => Both.pure (congrArg some ?_)
    simp only [mkFunction, (sameParams_style hp).1, (sameParams_style hp).2]
    exact content_mkItemD hp _ _
  case «inherit» =>
    refine Both.bind (Both.ask fun s s' k k' u u' => both_expand hv k k' u u' (hj (.inl rfl))) (by down) (by down) fun nm _ e => ?_
    subst e
    refine Both.bind (both_inheritLoop _ _ _ _ _ _ _ _ _ _ _) (by down) (by down) fun r r' e => Both.bind both_fresh (by down) (by down) fun _ _ _ => Both.pure (congrArg some ?_)
    obtain ⟨a, b⟩ := r
    obtain ⟨a', b'⟩ := r'
    simp only at e
    subst e
    exact content_mkItem hp _
  case inheritGlob =>
    refine Both.bind (Both.ask fun s s' k k' u u' => both_expand hv k k' u u' (hj (.inr rfl))) (by down) (by down) fun nm _ e => ?_
    subst e
    refine Both.bind (both_inheritLoop _ _ _ _ _ _ _ _ _ _ _) (by down) (by down) fun r r' e => Both.bind both_fresh (by down) (by down) fun _ _ _ => Both.pure (congrArg some ?_)
    obtain ⟨a, b⟩ := r
    obtain ⟨a', b'⟩ := r'
    simp only at e
    subst e
    exact content_mkItem hp _
  case addtask =>
    split
    · exact Both.pure rfl
    · exact Both.bind both_fresh (by down) (by down) fun _ _ _ => Both.pure (congrArg some (content_mkItem hp _))
  case deltask => exact Both.bind both_fresh (by down) (by down) fun _ _ _ => Both.pure (congrArg some (content_mkItem hp _))
  case «include» =>
    refine Both.bind (Both.ask fun s s' k k' u u' => both_expand hv k k' u u' (hi rfl)) (by down) (by down) fun nm _ e => ?_
    subst e
    refine Both.bind (Both.lift _) (by down) (by down) fun path _ e => ?_
    subst e
    split
    · exact hsimple _
    · refine Both.bind (Both.ask fun s s' k k' _ _ => both_ignoreInclude W k k') (by down) (by down) fun ign _ e => ?_
      subst e
      split
      · exact Both.pure rfl
      · exact Both.bind (both_add _ _ _ _ _ _ _ _) (by down) (by down) fun _ _ _ => Both.bind both_fresh (by down) (by down) fun _ _ _ => Both.pure (congrArg some (content_mkItem hp _))
  all_goals exact hsimple _

theorem both_classify (hv : KeepsTo db V) (n n' : Nat) (file : Str) (lineno lineno' : Int) {p p' : Params} (hp : SameParams d p p') (cnt : Str)
    (l : List (Kind × Pattern))
    (hi : ∀ k pat m, (k, pat) ∈ l → reMatch pat.re cnt = some m → k = .include →
      RefersWithin V ((pat.group m c!"incname").getD []))
    (hj : ∀ k pat m, (k, pat) ∈ l → reMatch pat.re cnt = some m → k = .inherit ∨ k = .inheritGlob →
      RefersWithin V ((pat.group m c!"inhname").getD [])) :
    Both (ConstsOf db) (NoneAssigned V) (fun r r' => shifted d r.1 = content r'.1) (classify W (addFile W n) file lineno p cnt l)
      (classify (rewritten W g) (addFile (rewritten W g) n') file lineno' p' cnt l) := by
  induction l with
  | nil =>
    rw [classify, classify]
    exact Both.bind both_fresh (by down) (by down) fun _ _ _ => Both.pure (content_mkItem hp _)
  | cons kp l ih =>
    obtain ⟨k, pat⟩ := kp
    have ih := ih (fun k pat m h => hi k pat m (by simp [h])) (fun k pat m h => hj k pat m (by simp [h]))
    rw [classify, classify]
    cases hm : reMatch pat.re cnt with
    | none => exact ih
    | some m =>
      refine Both.bind (both_handleKind hv n n' file lineno lineno' hp k pat m (hi k pat m (by simp) hm) (hj k pat m (by simp) hm)) (by down) (by down)
        fun r r' e => ?_
      unfold SameOutcome at e
      cases r with
      | none =>
        cases r' with
        | none => exact ih
        | some x => cases e
      | some x =>
        cases r' with
        | none => cases e
        | some y => exact Both.pure (Option.some.inj e)

/-- the same chunk of a file that was read with another offset, `d` lines further below -/
def SameChunk (d off off' : Int) (c c' : Chunk) : Prop :=
  c.cnt = c'.cnt ∧ c.raw = c'.raw ∧ c.realraw = c'.realraw ∧ c.inlineBlocks = c'.inlineBlocks ∧ c.line - off + d = c'.line - off'

theorem prepareLines_shift {file : Str} {neg : Bool} {off off' : Int} {cs cs' : List Chunk} (h : prepareLines W file off neg = .ok cs)
    (h' : prepareLines W file off' neg = .ok cs') : List.Forall₂ (SameChunk 0 off off') cs cs' := by
  unfold prepareLines at h h'
  cases hf : W.file file with
  | notFound => rw [hf] at h h'; cases h; cases h'; exact .nil
  | denied => rw [hf] at h; cases h
  | fails => rw [hf] at h; cases h
  | text t =>
    rw [hf] at h h'
    obtain ⟨gs, h1, h2⟩ := chunksOf_ok_iff.1 h
    obtain ⟨gs', h3, h4⟩ := chunksOf_ok_iff.1 h'
    have : gs = gs' := groups_unique (fun l hl => readlines_isLine hl) h1 h3
    subst this
    subst h2 h4
    generalize 1 = num
    clear h1 h3 h h'
    induction gs generalizing num with
    | nil => exact .nil
    | cons g gs ih =>
      refine .cons ⟨rfl, rfl, rfl, rfl, ?_⟩ (ih _)
      simp only [mkChunk]
      omega

theorem sameChunk_params {off off' : Int} {c c' : Chunk} (h : SameChunk d off off' c c') (file : Str) (i i' : Int) (ns : Bool) :
    SameParams d (chunkParams file off i ns c) (chunkParams file off' i' ns c') := by
  obtain ⟨h1, h2, h3, h4, h5⟩ := h
  unfold SameParams chunkParams
  simp only [h2, h3, h4, ← h5]
  simp

theorem isNewStyle_content {x y : Item} (h : shifted d x = content y) : x.isNewStyle = y.isNewStyle := by
  have : (shifted d x).delim = (content y).delim := by rw [h]
  unfold Item.isNewStyle
  rw [show x.delim = y.delim from this]

theorem both_itemsLoop (hv : KeepsTo db V) (n n' : Nat) (file : Str) (hw : FileWithin W V file) {off off' lo : Int} {neg : Bool} {all : List Chunk}
    (hp : prepareLines W file lo neg = .ok all) (i i' : Int) (ns : Bool) {cs cs' : List Chunk} (hc : List.Forall₂ (SameChunk d off off') cs cs')
    (hcs : ∀ c ∈ cs, c ∈ all) :
    Both (ConstsOf db) (NoneAssigned V) (fun r r' => r.map (shifted d) = r'.map content) (itemsLoop W (addFile W n) file off i ns cs)
      (itemsLoop (rewritten W g) (addFile (rewritten W g) n') file off' i' ns cs') := by
  induction hc generalizing i i' ns with
  | nil => exact Both.pure rfl
  | @cons c c' cs cs' hc _ ih =>
    rw [itemsLoop, itemsLoop, ← hc.1]
    refine Both.bind (both_classify hv n n' file _ _ (sameChunk_params hc _ _ _ _) _ _ ?_ ?_) (by down) (by down) fun r r' e => ?_
    · rintro k pat m hmem hm rfl
      have : pat = reInclude := by
        simp only [parseOrder, List.mem_cons, Prod.mk.injEq, reduceCtorEq, false_and, true_and, false_or, or_false,
          List.not_mem_nil] at hmem
        exact hmem
      subst this
      exact hw _ (.inl ⟨lo, neg, all, c, m, hp, hcs c (by simp), hm, rfl⟩)
    · rintro k pat m hmem hm (rfl | rfl)
      · have : pat = reInherit := by
          simp only [parseOrder, List.mem_cons, Prod.mk.injEq, reduceCtorEq, false_and, true_and, false_or, or_false,
            List.not_mem_nil] at hmem
          exact hmem
        subst this
        exact hw _ (.inr ⟨lo, neg, all, c, m, hp, hcs c (by simp), Or.inl ⟨hm, rfl⟩⟩)
      · have : pat = reInheritGlob := by
          simp only [parseOrder, List.mem_cons, Prod.mk.injEq, reduceCtorEq, false_and, true_and, false_or, or_false,
            List.not_mem_nil] at hmem
          exact hmem
        subst this
        exact hw _ (.inr ⟨lo, neg, all, c, m, hp, hcs c (by simp), Or.inr ⟨hm, rfl⟩⟩)
    · simp only
      rw [← isNewStyle_content e]
      refine Both.bind (ih _ _ _ fun c h => hcs c (by simp [h])) (by down) (by down) fun l l' e' => Both.pure ?_
      simp only [List.map_cons, e, e']

theorem crossLink_content {file : Str} {its r : List Item} {s t : Stash} (h : crossLink file its s = (.ok r, t)) :
    r.map content = its.map content := by
  unfold crossLink at h
  split at h
  · rw [M.bind_def] at h
    simp only [M.get] at h
    rw [M.bind_def] at h
    split at h
    · cases h
      simp only [List.map_map]
      rfl
    · cases h
  · split at h
    · rw [M.bind_def] at h
      simp only [M.get] at h
      rw [M.bind_def] at h
      split at h
      · cases h; rfl
      · cases h
    · cases h; rfl

theorem addFile_content (hv : KeepsTo db V) {n n' : Nat} {path : Str} (hw : FileWithin W V (abspath W.cwd path)) {off off' : Int}
    {forced forced' : Option Str} {s s' t t' : Stash} {r r' : List Item} (k : ConstsOf db s) (k' : ConstsOf db s') (u : NoneAssigned V t)
    (u' : NoneAssigned V t') (hns : s'.newStyle = s.newStyle)
    (hneg : s'.negative = s.negative) (hnew : alreadySeen s (abspath W.cwd path) = false)
    (hnew' : alreadySeen s' (abspath W.cwd path) = false) (h : addFile W n path off forced s = (.ok r, t))
    (h' : addFile W n' path off' forced' s' = (.ok r', t')) : r.map content = r'.map content := by
  cases n with
  | zero => cases h
  | succ n =>
  cases n' with
  | zero => cases h'
  | succ n' =>
  obtain ⟨hs, -⟩ | ⟨-, ⟨ok⟩⟩ := addFile_ok W h
  · rw [hnew] at hs; cases hs
  obtain ⟨hs, -⟩ | ⟨-, ⟨ok'⟩⟩ := addFile_ok W h'
  · rw [hnew'] at hs; cases hs
  have e1 := ok.loop
  have e2 := ok'.loop
  have p2 := ok'.prep
  rw [hns] at e2
  rw [hneg] at p2
  have key := both_itemsLoop (g := W.file) (d := 0) hv n n' _ hw ok.prep 0 0 s.newStyle (prepareLines_shift ok.prep p2) (fun c h => h)
  have key := (key.main _ _ _ _ _ _ (show ConstsOf db (markSeen s _) from k) (show ConstsOf db (markSeen s' _) from k') (down_addOk ok u)
    (down_addOk ok' u') e1 e2).1
  rw [show shifted 0 = content from funext shifted_zero] at key
  rw [crossLink_content ok.cross, crossLink_content ok'.cross, key]

theorem settings_step (W : World) : StepRel W (fun s s' => s'.newStyle = s.newStyle ∧ s'.negative = s.negative) :=
  ⟨fun _ => ⟨rfl, rfl⟩, fun _ _ _ h1 h2 => ⟨h2.1.trans h1.1, h2.2.trans h1.2⟩, fun _ => ⟨rfl, rfl⟩, fun _ _ => ⟨rfl, rfl⟩,
    fun _ _ _ => ⟨rfl, rfl⟩, fun _ _ _ => ⟨rfl, rfl⟩, fun _ _ _ => ⟨rfl, rfl⟩, fun _ _ => ⟨rfl, rfl⟩, fun _ _ => ⟨rfl, rfl⟩⟩

theorem history_settings {P : Call → Prop} {s s' : Stash} (h : History W P s s') :
    s'.newStyle = s.newStyle ∧ s'.negative = s.negative :=
  history_frame (settings_step W) (fun _ _ => ⟨rfl, rfl⟩) (fun _ _ => ⟨rfl, rfl⟩) h

theorem history_constsOf {P : Call → Prop} {s s' : Stash} (h : History W P s s') (hu : UsableConstants s.consts) : ConstsOf s.consts s' := by
  obtain ⟨h1, h2⟩ := history_consts h hu
  exact ⟨h1, fun ks k1 k2 k3 k4 => h2.1 ks k1 k2 k3 k4⟩

end
end Oelint

import Verif.Lemmas.TwoCached
import Verif.Lemmas.Finalize
import Verif.Lemmas.ExpandVar
import Verif.Lemmas.Unique
import Verif.Spec.Reproducible
/-! Two runs with different orders of sets (C91). -/
set_option linter.unusedSectionVars false
set_option linter.unusedSimpArgs false
namespace Oelint
variable [Uni]
open Spec

/-! ## sorted lists -/

theorem lineLe_sorted (l : List Item) : (sortBy lineLe l).Pairwise (fun a b => a.line ≤ b.line) :=
  (sortBy_sorted (fun a b => by simp only [lineLe, decide_eq_true_eq]; omega)
    (fun a b c h1 h2 => by simp only [lineLe, decide_eq_true_eq] at *; omega) l).imp
      (fun h => by simpa [lineLe] using h)

/-- a list without ties has one order only -/
theorem sortBy_unique {l l' : List Item} (hp : l.Perm l') (h : ∀ x ∈ l, ∀ y ∈ l, x.line = y.line → x = y) :
    sortBy lineLe l' = sortBy lineLe l := by
  have hp' : (sortBy lineLe l').Perm (sortBy lineLe l) := ((sortBy_perm _ _).trans hp.symm).trans (sortBy_perm _ _).symm
  refine hp'.eq_of_pairwise (le := fun a b : Item => a.line ≤ b.line) ?_ (lineLe_sorted _) (lineLe_sorted _)
  intro a b ha hb h1 h2
  rw [mem_sortBy] at ha hb
  exact h a (hp.mem_iff.2 ha) b hb (by omega)

theorem reduceL_perm (W W' : World) (s : Stash) (l : List Item) (f : Filter) : (reduceL W' s l f).Perm (reduceL W s l f) := by
  unfold reduceL
  exact ((sortBy_perm _ _).trans (W'.itemOrder_perm _)).trans ((sortBy_perm _ _).trans (W.itemOrder_perm _)).symm

theorem getItemsFor_order (W W' : World) (s : Stash) (f : Filter) (h : NoTies s f.filename) :
    getItemsFor W' s f = getItemsFor W s f := by
  unfold getItemsFor reduceL
  refine sortBy_unique ((W.itemOrder_perm _).trans (W'.itemOrder_perm _).symm) ?_
  intro x hx y hy hl
  rw [(W.itemOrder_perm _).mem_iff, mem_dedup, applyFilter_eq, List.mem_filter, keeps_iff] at hx hy
  have hs : ∀ z, Selected s f z → ∀ g, f.filename = some g → g ≠ [] → LinkedTo s g false z := by
    intro z hz g hg hne
    rcases hz.file g hg hne with h | ⟨_, h⟩
    · exact .inl h
    · exact .inr ⟨rfl, h⟩
  exact h x hx.1 y hy.1 (hs x hx.2) (hs y hy.2) hl

theorem noTies_some {s : Stash} (h : NoTies s none) (f : Option Str) : NoTies s f :=
  fun x hx y hy _ _ hl => h x hx y hy (fun _ h => by cases h) (fun _ h => by cases h) hl

/-! ## questions -/

section
variable {W : World} {io : List Item → List Item} {hio : ∀ l, (io l).Perm l} {so : List Str → List Str} {hso : ∀ l, (so l).Perm l}

theorem readFiles_order (rec : Str → Seen → Except PyErr (Str × Seen)) (l : List Mt) (res : Str) (sn : Seen) :
    readFiles (reordered W io hio so hso) rec l res sn = readFiles W rec l res sn :=
  readFiles_same (fun p => by show SameRead (W.file p) (W.file p); cases W.file p <;> rfl) rec l res sn

theorem expandTermF_order {s : Stash} {f : Str} (h : NoTies s (some f)) (n : Nat) (sp : List Str) (v : Str) (sn : Seen) :
    expandTermF (reordered W io hio so hso) s n f sp v sn = expandTermF W s n f sp v sn := by
  have ha : ∀ n, assignments (reordered W io hio so hso) s f n = assignments W s f n := fun n => by
    unfold assignments; rw [getItemsFor_order W (reordered W io hio so hso) s (varFilter f n) h]
  induction n generalizing sp v sn with
  | zero => rfl
  | succ n ih =>
    have hone : ∀ b rec q m res sn, expandOne (reordered W io hio so hso) s b rec f sp q m res sn = expandOne W s b rec f sp q m res sn := by
      intro b rec q m res sn
      have hs : ∀ n, sourceOf (reordered W io hio so hso) s b f n q = sourceOf W s b f n q := fun n => by unfold sourceOf; rw [ha]
      unfold expandOne
      simp only [hs]
    have hmany : ∀ b rec q l res sn, expandMany (reordered W io hio so hso) s b rec f sp q l res sn = expandMany W s b rec f sp q l res sn := by
      intro b rec q l
      induction l with
      | nil => intros; rfl
      | cons m l ihl =>
        intro res sn
        rw [expandMany, expandMany, hone]
        split
        · rfl
        · exact ihl _ _
    rw [expandTermF, expandTermF]
    simp only [hmany, ih, readFiles_order]

theorem expandTermS_order {s : Stash} {f : Str} (h : NoTies s (some f)) (sp : List Str) (v : Str) :
    expandTermS (reordered W io hio so hso) s f sp v = expandTermS W s f sp v := by
  unfold expandTermS
  rw [expandTermF_order h]

theorem explode_order {s : Stash} {f : Str} (h : NoTies s (some f)) (d : ExpDict) (acc : List (Str × List Str)) :
    explode (reordered W io hio so hso) s f d acc = explode W s f d acc := by
  induction d generalizing acc with
  | nil => rfl
  | cons kv d ih =>
    obtain ⟨k, v⟩ := kv
    unfold explode expandTerm
    rw [expandTermS_order h, expandTermS_order h]
    split
    · rfl
    · split
      · rfl
      · exact ih _

theorem expandVar_order {s : Stash} {f : Option Str} (h : NoTies s f) (a v : Arg) (b : Bool) :
    expandVar (reordered W io hio so hso) s f a v b = expandVar W s f a v b := by
  have hi : expandVarItems (reordered W io hio so hso) s f a v b = expandVarItems W s f a v b := by
    unfold expandVarItems
    rw [getItemsFor_order W (reordered W io hio so hso) s _ h, getItemsFor_order W (reordered W io hio so hso) s _ h]
  unfold expandVar
  simp only [hi]
  split
  · rfl
  · rename_i file hf
    have hn : NoTies s (some file) := by
      cases f with
      | none => exact noTies_some h _
      | some g => cases hf; exact h
    split
    · rfl
    · exact explode_order hn _ _

theorem packageLoop_order {s : Stash} {f : Str} (h : NoTies s (some f)) (pn : Str) (b : Bool) (l : List VarData) (res : List Str) :
    packageLoop (reordered W io hio so hso) s f pn b l res = packageLoop W s f pn b l res := by
  induction l generalizing res with
  | nil => rfl
  | cons v l ih =>
    unfold packageLoop packageWords
    rw [expandTermS_order h]
    split
    · rfl
    · exact ih _

theorem namedLoop_order (s : Stash) (pn : Str) (l res : List Str) :
    namedLoop (reordered W io hio so hso) s pn l res = namedLoop W s pn l res := by
  induction l generalizing res with
  | nil => rfl
  | cons w l ih =>
    rw [namedLoop, namedLoop]
    have : getScrComponents (reordered W io hio so hso) s w = getScrComponents W s w := rfl
    rw [this]
    simp only [ih]

theorem dynLoop_order {s : Stash} {f : Str} (h : NoTies s (some f)) (l : List VarData) (res : List Str) :
    dynLoop (reordered W io hio so hso) s f l res = dynLoop W s f l res := by
  induction l generalizing res with
  | nil => rfl
  | cons v l ih =>
    unfold dynLoop expandTerm
    rw [expandTermS_order h]
    split
    · rfl
    · exact ih _

theorem getPackagesDynamic_order {s : Stash} {f : Str} (h : NoTies s (some f)) :
    getPackagesDynamic (reordered W io hio so hso) s f = getPackagesDynamic W s f := by
  unfold getPackagesDynamic
  rw [getItemsFor_order W (reordered W io hio so hso) s (varFilter f _) h, dynLoop_order h]

theorem about_order {s : Stash} {q : Question} {f : Option Str} (hq : q.about = some f) (h : NoTies s f) :
    q.fresh (reordered W io hio so hso) s = q.fresh W s := by
  cases q <;> simp only [Question.about, reduceCtorEq, Option.some.injEq] at hq <;> subst hq <;> unfold Question.fresh <;> simp only
  case itemsFor f => rw [getItemsFor_order W (reordered W io hio so hso) s f h]
  case expandTerm => rw [expandTermS_order h]
  case expandVar => rw [expandVar_order h]
  case packageNames f b =>
    unfold getValidPackageNames
    simp only [getItemsFor_order W (reordered W io hio so hso) s (varFilter f _) h, packageLoop_order h]
  case namedResources f =>
    unfold getValidNamedResources
    simp only [getItemsFor_order W (reordered W io hio so hso) s (varFilter f _) h, namedLoop_order]
  case packagesDynamic f => rw [getPackagesDynamic_order h]

theorem any_perm {α : Type} {l l' : List α} (h : l.Perm l') (p : α → Bool) : l.any p = l'.any p := by
  rw [Bool.eq_iff_iff, List.any_eq_true, List.any_eq_true]
  exact ⟨fun ⟨x, hx, hp⟩ => ⟨x, h.mem_iff.1 hx, hp⟩, fun ⟨x, hx, hp⟩ => ⟨x, h.mem_iff.2 hx, hp⟩⟩

theorem getItemsFor_reorder (s : Stash) (f : Filter) : (getItemsFor (reordered W io hio so hso) s f).Perm (getItemsFor W s f) :=
  reduceL_perm _ _ s s.items f

theorem ordered_unique {l l' : List Str} (hp : l.Perm l') (h : Ordered l) (h' : Ordered l') : l = l' :=
  hp.eq_of_pairwise (fun _ _ _ _ h1 h2 => List.le_antisymm h1 h2) h h'

theorem sortNames_unique {l l' : List Str} (hp : l.Perm l') : sortBy strLe l = sortBy strLe l' :=
  ordered_unique (((sortBy_perm _ _).trans hp).trans (sortBy_perm _ _).symm) (ordered_sortBy _) (ordered_sortBy _)

theorem dedup_perm {α : Type} [BEq α] [LawfulBEq α] [DecidableEq α] {l l' : List α} (h : ∀ x, x ∈ l ↔ x ∈ l') : (dedup l).Perm (dedup l') :=
  (List.perm_ext_iff_of_nodup (nodup_dedup _) (nodup_dedup _)).2 fun x => by rw [mem_dedup, mem_dedup, h]

theorem getFiles_order (s : Stash) (f p : Str) : getFiles (reordered W io hio so hso) s f p = getFiles W s f p := by
  unfold getFiles
  refine sortNames_unique (dedup_perm fun x => ?_)
  show x ∈ (((dedup _).map W.glob).flatten) ↔ _
  simp only [List.mem_flatten, List.mem_map, mem_dedup, List.mem_append]
  have h1 : ∀ y, y ∈ getItemsFor (reordered W io hio so hso) s (varFilter f c!"SRC_URI") ↔ y ∈ getItemsFor W s (varFilter f c!"SRC_URI") :=
    fun y => (getItemsFor_reorder s _).mem_iff
  have h2 : ∀ (g : Filter) y, y ∈ getItemsFor (reordered W io hio so hso) s g ↔ y ∈ getItemsFor W s g :=
    fun g y => (getItemsFor_reorder s g).mem_iff
  constructor
  · rintro ⟨l, ⟨a, ha, rfl⟩, hx⟩
    refine ⟨_, ⟨a, ?_, rfl⟩, hx⟩
    rcases ha with ⟨y, hy, rfl⟩ | ⟨l, ⟨y, hy, rfl⟩, ha⟩
    · exact .inl ⟨y, (h1 y).1 hy, rfl⟩
    · obtain ⟨z, hz, rfl⟩ := List.mem_map.1 ha
      exact .inr ⟨_, ⟨y, (h1 y).1 hy, rfl⟩, List.mem_map.2 ⟨z, (h2 _ z).1 hz, rfl⟩⟩
  · rintro ⟨l, ⟨a, ha, rfl⟩, hx⟩
    refine ⟨_, ⟨a, ?_, rfl⟩, hx⟩
    rcases ha with ⟨y, hy, rfl⟩ | ⟨l, ⟨y, hy, rfl⟩, ha⟩
    · exact .inl ⟨y, (h1 y).2 hy, rfl⟩
    · obtain ⟨z, hz, rfl⟩ := List.mem_map.1 ha
      exact .inr ⟨_, ⟨y, (h1 y).2 hy, rfl⟩, List.mem_map.2 ⟨z, (h2 _ z).2 hz, rfl⟩⟩

theorem settled_order {s : Stash} {q : Question} (hq : q.settled = true) : q.fresh (reordered W io hio so hso) s = q.fresh W s := by
  cases q <;> simp only [Question.settled, Bool.false_eq_true] at hq <;> unfold Question.fresh <;> try simp only
  case files f p => rw [getFiles_order]
  case scrComponents => rfl
  case isImage f =>
    unfold isImage
    have h : ∀ v, (getItemsFor (reordered W io hio so hso) s (varFilter f v)).isEmpty = (getItemsFor W s (varFilter f v)).isEmpty :=
      fun v => (getItemsFor_reorder s _).isEmpty_eq
    simp only [any_perm (getItemsFor_reorder (W := W) (hio := hio) (hso := hso) s (inheritFilter f)), h]
  case isPackageGroup f =>
    unfold isPackageGroup
    rw [any_perm (getItemsFor_reorder (W := W) (hio := hio) (hso := hso) s (inheritFilter f))]

/-! ## AddFile -/

theorem findLoop_order (name : Str) (n : Nat) (cur : Str) :
    findLoop (reordered W io hio so hso) name n cur = findLoop W name n cur := by
  induction n generalizing cur with
  | zero => rfl
  | succ n ih => rw [findLoop, findLoop]; simp only [ih]; rfl

theorem layerRootLoop_order (n : Nat) (cur : Str) :
    layerRootLoop (reordered W io hio so hso) n cur = layerRootLoop W n cur := by
  induction n generalizing cur with
  | zero => rfl
  | succ n ih => rw [layerRootLoop, layerRootLoop]; simp only [ih]; rfl

/-- the states of two runs that add the items `l` to the fingerprint, and agree in all else -/
def SameButHash (W W' : World) (h : Str) (s s' : Stash) : Prop :=
  ∃ l : List Item, s.hashed = h ++ (l.map W.repr).flatten ∧ s' = { s with hashed := h ++ (l.map W'.repr).flatten }

theorem alike_order (hw : PlainLoads W) (hh : Str) :
    Alike W (reordered W io hio so hso) (SameButHash W (reordered W io hio so hso) hh) where
  cwd := rfl
  find := fun n d => by unfold findLocalOrLayer; rw [findLoop_order]; rfl
  root := fun n => by unfold getLayerRoot layerStart; rw [layerRootLoop_order]; rfl
  glob := fun _ => rfl
  core := by rintro s _ ⟨l, e, rfl⟩; exact ⟨rfl, rfl, rfl, rfl, rfl, rfl⟩
  set := by rintro s _ ⟨l, e, rfl⟩; intros; exact ⟨l, e, rfl⟩
  say := by rintro s _ ⟨l, e, rfl⟩ f; exact ⟨l, e, rfl⟩
  hash := by
    rintro s _ ⟨l, e, rfl⟩ k
    exact ⟨l ++ k, by simp [e], by simp⟩
  conf := by rintro s _ ⟨l, e, rfl⟩; intros; exact ⟨rfl, l, e, rfl⟩
  ignoreClass := by rintro s _ ⟨l, e, rfl⟩; rfl
  ignoreInclude := by rintro s _ ⟨l, e, rfl⟩; rfl
  functions := by rintro s _ ⟨l, e, rfl⟩; rfl
  prep := by rintro s _ ⟨l, e, rfl⟩ f off; rfl
  expand := by
    rintro s _ ⟨l, e, rfl⟩ f n hn
    obtain ⟨h1, h2⟩ := hw f n hn
    cases hb : setsBase s.consts with
    | ok b =>
      have hp : ∀ (W : World) (h : Str), expandTerm W { s with hashed := h } f n = .ok n := fun W h => expandTerm_plain hb h1 h2
      exact (hp _ _).trans (hp W s.hashed).symm
    | error e =>
      have : ∀ (W : World) (h : Str), expandTerm W { s with hashed := h } f n = .error e := by
        intro W h
        unfold expandTerm expandTermS
        cases hn : expandBound { s with hashed := h } n with
        | zero => exact absurd hn (by unfold expandBound; omega)
        | succ k =>
          rw [expandTermF, show setsBase ({ s with hashed := h } : Stash).consts = .error e from hb]
          rfl
      rw [this]
      exact (this W s.hashed).symm

/-! ## Finalize -/

/-- the same keys, and the same links up to their order -/
def SameLinks (m m' : List (Str × List Str)) : Prop := m'.map (·.1) = m.map (·.1) ∧ ∀ k x, x ∈ lk m' k ↔ x ∈ lk m k

theorem closeSteps_same {ks : List Str} {m n m' n' : List (Str × List Str)} (h : SameLinks m n) (h1 : CloseSteps ks m m')
    (h2 : CloseSteps ks n n') : SameLinks m' n' := by
  induction h1 generalizing n with
  | nil => cases h2; exact h
  | @cons k ks m m1 m' hs _ ih =>
    cases h2 with
    | @cons _ _ _ n1 _ hs' h2 =>
      refine ih ⟨by rw [hs.keys, hs'.keys, h.1], fun j x => ?_⟩ h2
      by_cases hj : j = k
      · subst hj
        rw [hs.mem, hs'.mem]
        simp only [h.2]
      · have e1 : lk m1 j = lk m j := by unfold lk; rw [hs.other j hj]
        have e2 : lk n1 j = lk n j := by unfold lk; rw [hs'.other j hj]
        rw [e1, e2, h.2]

end

theorem anyMatch_all {e : Str} {l : List Str} (h : ∀ p ∈ l, ∃ b, matchDyn p e = .ok b) :
    anyMatch e l = .ok (l.any fun p => matchDyn p e == .ok true) := by
  induction l with
  | nil => rfl
  | cons p l ih =>
    obtain ⟨b, hb⟩ := h p (by simp)
    rw [anyMatch, hb]
    cases b with
    | true => simp [hb]
    | false => rw [show anyMatch e l = _ from ih fun q hq => h q (by simp [hq])]; simp [hb]

theorem anyMatch_perm {e : Str} {l l' : List Str} (hp : l.Perm l') (h : ∀ p ∈ l, ∃ b, matchDyn p e = .ok b) :
    anyMatch e l = anyMatch e l' := by
  rw [anyMatch_all h, anyMatch_all fun p hm => h p (hp.mem_iff.2 hm), any_perm hp]

/-- what `Finalize` makes of the items -/
theorem finalize_items {W : World} {s s' : Stash} (hg : GoodKeys s) (h1 : finalize W s = (.ok (), s')) :
    List.Forall₂ (fun a b : Item => b = { a with includedFrom := b.includedFrom } ∧
      ∀ f, f ∈ b.includedFrom ↔ f ∈ a.includedFrom ∨ ∃ k, f ∈ links s' k ∧ a.origin ∈ links s' k) s.items s'.items := by
  obtain ⟨h2, h3⟩ := finalize_ok h1
  have hkeys : s'.map.map (·.1) = keys s := h2.keys
  have h4 := includedLoop_spec W s'.map { s with map := s'.map } (by
    rintro ⟨k, v⟩ hkv rfl
    exact hg.2 (hkeys ▸ List.mem_map.2 ⟨_, hkv, rfl⟩))
  rw [← h3] at h4
  refine forall₂_mono ?_ h4
  rintro a b ⟨h5, h6⟩
  refine ⟨h5, fun f => ?_⟩
  rw [h6]
  apply or_congr_right
  constructor
  · rintro ⟨k, v, hkv, hf, ho⟩
    have hk : k ∈ keys s := hkeys ▸ List.mem_map.2 ⟨_, hkv, rfl⟩
    have hv : lk s'.map k = v := by
      unfold lk
      rw [dget_of_mem (by rw [hkeys]; exact hg.1) hkv]
      rfl
    refine ⟨k, by rw [links_eq, hv]; exact hf, ?_⟩
    rcases ho with ho | ho
    · rw [ho]; exact (h2.two hk).1
    · exact ho
  · rintro ⟨k, hf, ho⟩
    obtain ⟨v, hv, hf⟩ := mem_links.1 hf
    exact ⟨k, v, dget_mem hv, hf, Or.inr ho⟩

end Oelint

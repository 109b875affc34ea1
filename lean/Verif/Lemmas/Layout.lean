import Verif.Spec.Layout
import Verif.Lemmas.Undisturbed
import Verif.Lemmas.Reproducible
/-! Answers depend on `Line` through the order only (C107). -/
set_option linter.unusedSectionVars false
set_option linter.unusedSimpArgs false
namespace Oelint
variable [Uni]
open Spec

/-- the items say the same -/
def Same (x y : Item) : Prop := said x = said y

/-- an attribute without numbers -/
def hideInt : Attr → Attr
  | .int _ => .int 0
  | a => a

theorem getAttributes_said (x : Item) : (said x).getAttributes.map (fun kv => (kv.1, hideInt kv.2)) = x.getAttributes.map (fun kv => (kv.1, hideInt kv.2)) := by
  unfold Item.getAttributes
  rw [List.map_append, List.map_append]
  rfl

theorem dget_mapSnd {α β : Type} (g : α → β) (n : Str) (l : List (Str × α)) : dget n (l.map (fun kv => (kv.1, g kv.2))) = (dget n l).map g := by
  induction l with
  | nil => rfl
  | cons kv l ih =>
    obtain ⟨k, v⟩ := kv
    simp only [List.map_cons, dget]
    split
    · rfl
    · exact ih

theorem attrFilter_said (x : Item) (a v : List Str) : attrFilter (said x) a v = attrFilter x a v := by
  unfold attrFilter
  congr 1
  funext name
  have h := dget_mapSnd hideInt name (said x).getAttributes
  rw [getAttributes_said, dget_mapSnd] at h
  have key : ∀ b : Attr, ∀ w : Str, (Attr.str w == b) = (Attr.str w == hideInt b) := by
    intro b w
    cases b <;> simp [hideInt]
  revert h
  generalize dget name x.getAttributes = o
  generalize dget name (said x).getAttributes = o'
  intro h
  cases o with
  | none => cases o' with
    | none => rfl
    | some b' => simp at h
  | some b => cases o' with
    | none => simp at h
    | some b' =>
      simp only [Option.map_some, Option.some.injEq] at h
      simp only
      congr 1
      congr 1
      funext w
      rw [key b', key b, h]

theorem keeps_said {s s' : Stash} (hm : s'.map = s.map) (g : Filter) {x y : Item} (h : Same x y) : keeps s g x = keeps s' g y := by
  have ho : x.origin = y.origin := show (said x).origin = (said y).origin by rw [show said x = said y from h]
  have hp : x.payload = y.payload := show (said x).payload = (said y).payload by rw [show said x = said y from h]
  unfold keeps isLinkedTo
  rw [← attrFilter_said x, ← attrFilter_said y, show said x = said y from h, ho, hp, hm]

theorem forall₂_filter {α : Type} {R : α → α → Prop} {p q : α → Bool} (h : ∀ x y, R x y → p x = q y) {l l' : List α}
    (hl : List.Forall₂ R l l') : List.Forall₂ R (l.filter p) (l'.filter q) := by
  induction hl with
  | nil => exact .nil
  | cons hxy _ ih =>
    rw [List.filter_cons, List.filter_cons, h _ _ hxy]
    split
    · exact .cons hxy ih
    · exact ih

theorem forall₂_of_map_eq {α β : Type} {f : α → β} {l l' : List α} (h : l.map f = l'.map f) : List.Forall₂ (fun x y => f x = f y) l l' := by
  induction l generalizing l' with
  | nil => cases l' with
    | nil => exact .nil
    | cons y l' => cases h
  | cons x l ih => cases l' with
    | nil => cases h
    | cons y l' =>
      simp only [List.map_cons, List.cons.injEq] at h
      exact .cons h.1 (ih h.2)

/-- a list sorted by `Line` is determined by its members, if no two are on the same `Line` -/
theorem rising_unique {l k : List Item} (hl : l.Pairwise (fun a b => a.line < b.line)) (hk : k.Pairwise (fun a b => a.line ≤ b.line)) (hn : k.Nodup)
    (h : ∀ x, x ∈ k ↔ x ∈ l) : k = l := by
  have hp : k.Perm l := (List.perm_ext_iff_of_nodup hn (hl.imp (fun h e => by rw [e] at h; omega))).2 h
  refine hp.eq_of_pairwise (le := fun a b : Item => a.line ≤ b.line) ?_ hk (hl.imp (fun h => by omega))
  intro a b ha hb h1 h2
  have ha' := (h a).1 ha
  by_contra hne
  rcases List.pairwise_iff_getElem.1 hl with hl
  obtain ⟨i, hi, ei⟩ := List.mem_iff_getElem.1 ha'
  obtain ⟨j, hj, ej⟩ := List.mem_iff_getElem.1 hb
  rcases Nat.lt_trichotomy i j with h3 | h3 | h3
  · have := hl i j hi hj h3; rw [ei, ej] at this; omega
  · subst h3; exact hne (ei.symm.trans ej)
  · have := hl j i hj hi h3; rw [ei, ej] at this; omega

/-- two stashes in which the same is written in the same order -/
structure SameOrder (s s' : Stash) (l l' : List Item) : Prop where
  reads : Lined s l
  reads' : Lined s' l'
  same : l.map said = l'.map said
  map : s'.map = s.map
  sets : setsBase s'.consts = setsBase s.consts
  mirrors : mirrorsKnown s'.consts = mirrorsKnown s.consts
  imgClasses : imagesClasses s'.consts = imagesClasses s.consts
  imgVars : imagesVariables s'.consts = imagesVariables s.consts

theorem lined_get {s : Stash} {l : List Item} (h : Lined s l) (W : World) {g : Filter} (hg : AsksCounting g) :
    getItemsFor W s g = l.filter (keeps s g) := by
  refine rising_unique (h.rising.filter _) (reduceL_sorted W s s.items g) (reduceL_nodup W s s.items g) fun x => ?_
  rw [List.mem_filter, h.all, keeps_iff]
  refine (mem_getItemsFor W s g x).trans ⟨fun ⟨h1, h2⟩ => ⟨⟨h1, ?_⟩, h2⟩, fun ⟨⟨h1, _⟩, h2⟩ => ⟨h1, h2⟩⟩
  exact hg.2 _ (h2.classifier hg.1)

variable {s s' : Stash} {l l' : List Item}

theorem SameOrder.get (h : SameOrder s s' l l') (W : World) {g : Filter} (hg : AsksCounting g) :
    List.Forall₂ Same (getItemsFor W s g) (getItemsFor W s' g) := by
  rw [lined_get h.reads W hg, lined_get h.reads' W hg]
  exact forall₂_filter (fun x y hxy => keeps_said h.map g hxy) (forall₂_of_map_eq h.same)

theorem counting_var (f n : Str) : AsksCounting (varFilter f n) := ⟨by simp [varFilter, given], by simp [varFilter, given]⟩
theorem counting_inherit (f : Str) : AsksCounting (inheritFilter f) := ⟨by simp [inheritFilter, given], by simp [inheritFilter, given]⟩

theorem SameOrder.vars (h : SameOrder s s' l l') (W : World) (f n : Str) :
    List.Forall₂ Same (getItemsFor W s (varFilter f n)) (getItemsFor W s' (varFilter f n)) := h.get W (counting_var f n)

theorem Same.payload {x y : Item} (h : Same x y) : x.payload = y.payload := show (said x).payload = (said y).payload by rw [show said x = said y from h]
theorem Same.delim {x y : Item} (h : Same x y) : x.delim = y.delim := show (said x).delim = (said y).delim by rw [show said x = said y from h]
theorem Same.origin {x y : Item} (h : Same x y) : x.origin = y.origin := show (said x).origin = (said y).origin by rw [show said x = said y from h]
theorem Same.raw {x y : Item} (h : Same x y) : x.raw = y.raw := show (said x).raw = (said y).raw by rw [show said x = said y from h]
theorem Same.blocks {x y : Item} (h : Same x y) : x.inlineBlocks = y.inlineBlocks := show (said x).inlineBlocks = (said y).inlineBlocks by rw [show said x = said y from h]

theorem assignment_same {x y : Item} (h : Same x y) (v : VarData) : assignmentText x v = assignmentText y v := by
  unfold assignmentText; rw [h.blocks]

theorem same_assignments {k k' : List Item} (hk : List.Forall₂ Same k k') :
    List.Forall₂ (fun a b : Item × VarData => Same a.1 b.1 ∧ a.2 = b.2) (k.filterMap asAssignment) (k'.filterMap asAssignment) := by
  induction hk with
  | nil => exact .nil
  | @cons x y k k' hxy _ ih =>
    rw [List.filterMap_cons, List.filterMap_cons]
    unfold asAssignment
    rw [hxy.payload]
    cases hp : y.payload <;> simp only
    case «variable» v =>
      split
      · rename_i he
        split at he
        · cases he
        · rename_i hc
          simp only [hc]
          exact ih
      · rename_i he
        split at he
        · rename_i hc
          cases he
          simp only [hc, if_true]
          exact .cons ⟨hxy, rfl⟩ ih
        · cases he
    all_goals exact ih

theorem SameOrder.source (h : SameOrder s s' l l') (W : World) (b : J) (f n q : Str) : sourceOf W s' b f n q = sourceOf W s b f n q := by
  unfold sourceOf assignments
  have := same_assignments (h.vars W f n)
  revert this
  generalize (getItemsFor W s (varFilter f n)).filterMap asAssignment = k
  generalize (getItemsFor W s' (varFilter f n)).filterMap asAssignment = k'
  intro this
  cases this with
  | nil => rfl
  | @cons a b _ _ hab _ =>
    obtain ⟨x, v⟩ := a
    obtain ⟨y, w⟩ := b
    simp only at hab
    obtain ⟨h1, rfl⟩ := hab
    simp only [assignment_same h1]

theorem SameOrder.termF (h : SameOrder s s' l l') (W : World) (f : Str) (n : Nat) (sp : List Str) (v : Str) (sn : Seen) :
    expandTermF W s' n f sp v sn = expandTermF W s n f sp v sn := by
  induction n generalizing sp v sn with
  | zero => rfl
  | succ n ih =>
    have hone : ∀ b rec q m res sn, expandOne W s' b rec f sp q m res sn = expandOne W s b rec f sp q m res sn := by
      intro b rec q m res sn
      unfold expandOne
      simp only [h.source]
    have hmany : ∀ b rec q l res sn, expandMany W s' b rec f sp q l res sn = expandMany W s b rec f sp q l res sn := by
      intro b rec q l
      induction l with
      | nil => intros; rfl
      | cons m l ihl =>
        intro res sn
        rw [expandMany, expandMany, hone]
        split
        · rfl
        · exact ihl _ _
    rw [expandTermF, expandTermF, h.sets]
    simp only [hmany, ih]

theorem SameOrder.term (h : SameOrder s s' l l') (W : World) (f : Str) (sp : List Str) (v : Str) : expandTermS W s' f sp v = expandTermS W s f sp v := by
  rw [← (expandTerm_fuel W s f sp v (max (expandBound s v) (expandBound s' v)) (Nat.le_max_left _ _)).1,
    ← (expandTerm_fuel W s' f sp v (max (expandBound s v) (expandBound s' v)) (Nat.le_max_right _ _)).1, h.termF]

theorem SameOrder.explode (h : SameOrder s s' l l') (W : World) (f : Str) (d : ExpDict) (acc : List (Str × List Str)) :
    explode W s' f d acc = Oelint.explode W s f d acc := by
  induction d generalizing acc with
  | nil => rfl
  | cons kv d ih =>
    obtain ⟨k, v⟩ := kv
    unfold Oelint.explode expandTerm
    simp only [h.term, ih]

theorem SameOrder.packages (h : SameOrder s s' l l') (W : World) (f pn : Str) (b : Bool) (k : List VarData) (res : List Str) :
    packageLoop W s' f pn b k res = packageLoop W s f pn b k res := by
  induction k generalizing res with
  | nil => rfl
  | cons v k ih =>
    unfold packageLoop packageWords
    simp only [h.term, ih]

theorem SameOrder.components (h : SameOrder s s' l l') (W : World) (w : Str) : getScrComponents W s' w = getScrComponents W s w := by
  unfold getScrComponents withKnownMirrors
  rw [h.mirrors]

theorem SameOrder.named (h : SameOrder s s' l l') (W : World) (pn : Str) (k res : List Str) : namedLoop W s' pn k res = namedLoop W s pn k res := by
  induction k generalizing res with
  | nil => rfl
  | cons w k ih =>
    rw [namedLoop, namedLoop, h.components]
    simp only [ih]

theorem SameOrder.dyn (h : SameOrder s s' l l') (W : World) (f : Str) (k : List VarData) (res : List Str) : dynLoop W s' f k res = dynLoop W s f k res := by
  induction k generalizing res with
  | nil => rfl
  | cons v k ih =>
    unfold dynLoop expandTerm
    simp only [h.term, ih]

theorem varsOf_same {k k' : List Item} (h : List.Forall₂ Same k k') : varsOf k' = varsOf k := by
  unfold varsOf
  induction h with
  | nil => rfl
  | cons hxy _ ih => rw [List.filterMap_cons, List.filterMap_cons, hxy.payload, ih]

theorem any_same {k k' : List Item} (h : List.Forall₂ Same k k') (p : List Str → Bool) :
    k'.any (fun i => p i.getItems) = k.any (fun i => p i.getItems) := by
  induction h with
  | nil => rfl
  | @cons x y _ _ hxy _ ih =>
    have : x.getItems = y.getItems := by unfold Item.getItems; rw [hxy.payload, hxy.raw]
    rw [List.any_cons, List.any_cons, ih, this]

theorem isEmpty_same {k k' : List Item} (h : List.Forall₂ Same k k') : k'.isEmpty = k.isEmpty := by cases h <;> rfl

theorem passes_same {k k' : List Item} (h : List.Forall₂ Same k k') (d : ExpDict) :
    passImmediate k' d = passImmediate k d ∧ passAppend k' d = passAppend k d ∧ passRemove k' d = passRemove k d := by
  induction h generalizing d with
  | nil => exact ⟨rfl, rfl, rfl⟩
  | @cons x y k k' hxy _ ih =>
    have hi : ∀ v c, immediateOp x v c = immediateOp y v c := by intro v c; unfold immediateOp; rw [hxy.blocks]
    refine ⟨?_, ?_, ?_⟩
    · unfold passImmediate
      rw [hxy.payload, hxy.delim]
      simp only [hi, (ih _).1]
    · unfold passAppend
      rw [hxy.payload, hxy.delim]
      simp only [(ih _).2.1]
    · unfold passRemove
      rw [hxy.payload, hxy.delim]
      simp only [(ih _).2.2]

theorem forall₂_append {α : Type} {R : α → α → Prop} {a a' b b' : List α} (h1 : List.Forall₂ R a a') (h2 : List.Forall₂ R b b') :
    List.Forall₂ R (a ++ b) (a' ++ b') := by
  induction h1 with
  | nil => exact h2
  | cons h _ ih => exact .cons h ih

theorem SameOrder.expandVar (h : SameOrder s s' l l') (W : World) (f : Option Str) (att val : Arg) (nolink : Bool) :
    expandVar W s' f att val nolink = Oelint.expandVar W s f att val nolink := by
  have n1 : AsksCounting { filename := f, classifier := .one c!"Variable", attname := att, attvalue := val, nolink } :=
    ⟨by simp [given], by simp [given]⟩
  have n2 : AsksCounting { filename := f, classifier := .one c!"Unset" } := ⟨by simp [given], by simp [given]⟩
  have h1 := h.get W n1
  have h2 := h.get W n2
  have hh : List.Forall₂ Same (expandVarItems W s f att val nolink) (expandVarItems W s' f att val nolink) := forall₂_append h1 h2
  have key : ∀ {s : Stash} {l : List Item}, Lined s l → sortBy lineLe (expandVarItems W s f att val nolink) =
      l.filter (fun x => keeps s { filename := f, classifier := .one c!"Variable", attname := att, attvalue := val, nolink } x ||
        keeps s { filename := f, classifier := .one c!"Unset" } x) := by
    intro s l hr
    have hp := sortBy_perm lineLe (expandVarItems W s f att val nolink)
    refine rising_unique (hr.rising.filter _) (lineLe_sorted _) (hp.nodup_iff.2 ?_) fun x => ?_
    · refine List.nodup_append.2 ⟨reduceL_nodup .., reduceL_nodup .., ?_⟩
      rintro a ha b hb rfl
      have e1 := ((mem_getItemsFor W s _ a).1 ha).2.classifier n1.1
      have e2 := ((mem_getItemsFor W s _ a).1 hb).2.classifier n2.1
      simp [given] at e1 e2
      rw [e1] at e2
      exact absurd e2 (by decide)
    · rw [mem_sortBy]
      unfold expandVarItems
      rw [lined_get hr W n1, lined_get hr W n2]
      simp only [List.mem_append, List.mem_filter, Bool.or_eq_true]
      tauto
  have hs : List.Forall₂ Same (sortBy lineLe (expandVarItems W s f att val nolink)) (sortBy lineLe (expandVarItems W s' f att val nolink)) := by
    rw [key h.reads, key h.reads']
    refine forall₂_filter (fun x y hxy => ?_) (forall₂_of_map_eq h.same)
    rw [keeps_said h.map _ hxy, keeps_said h.map _ hxy]
  have hd : (expandVarItems W s' f att val nolink).head?.map (·.origin) = (expandVarItems W s f att val nolink).head?.map (·.origin) := by
    revert hh
    generalize expandVarItems W s f att val nolink = k
    generalize expandVarItems W s' f att val nolink = k'
    intro hh
    cases hh with
    | nil => rfl
    | cons hxy _ => simp [hxy.origin]
  unfold Oelint.expandVar expInit
  simp only [hd, h.sets, h.explode, (passes_same hs _).1, (passes_same hs _).2.1, (passes_same hs _).2.2]

theorem SameOrder.answer (h : SameOrder s s' l l') (W : World) {q : Question} (hq : q.aboutValues) : q.fresh W s' = q.fresh W s := by
  have dynamic : ∀ f, getPackagesDynamic W s' f = getPackagesDynamic W s f := fun f => by
    unfold getPackagesDynamic; rw [varsOf_same (h.vars W f _), h.dyn]
  cases q <;> simp only [Question.aboutValues] at hq <;> unfold Question.fresh <;> simp only
  case expandTerm => rw [h.term]
  case expandVar => rw [h.expandVar]
  case recipes => unfold getRecipes; rw [h.map]
  case scrComponents => rw [h.components]
  case packageNames =>
    unfold getValidPackageNames
    simp only [varsOf_same (forall₂_append (h.vars W _ _) (h.vars W _ _)), h.packages]
  case namedResources =>
    unfold getValidNamedResources
    simp only [varsOf_same (h.vars W _ _), h.named]
  case isImage =>
    unfold isImage
    rw [h.imgClasses, h.imgVars]
    have e : ∀ (f : Str) (c : J), ((getItemsFor W s' (inheritFilter f)).any fun i => i.getItems.any fun x => J.has x c) =
        (getItemsFor W s (inheritFilter f)).any fun i => i.getItems.any fun x => J.has x c := fun f c =>
      any_same (h.get W (counting_inherit f)) (fun k => k.any fun x => J.has x c)
    simp only [e, isEmpty_same (h.vars W _ _)]
  case isPackageGroup =>
    unfold isPackageGroup
    rw [any_same (h.get W (counting_inherit _)) (fun k => k.contains _)]
  case packagesDynamic => rw [dynamic]
  case isDynamicPackage =>
    unfold isDynamicPackage expandTerm
    rw [dynamic, h.term]

end Oelint

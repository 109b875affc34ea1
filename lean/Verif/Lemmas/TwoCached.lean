import Verif.Lemmas.Two
import Verif.Spec.Returned
/-! Two runs of a stash with its caches side by side (C88-C90). -/
set_option linter.unusedSectionVars false
set_option linter.unusedSimpArgs false
namespace Oelint
variable [Uni]
open Spec

/-- both reads give the same text, up to the kind of line ends, or fail in the same way -/
def SameRead : FileRes → FileRes → Prop
  | .text t, .text t' => univNewlines t = univNewlines t'
  | a, b => a = b

/-- like `Alike`, with all that the questions ask -/
structure Twin (W W' : World) (R : Stash → Stash → Prop) : Prop where
  cwd : W'.cwd = W.cwd
  find : ∀ n d, findLocalOrLayer W' n d = findLocalOrLayer W n d
  root : ∀ n, getLayerRoot W' n = getLayerRoot W n
  glob : W'.glob = W.glob
  repr : W'.repr = W.repr
  itemOrder : W'.itemOrder = W.itemOrder
  strOrder : W'.strOrder = W.strOrder
  urlparse : W'.urlparse = W.urlparse
  read : ∀ p, SameRead (W.file p) (W'.file p)
  core : ∀ {s s'}, R s s' → SameCore s s'
  set : ∀ {s s'}, R s s' → ∀ i f c m u, R { s with items := i, seenFiles := f, seenClasses := c, map := m, nextUid := u }
    { s' with items := i, seenFiles := f, seenClasses := c, map := m, nextUid := u }
  say : ∀ {s s'}, R s s' → ∀ f, R (s.say f) (s'.say f)
  hash : ∀ {s s'}, R s s' → ∀ t, R { s with hashed := s.hashed ++ t } { s' with hashed := s'.hashed ++ t }
  conf : ∀ {s s'}, R s s' → ∀ key fn, key ∈ [c!"distros", c!"machines"] →
    (addConstants s'.consts (replConst key fn)).2 = (addConstants s.consts (replConst key fn)).2 ∧
    R { s with consts := (addConstants s.consts (replConst key fn)).1 } { s' with consts := (addConstants s'.consts (replConst key fn)).1 }
  ignoreClass : ∀ {s s'}, R s s' → classIgnore s'.consts = classIgnore s.consts
  ignoreInclude : ∀ {s s'}, R s s' → includeIgnore s'.consts = includeIgnore s.consts
  functions : ∀ {s s'}, R s s' → functionsKnown s'.consts = functionsKnown s.consts
  sets : ∀ {s s'}, R s s' → setsBase s'.consts = setsBase s.consts
  mirrors : ∀ {s s'}, R s s' → mirrorsKnown s'.consts = mirrorsKnown s.consts
  imgClasses : ∀ {s s'}, R s s' → imagesClasses s'.consts = imagesClasses s.consts
  imgVars : ∀ {s s'}, R s s' → imagesVariables s'.consts = imagesVariables s.consts
  prep : ∀ {s s'}, R s s' → ∀ f off, prepareLines W' f off s'.negative = prepareLines W f off s.negative

/-! ## expanding -/

/-- what `ExpandTerm` asks agrees -/
structure SameTerms (W W' : World) (s s' : Stash) : Prop where
  read : ∀ p, SameRead (W.file p) (W'.file p)
  sets : setsBase s'.consts = setsBase s.consts
  items : s'.items = s.items
  assigns : ∀ f n, assignments W' s' f n = assignments W s f n

theorem readFiles_same {W W' : World} (hr : ∀ p, SameRead (W.file p) (W'.file p)) (rec : Str → Seen → Except PyErr (Str × Seen))
    (l : List Mt) (res : Str) (sn : Seen) : readFiles W' rec l res sn = readFiles W rec l res sn := by
  induction l generalizing res sn with
  | nil => rfl
  | cons m l ih =>
    rw [readFiles, readFiles]
    split
    · rfl
    · rename_i path sn' _
      simp only
      have h := hr (stripP (oneOf c!"'\"") path)
      cases h1 : W.file (stripP (oneOf c!"'\"") path) <;> cases h2 : W'.file (stripP (oneOf c!"'\"") path) <;>
        rw [h1, h2] at h <;> simp only [SameRead, reduceCtorEq] at h <;> simp only [ih]
      rw [h]

theorem expandTermF_same {W W' : World} {s s' : Stash} (h : SameTerms W W' s s') (n : Nat) (f : Str) (sp : List Str) (v : Str) (sn : Seen) :
    expandTermF W' s' n f sp v sn = expandTermF W s n f sp v sn := by
  induction n generalizing sp v sn with
  | zero => rfl
  | succ n ih =>
    have hone : ∀ b rec q m res sn, expandOne W' s' b rec f sp q m res sn = expandOne W s b rec f sp q m res sn := by
      intro b rec q m res sn
      have hs : ∀ n, sourceOf W' s' b f n q = sourceOf W s b f n q := fun n => by unfold sourceOf; rw [h.assigns]
      unfold expandOne
      simp only [hs]
    have hmany : ∀ b rec q l res sn, expandMany W' s' b rec f sp q l res sn = expandMany W s b rec f sp q l res sn := by
      intro b rec q l
      induction l with
      | nil => intros; rfl
      | cons m l ihl =>
        intro res sn
        rw [expandMany, expandMany, hone]
        split
        · rfl
        · exact ihl _ _
    rw [expandTermF, expandTermF, h.sets]
    simp only [hmany, ih, readFiles_same h.read]

theorem expandTermS_same {W W' : World} {s s' : Stash} (h : SameTerms W W' s s') (f : Str) (sp : List Str) (v : Str) :
    expandTermS W' s' f sp v = expandTermS W s f sp v := by
  unfold expandTermS
  rw [expandTermF_same h]
  unfold expandBound knownNames knownTexts
  rw [h.items, h.sets]

theorem reduceL_same {W W' : World} (ho : W'.itemOrder = W.itemOrder) {s s' : Stash} (hm : s'.map = s.map) (l : List Item) (f : Filter) :
    reduceL W' s' l f = reduceL W s l f := by
  unfold reduceL applyFilter getItemsByFile isLinkedTo
  rw [ho, hm]

namespace Twin
variable {W W' : World} {R : Stash → Stash → Prop} {file : Str}

theorem terms (h : Twin W W' R) {s s' : Stash} (hr : R s s') : SameTerms W W' s s' := by
  refine ⟨h.read, h.sets hr, (h.core hr).items, fun f n => ?_⟩
  unfold assignments getItemsFor
  rw [reduceL_same h.itemOrder (h.core hr).map, (h.core hr).items]

theorem alike (h : Twin W W' R) : Alike W W' R where
  cwd := h.cwd
  find := h.find
  root := h.root
  glob := fun p => by rw [h.glob]
  core := h.core
  set := h.set
  say := h.say
  hash := fun hr l => by rw [h.repr]; exact h.hash hr _
  conf := h.conf
  ignoreClass := h.ignoreClass
  ignoreInclude := h.ignoreInclude
  functions := h.functions
  prep := h.prep
  expand := fun hr f n _ => expandTermS_same (h.terms hr) _ _ _

end Twin

/-- the two stashes remember the same and are related -/
def CRel (R : Stash → Stash → Prop) (c c' : CStash) : Prop := c'.tab = c.tab ∧ R c.base c'.base

/-- two methods give the same result and end in related states -/
def CSim {α : Type} (R : Stash → Stash → Prop) (x y : CM α) : Prop :=
  ∀ c c', CRel R c c' → (x c).1 = (y c').1 ∧ CRel R (x c).2 (y c').2

namespace CSim
variable {α β : Type} {R : Stash → Stash → Prop}

theorem bind_def (x : CM α) (f : α → CM β) (c : CStash) :
    (x >>= f) c = match x c with
      | (.ok a, c') => f a c'
      | (.error e, c') => (.error e, c') := rfl

theorem pure (a : α) : CSim R (Pure.pure a : CM α) (Pure.pure a) := fun _ _ h => ⟨rfl, h⟩

theorem bind {x y : CM α} {f g : α → CM β} (h : CSim R x y) (hf : ∀ a, CSim R (f a) (g a)) : CSim R (x >>= f) (y >>= g) := by
  intro s s' hr
  obtain ⟨h1, h2⟩ := h s s' hr
  rw [bind_def, bind_def]
  rcases hx : x s with ⟨a, s1⟩
  rcases hy : y s' with ⟨b, s1'⟩
  rw [hx, hy] at h1 h2
  simp only at h1 h2
  subst h1
  cases a with
  | ok a => exact hf a _ _ h2
  | error e => exact ⟨rfl, h2⟩

theorem lift {x y : Except PyErr α} (h : x = y) : CSim R (CM.lift x) (CM.lift y) := by
  subst h; exact fun _ _ h => ⟨rfl, h⟩

theorem ask {f g : Stash → Except PyErr α} (h : ∀ s s', R s s' → f s = g s') : CSim R (CM.ask f) (CM.ask g) :=
  fun _ _ hr => ⟨h _ _ hr.2, hr⟩

theorem base {x y : M α} (h : TSim R x y) : CSim R (CM.base x) (CM.base y) :=
  fun _ _ hr => ⟨(h _ _ hr.2).1, hr.1, (h _ _ hr.2).2⟩

theorem clear : CSim R CM.clear CM.clear :=
  fun s s' hr => ⟨rfl, by simp only [CM.clear, CStash.clear, hr.1], hr.2⟩

theorem memo (k : CKey) {x y : CM CVal} (h : CSim R x y) : CSim R (memo k x) (memo k y) := by
  intro c c' hr
  unfold Oelint.memo
  rw [hr.1]
  cases c.tab.lookup k with
  | some v => exact ⟨rfl, hr⟩
  | none =>
    obtain ⟨h1, h2⟩ := h c c' hr
    simp only
    rcases hx : x c with ⟨a, s1⟩
    rcases hy : y c' with ⟨b, s1'⟩
    rw [hx, hy] at h1 h2
    simp only at h1 h2
    subst h1
    cases a with
    | ok a => exact ⟨rfl, by simp only [h2.1], h2.2⟩
    | error e => exact ⟨rfl, h2⟩

theorem cMap {f g : α → CM β} (h : ∀ a, CSim R (f a) (g a)) (l : List α) : CSim R (cMap f l) (cMap g l) := by
  induction l with
  | nil => exact pure _
  | cons a l ih => exact bind (h a) fun y => bind ih fun ys => pure _

end CSim

namespace Twin
variable {W W' : World} {R : Stash → Stash → Prop} {file : Str}

theorem cLinked (h : Twin W W' R) (f : Str) (b : Bool) (x : Item) : CSim R (cLinked f b x) (cLinked f b x) :=
  CSim.bind (CSim.memo _ (CSim.ask fun s s' hr => by unfold isLinkedTo; rw [(h.core hr).map])) fun _ => CSim.pure _

theorem cLinkedFilter (h : Twin W W' R) (f : Str) (b : Bool) (l : List Item) : CSim R (cLinkedFilter f b l) (cLinkedFilter f b l) := by
  induction l with
  | nil => exact CSim.pure _
  | cons x l ih => exact CSim.bind (h.cLinked f b x) fun _ => CSim.bind ih fun _ => CSim.pure _

theorem cApplyFilter (h : Twin W W' R) (l : List Item) (f : Filter) : CSim R (cApplyFilter l f) (cApplyFilter l f) := by
  refine CSim.bind ?_ fun l => CSim.bind ?_ fun l => ?_
  · unfold cStepFile
    split
    · split
      · exact CSim.pure _
      · exact CSim.bind (CSim.memo _ (CSim.bind (h.cLinkedFilter _ _ _) fun _ => CSim.pure _)) fun _ => CSim.pure _
    · exact CSim.pure _
  · unfold cStepClassifier
    split
    · exact CSim.pure _
    · exact CSim.bind (CSim.memo _ (CSim.pure _)) fun _ => CSim.pure _
  · unfold cStepAttribute
    split
    · exact CSim.pure _
    · exact CSim.bind (CSim.memo _ (CSim.pure _)) fun _ => CSim.pure _

theorem cReduce (h : Twin W W' R) (l : List Item) (f : Filter) : CSim R (cReduce W l f) (cReduce W' l f) := by
  unfold Oelint.cReduce
  rw [h.itemOrder]
  exact CSim.bind (h.cApplyFilter l f) fun _ => CSim.pure _

theorem cItemsFor (h : Twin W W' R) (f : Filter) : CSim R (cItemsFor W f) (cItemsFor W' f) :=
  CSim.bind (CSim.ask fun s s' hr => by rw [(h.core hr).items]) fun l => h.cReduce l f

theorem cExpandOne (h : Twin W W' R) (b : J) {rec rec' : Str → Seen → CM (Str × Seen)} (hrec : ∀ v sn, CSim R (rec v sn) (rec' v sn))
    (f : Str) (sp : List Str) (q : Str) (m : Mt) (res : Str) (sn : Seen) :
    CSim R (cExpandOne W b rec f sp q m res sn) (cExpandOne W' b rec' f sp q m res sn) := by
  unfold Oelint.cExpandOne
  simp only
  split
  · exact CSim.pure _
  · refine CSim.bind (h.cItemsFor _) fun l => ?_
    split
    · exact CSim.lift rfl
    · exact CSim.pure _
    · exact CSim.pure _
    · split
      · exact CSim.pure _
      · exact CSim.bind (hrec _ _) fun _ => CSim.pure _

theorem cExpandMany (h : Twin W W' R) (b : J) {rec rec' : Str → Seen → CM (Str × Seen)} (hrec : ∀ v sn, CSim R (rec v sn) (rec' v sn))
    (f : Str) (sp : List Str) (q : Str) (l : List Mt) (res : Str) (sn : Seen) :
    CSim R (cExpandMany W b rec f sp q l res sn) (cExpandMany W' b rec' f sp q l res sn) := by
  induction l generalizing res sn with
  | nil => exact CSim.pure _
  | cons m l ih => exact CSim.bind (h.cExpandOne b hrec _ _ _ _ _ _) fun _ => ih _ _

theorem cReadFiles (h : Twin W W' R) {rec rec' : Str → Seen → CM (Str × Seen)} (hrec : ∀ v sn, CSim R (rec v sn) (rec' v sn))
    (l : List Mt) (res : Str) (sn : Seen) : CSim R (cReadFiles W rec l res sn) (cReadFiles W' rec' l res sn) := by
  induction l generalizing res sn with
  | nil => exact CSim.pure _
  | cons m l ih =>
    rw [Oelint.cReadFiles, Oelint.cReadFiles]
    refine CSim.bind (hrec _ _) fun ps => ?_
    simp only
    have hr := h.read (stripP (oneOf c!"'\"") ps.1)
    cases h1 : W.file (stripP (oneOf c!"'\"") ps.1) <;> cases h2 : W'.file (stripP (oneOf c!"'\"") ps.1) <;>
      rw [h1, h2] at hr <;> simp only [SameRead, reduceCtorEq] at hr <;> simp only
    · rw [hr]; exact ih _ _
    · exact ih _ _
    · exact ih _ _
    · exact CSim.lift rfl

theorem cExpandTermF (h : Twin W W' R) (n : Nat) (f : Str) (sp : List Str) (v : Str) (sn : Seen) :
    CSim R (cExpandTermF W n f sp v sn) (cExpandTermF W' n f sp v sn) := by
  induction n generalizing sp v sn with
  | zero => exact CSim.lift rfl
  | succ n ih =>
    rw [Oelint.cExpandTermF, Oelint.cExpandTermF]
    refine CSim.bind (CSim.ask fun s s' hr => (h.sets hr).symm) fun b => ?_
    exact CSim.bind (h.cExpandMany b (fun v sn => ih [] v sn) _ _ _ _ _ _) fun _ =>
      CSim.bind (h.cExpandMany b (fun v sn => ih [] v sn) _ _ _ _ _ _) fun _ => h.cReadFiles (fun v sn => ih sp v sn) _ _ _

theorem cExpandTermS (h : Twin W W' R) (f : Str) (sp : List Str) (v : Str) : CSim R (cExpandTermS W f sp v) (cExpandTermS W' f sp v) := by
  refine CSim.bind (CSim.ask fun s s' hr => ?_) fun n => CSim.bind (h.cExpandTermF _ _ _ _ _) fun _ => CSim.pure _
  unfold expandBound knownNames knownTexts
  rw [(h.core hr).items, h.sets hr]

theorem cExpandTerm (h : Twin W W' R) (f v : Str) : CSim R (cExpandTerm W f v) (cExpandTerm W' f v) := h.cExpandTermS _ _ _

theorem cExplode (h : Twin W W' R) (f : Str) (d : ExpDict) (acc : List (Str × List Str)) :
    CSim R (cExplode W f d acc) (cExplode W' f d acc) := by
  induction d generalizing acc with
  | nil => exact CSim.pure _
  | cons kv d ih => exact CSim.bind (h.cExpandTerm _ _) fun _ => CSim.bind (h.cExpandTerm _ _) fun _ => ih _

theorem cExpandVar (h : Twin W W' R) (f : Option Str) (a v : Arg) (b : Bool) : CSim R (cExpandVar W f a v b) (cExpandVar W' f a v b) := by
  refine CSim.bind (h.cItemsFor _) fun x => CSim.bind (h.cItemsFor _) fun y => ?_
  simp only
  split
  · exact CSim.pure _
  · refine CSim.bind (CSim.ask fun s s' hr => ?_) fun d => h.cExplode _ _ _
    unfold expInit
    rw [h.sets hr]

theorem scr (h : Twin W W' R) {s s' : Stash} (hr : R s s') (t : Str) : getScrComponents W s t = getScrComponents W' s' t := by
  unfold getScrComponents withKnownMirrors
  rw [h.mirrors hr, h.urlparse]

theorem cScrComponents (h : Twin W W' R) (t : Str) : CSim R (cScrComponents W t) (cScrComponents W' t) :=
  CSim.bind (CSim.memo _ (CSim.ask fun s s' hr => by rw [h.scr hr])) fun _ => CSim.pure _

theorem cPackageLoop (h : Twin W W' R) (f pn : Str) (b : Bool) (l : List VarData) (res : List Str) :
    CSim R (cPackageLoop W f pn b l res) (cPackageLoop W' f pn b l res) := by
  induction l generalizing res with
  | nil => exact CSim.pure _
  | cons v l ih => exact CSim.bind (h.cExpandTermS _ _ _) fun _ => ih _

theorem cNamedLoop (h : Twin W W' R) (pn : Str) (l res : List Str) : CSim R (cNamedLoop W pn l res) (cNamedLoop W' pn l res) := by
  induction l generalizing res with
  | nil => exact CSim.pure _
  | cons w l ih =>
    rw [Oelint.cNamedLoop, Oelint.cNamedLoop]
    refine CSim.bind (h.cScrComponents _) fun _ => ?_
    split <;> exact ih _

theorem cDynLoop (h : Twin W W' R) (f : Str) (l : List VarData) (res : List Str) : CSim R (cDynLoop W f l res) (cDynLoop W' f l res) := by
  induction l generalizing res with
  | nil => exact CSim.pure _
  | cons v l ih => exact CSim.bind (h.cExpandTerm _ _) fun _ => ih _

theorem cPackagesDynamic (h : Twin W W' R) (f : Str) : CSim R (cPackagesDynamic W f) (cPackagesDynamic W' f) :=
  CSim.bind (CSim.memo _ (CSim.bind (h.cItemsFor _) fun _ => CSim.bind (h.cDynLoop _ _ _) fun _ => CSim.pure _)) fun _ => CSim.pure _

/-- every question gets the same answer -/
theorem ask_sim (h : Twin W W' R) (q : Question) : CSim R (q.ask W) (q.ask W') := by
  cases q <;> unfold Question.ask <;> simp only <;> refine CSim.bind ?_ fun _ => CSim.pure _
  case itemsFor => exact h.cItemsFor _
  case reduce => exact h.cReduce _ _
  case expandTerm => exact h.cExpandTermS _ _ _
  case expandVar => exact h.cExpandVar _ _ _ _
  case recipes =>
    exact CSim.bind (CSim.memo _ (CSim.ask fun s s' hr => by unfold getRecipes; rw [(h.core hr).map])) fun _ => CSim.pure _
  case loneAppends =>
    exact CSim.bind (CSim.memo _ (CSim.ask fun s s' hr => by
      unfold getLoneAppends; rw [(h.core hr).map, (h.core hr).items])) fun _ => CSim.pure _
  case confFiles =>
    exact CSim.bind (CSim.memo _ (CSim.ask fun s s' hr => by
      unfold getConfFiles; rw [h.strOrder, (h.core hr).items])) fun _ => CSim.pure _
  case bbClasses =>
    exact CSim.bind (CSim.memo _ (CSim.ask fun s s' hr => by
      unfold getBBClasses; rw [(h.core hr).items])) fun _ => CSim.pure _
  case links =>
    refine CSim.bind (CSim.memo _ ?_) fun _ => CSim.pure _
    split
    · exact CSim.pure _
    · refine CSim.bind (CSim.ask fun s s' hr => by rw [h.itemOrder, (h.core hr).items]) fun _ => ?_
      exact CSim.bind (h.cLinkedFilter _ _ _) fun _ => CSim.pure _
  case files =>
    refine CSim.bind (CSim.memo _ ?_) fun _ => CSim.pure _
    rw [h.glob]
    exact CSim.bind (h.cItemsFor _) fun _ => CSim.bind (CSim.cMap (fun _ => CSim.bind (h.cItemsFor _) fun _ => CSim.pure _) _)
      fun _ => CSim.pure _
  case scrComponents => exact h.cScrComponents _
  case packageNames =>
    refine CSim.bind (CSim.memo _ ?_) fun _ => CSim.pure _
    exact CSim.bind (h.cItemsFor _) fun _ => CSim.bind (h.cItemsFor _) fun _ => CSim.bind (h.cPackageLoop _ _ _ _ _) fun _ =>
      CSim.bind (h.cPackageLoop _ _ _ _ _) fun _ => CSim.pure _
  case namedResources =>
    refine CSim.bind (CSim.memo _ ?_) fun _ => CSim.pure _
    exact CSim.bind (h.cItemsFor _) fun _ => CSim.bind (h.cNamedLoop _ _ _) fun _ => CSim.pure _
  case isImage =>
    refine CSim.bind (CSim.memo _ ?_) fun _ => CSim.pure _
    exact CSim.bind (CSim.ask fun s s' hr => (h.imgClasses hr).symm) fun _ =>
      CSim.bind (CSim.ask fun s s' hr => (h.imgVars hr).symm) fun _ => CSim.bind (h.cItemsFor _) fun _ =>
        CSim.bind (CSim.cMap (fun _ => h.cItemsFor _) _) fun _ => CSim.pure _
  case isPackageGroup =>
    exact CSim.bind (CSim.memo _ (CSim.bind (h.cItemsFor _) fun _ => CSim.pure _)) fun _ => CSim.pure _
  case packagesDynamic => exact h.cPackagesDynamic _
  case isDynamicPackage =>
    refine CSim.bind (CSim.memo _ ?_) fun _ => CSim.pure _
    rw [h.strOrder]
    exact CSim.bind (h.cExpandTerm _ _) fun _ => CSim.bind (h.cPackagesDynamic _) fun _ => CSim.bind (CSim.lift rfl) fun _ => CSim.pure _

/-! ## AddFile -/

theorem cFindLocalOrLayer (h : Twin W W' R) (name dir : Str) : CSim R (cFindLocalOrLayer W name dir) (cFindLocalOrLayer W' name dir) :=
  CSim.bind (CSim.memo _ (CSim.lift (by rw [h.find]))) fun _ => CSim.pure _

theorem cFindClass (h : Twin W W' R) (dir inh : Str) (locs : List Str) : CSim R (cFindClass W dir inh locs) (cFindClass W' dir inh locs) := by
  induction locs with
  | nil => exact CSim.pure _
  | cons l locs ih =>
    refine CSim.bind (h.cFindLocalOrLayer _ _) fun p => ?_
    split
    · exact ih
    · exact CSim.pure _

theorem cAddDistroMachine (h : Twin W W' R) (path : Str) : CSim R (cAddDistroMachine W path) (cAddDistroMachine W' path) := by
  refine CSim.bind (CSim.bind (CSim.memo _ (CSim.lift (by rw [h.alike.root]))) fun _ => CSim.pure _) fun root => CSim.base ?_
  unfold addLayerConfs
  split
  · exact TSim.pure _
  · rw [h.alike.glob, h.alike.glob]
    exact TSim.bind (h.alike.addConfs_sim _ (by decide) _) fun _ => h.alike.addConfs_sim _ (by decide) _

theorem cInheritLoop (h : Twin W W' R) {add add' : CAddFn} (ha : ∀ p o f, CSim R (add p o f) (add' p o f))
    (lineno : Int) (inhname : Str) (locs l found : List Str) (off : Int) :
    CSim R (cInheritLoop W add file lineno inhname locs l found off) (cInheritLoop W' add' file lineno inhname locs l found off) := by
  induction l generalizing found off with
  | nil => exact CSim.pure _
  | cons i l ih =>
    rw [Oelint.cInheritLoop, Oelint.cInheritLoop]
    refine CSim.bind (h.cFindClass _ _ _) fun path => ?_
    split
    · exact ih _ _
    · refine CSim.bind (CSim.ask fun s s' hr => (h.ignoreClass hr).symm) fun ign => ?_
      split
      · exact ih _ _
      · exact CSim.bind (ha _ _ _) fun tmp => ih _ _

theorem cHandleKind (h : Twin W W' R) {add add' : CAddFn} (ha : ∀ p o f, CSim R (add p o f) (add' p o f))
    (lineno : Int) (p : Params) (k : Kind) (pat : Pattern) (m : Mt) :
    CSim R (cHandleKind W add file lineno p k pat m) (cHandleKind W' add' file lineno p k pat m) := by
  unfold Oelint.cHandleKind
  split
  · refine CSim.bind (h.cExpandTerm _ _) fun _ => ?_
    exact CSim.bind (h.cInheritLoop ha _ _ _ _ _ _) fun r => CSim.bind (CSim.base h.alike.fresh) fun _ => CSim.pure _
  · refine CSim.bind (h.cExpandTerm _ _) fun _ => ?_
    exact CSim.bind (h.cInheritLoop ha _ _ _ _ _ _) fun r => CSim.bind (CSim.base h.alike.fresh) fun _ => CSim.pure _
  · refine CSim.bind (h.cExpandTerm _ _) fun _ => ?_
    refine CSim.bind (h.cFindLocalOrLayer _ _) fun path => ?_
    split
    · exact CSim.bind (CSim.base h.alike.fresh) fun uid => CSim.pure _
    · refine CSim.bind (CSim.ask fun s s' hr => (h.ignoreInclude hr).symm) fun ign => ?_
      split
      · exact CSim.pure _
      · exact CSim.bind (ha _ _ _) fun tmp => CSim.bind (CSim.base h.alike.fresh) fun uid => CSim.pure _
  · rename_i hk1 hk2 hk3
    exact CSim.base (h.alike.handleKind_sim (fun _ _ _ => TSim.raise _) _ _ _ _ _ (fun e => absurd e hk3)
      (fun e => e.elim (fun e => absurd e hk1) (fun e => absurd e hk2)))

theorem cClassify (h : Twin W W' R) {add add' : CAddFn} (ha : ∀ p o f, CSim R (add p o f) (add' p o f))
    (lineno : Int) (p : Params) (cnt : Str) (l : List (Kind × Pattern)) :
    CSim R (cClassify W add file lineno p cnt l) (cClassify W' add' file lineno p cnt l) := by
  induction l with
  | nil => exact CSim.bind (CSim.base h.alike.fresh) fun uid => CSim.pure _
  | cons kp l ih =>
    obtain ⟨k, pat⟩ := kp
    rw [Oelint.cClassify, Oelint.cClassify]
    cases hm : reMatch pat.re cnt with
    | none => exact ih
    | some m =>
      refine CSim.bind (h.cHandleKind ha _ _ _ _ _) fun r => ?_
      cases r with
      | some x => exact CSim.pure _
      | none => exact ih

theorem cItemsLoop (h : Twin W W' R) {add add' : CAddFn} (ha : ∀ p o f, CSim R (add p o f) (add' p o f))
    (lineOffset : Int) (off : Int) (ns : Bool) (cs : List Chunk) :
    CSim R (cItemsLoop W add file lineOffset off ns cs) (cItemsLoop W' add' file lineOffset off ns cs) := by
  induction cs generalizing off ns with
  | nil => exact CSim.pure _
  | cons c cs ih => exact CSim.bind (h.cClassify ha _ _ _ _) fun r => CSim.bind (ih _ _) fun _ => CSim.pure _

theorem cAddFile (h : Twin W W' R) (n : Nat) (path : Str) (o : Int) (fo : Option Str) :
    CSim R (cAddFile W n path o fo) (cAddFile W' n path o fo) := by
  induction n generalizing path o fo with
  | zero => exact CSim.lift rfl
  | succ n ih =>
    intro c c' hr
    have hc := h.core hr.2
    rw [Oelint.cAddFile, Oelint.cAddFile, CSim.bind_def, CSim.bind_def, h.cwd]
    simp only [CM.ask]
    have hseen : alreadySeen c'.base (abspath W.cwd path) = alreadySeen c.base (abspath W.cwd path) := by
      unfold alreadySeen; rw [hc.files, hc.classes]
    rw [hseen]
    split
    · exact CSim.pure _ _ _ hr
    · refine CSim.bind (CSim.base (TSim.modify fun s s' hr => ?_)) (fun _ => CSim.bind ?_ fun its => ?_) _ _ hr
      · unfold markSeen
        rw [(h.core hr).files, (h.core hr).classes]
        exact h.alike.setSeen (h.say hr _) _ _
      · unfold Oelint.cGetItems
        simp only [h.cwd, h.prep hr.2, hc.newStyle]
        exact CSim.bind (CSim.lift rfl) fun cs => h.cItemsLoop (fun p o f => ih p o f) _ _ _ _
      · refine CSim.bind (CSim.base (TSim.modify fun s s' hr => ?_)) fun _ => ?_
        · rw [(h.core hr).map]; exact h.alike.setMap hr _
        · exact CSim.bind (CSim.base (h.alike.crossLink_sim _ _)) fun res =>
            CSim.bind (h.cAddDistroMachine _) fun _ =>
              CSim.bind (CSim.base (h.alike.commit_sim _)) fun _ => CSim.bind CSim.clear fun _ => CSim.pure _

theorem removeItems_sim (h : Twin W W' R) (l : List Item) : TSim R (removeItems l) (removeItems l) := by
  induction l with
  | nil => exact TSim.pure _
  | cons x l ih =>
    intro s s' hr
    rw [removeItems_cons, removeItems_cons, (h.core hr).items]
    split
    · exact ih _ _ (h.alike.setItems hr _)
    · exact ⟨rfl, hr⟩

theorem closeLoop_same (h : Twin W W' R) (ks : List Str) (m : List (Str × List Str)) : closeLoop W' ks m = closeLoop W ks m := by
  induction ks generalizing m with
  | nil => rfl
  | cons k ks ih =>
    rw [closeLoop, closeLoop]
    split
    · rfl
    · rw [h.strOrder]; exact ih _

theorem closeM_sim (h : Twin W W' R) : TSim R (closeM W) (closeM W') := by
  intro s s' hr
  have hc := h.core hr
  unfold closeM
  rw [hc.map, h.closeLoop_same]
  split
  · exact ⟨rfl, h.alike.setMap hr _⟩
  · exact ⟨rfl, h.alike.setMap hr _⟩

theorem cIncludedLoop (h : Twin W W' R) (m : List (Str × List Str)) : CSim R (cIncludedLoop W m) (cIncludedLoop W' m) := by
  induction m with
  | nil => exact CSim.pure _
  | cons kv m ih =>
    refine CSim.bind (h.cItemsFor _) fun l => CSim.bind (CSim.base (TSim.modify fun s s' hr => ?_)) fun _ => ih
    rw [(h.core hr).items]
    exact h.alike.setItems hr _

/-- every call gives the same result -/
theorem perform_sim (h : Twin W W' R) (d : Nat) (k : Call) : CSim R (k.perform W d) (k.perform W' d) := by
  cases k with
  | addFile p o f => exact h.cAddFile d p o f
  | append l =>
    refine CSim.bind (CSim.bind (CSim.base (TSim.modify fun s s' hr => ?_)) fun _ => CSim.clear) fun _ => CSim.pure _
    unfold appendItems
    rw [(h.core hr).items]
    exact h.alike.setItems hr _
  | remove l => exact CSim.bind (CSim.bind (CSim.base (h.removeItems_sim l)) fun _ => CSim.clear) fun _ => CSim.pure _
  | finalize =>
    exact CSim.bind (CSim.bind (CSim.base h.closeM_sim) fun m => CSim.bind (h.cIncludedLoop m) fun _ => CSim.clear) fun _ => CSim.pure _

/-- whatever a user does, both stashes look the same -/
theorem observe_same (h : Twin W W' R) (l : List Act) {c c' : CStash} (hr : CRel R c c') :
    observe W' l c' = observe W l c ∧ CRel R (afterActs W l c) (afterActs W' l c') := by
  induction l generalizing c c' with
  | nil => exact ⟨rfl, hr⟩
  | cons a l ih =>
    cases a with
    | ask q =>
      obtain ⟨h1, h2⟩ := h.ask_sim q c c' hr
      obtain ⟨h3, h4⟩ := ih h2
      exact ⟨by rw [observe, observe, h1, h3], h4⟩
    | call d k =>
      obtain ⟨h1, h2⟩ := h.perform_sim d k c c' hr
      obtain ⟨h3, h4⟩ := ih h2
      exact ⟨by rw [observe, observe, h1, h3], h4⟩

end Twin
end Oelint

import Verif.Lemmas.Succeeds
/-! Two runs side by side: what `AddFile` depends on (C88-C92). -/
set_option linter.unusedSectionVars false
set_option linter.unusedSimpArgs false
namespace Oelint
variable [Uni]
open Spec

/-- two methods give the same result and end in related states -/
def TSim {α : Type} (R : Stash → Stash → Prop) (x y : M α) : Prop :=
  ∀ s s', R s s' → (x s).1 = (y s').1 ∧ R (x s).2 (y s').2

namespace TSim
variable {α β : Type} {R : Stash → Stash → Prop}

theorem pure (a : α) : TSim R (Pure.pure a : M α) (Pure.pure a) := fun _ _ h => ⟨rfl, h⟩

theorem raise (e : PyErr) : TSim R (M.raise e : M α) (M.raise e) := fun _ _ h => ⟨rfl, h⟩

theorem bind {x y : M α} {f g : α → M β} (h : TSim R x y) (hf : ∀ a, TSim R (f a) (g a)) : TSim R (x >>= f) (y >>= g) := by
  intro s s' hr
  obtain ⟨h1, h2⟩ := h s s' hr
  rw [M.bind_def, M.bind_def]
  rcases hx : x s with ⟨a, s1⟩
  rcases hy : y s' with ⟨b, s1'⟩
  rw [hx, hy] at h1 h2
  simp only at h1 h2
  subst h1
  cases a with
  | ok a => exact hf a _ _ h2
  | error e => exact ⟨rfl, h2⟩

/-- like `bind`, with what is known about the value -/
theorem bindP {x y : M α} {f g : α → M β} {P : α → Prop} (h : TSim R x y) (hp : M.Post x P)
    (hf : ∀ a, P a → TSim R (f a) (g a)) : TSim R (x >>= f) (y >>= g) := by
  intro s s' hr
  obtain ⟨h1, h2⟩ := h s s' hr
  rw [M.bind_def, M.bind_def]
  rcases hx : x s with ⟨a, s1⟩
  rcases hy : y s' with ⟨b, s1'⟩
  rw [hx, hy] at h1 h2
  simp only at h1 h2
  subst h1
  cases a with
  | ok a => exact hf a (hp _ _ _ hx) _ _ h2
  | error e => exact ⟨rfl, h2⟩

theorem lift {x y : Except PyErr α} (h : x = y) : TSim R (M.lift x) (M.lift y) := by
  subst h; exact fun _ _ h => ⟨rfl, h⟩

theorem ask {f g : Stash → Except PyErr α} (h : ∀ s s', R s s' → f s = g s') : TSim R (M.ask f) (M.ask g) :=
  fun s s' hr => ⟨h s s' hr, hr⟩

theorem modify {f g : Stash → Stash} (h : ∀ s s', R s s' → R (f s) (g s')) : TSim R (M.modify f) (M.modify g) :=
  fun s s' hr => ⟨rfl, h s s' hr⟩

end TSim

/-- whatever holds after a method held before it -/
def Down {α : Type} (U : Stash → Prop) (x : M α) : Prop := M.Rel (fun s t => U t → U s) x

namespace Down
variable {α β : Type} {U : Stash → Prop}
theorem bind {x : M α} {f : α → M β} (h : Down U x) (hf : ∀ a, Down U (f a)) : Down U (x >>= f) :=
  M.Rel.bind (fun _ _ _ h1 h2 h => h1 (h2 h)) h hf
theorem pure (a : α) : Down U (Pure.pure a : M α) := fun _ h => h
theorem lift (a : Except PyErr α) : Down U (M.lift a) := fun _ h => h
theorem ask (f : Stash → Except PyErr α) : Down U (M.ask f) := fun _ h => h
theorem ok {x : M α} (h : Down U x) {s t : Stash} {a : α} (e : x s = (.ok a, t)) (u : U t) : U s := by
  have := h s
  rw [e] at this
  exact this u
end Down

/-- if `G` holds after the first method, both give the same result and end in related states -/
def TSimIf {α : Type} (G : Stash → Prop) (R : Stash → Stash → Prop) (x y : M α) : Prop :=
  ∀ s s', R s s' → G (x s).2 → (x s).1 = (y s').1 ∧ R (x s).2 (y s').2

theorem TSim.toIf {α : Type} {G : Stash → Prop} {R : Stash → Stash → Prop} {x y : M α} (h : TSim R x y) : TSimIf G R x y :=
  fun s s' hr _ => h s s' hr

namespace TSimIf
variable {α β : Type} {G : Stash → Prop} {R : Stash → Stash → Prop}

theorem of {x y : M α} (h : TSimIf (fun _ => True) R x y) : TSim R x y := fun s s' hr => h s s' hr trivial

theorem pure (a : α) : TSimIf G R (Pure.pure a : M α) (Pure.pure a) := (TSim.pure a).toIf

theorem raise (e : PyErr) : TSimIf G R (M.raise e : M α) (M.raise e) := (TSim.raise e).toIf

/-- with what is known about the value -/
theorem bindP {x y : M α} {f g : α → M β} {P : α → Prop} (h : TSimIf G R x y) (hp : M.Post x P) (hd : ∀ a, Down G (f a))
    (hf : ∀ a, P a → TSimIf G R (f a) (g a)) : TSimIf G R (x >>= f) (y >>= g) := by
  intro s s' hr hg
  rw [M.bind_def] at hg ⊢
  rw [M.bind_def]
  have h := h s s' hr
  rcases hx : x s with ⟨a, s1⟩
  rcases hy : y s' with ⟨b, s1'⟩
  rw [hx] at hg
  rw [hx, hy] at h
  simp only at h hg
  cases a with
  | ok a =>
    obtain ⟨h1, h2⟩ := h (hd a _ hg)
    subst h1
    exact hf a (hp _ _ _ hx) _ _ h2 hg
  | error e =>
    obtain ⟨h1, h2⟩ := h hg
    subst h1
    exact ⟨rfl, h2⟩

theorem bind {x y : M α} {f g : α → M β} (h : TSimIf G R x y) (hd : ∀ a, Down G (f a)) (hf : ∀ a, TSimIf G R (f a) (g a)) :
    TSimIf G R (x >>= f) (y >>= g) := bindP (P := fun _ => True) h (fun _ _ _ _ => trivial) hd (fun a _ => hf a)

theorem lift {x y : Except PyErr α} (h : x = y) : TSimIf G R (M.lift x) (M.lift y) := (TSim.lift h).toIf

theorem ask {f g : Stash → Except PyErr α} (h : ∀ s s', R s s' → G s → f s = g s') : TSimIf G R (M.ask f) (M.ask g) :=
  fun s s' hr hg => ⟨h s s' hr hg, hr⟩

end TSimIf

/-- two states with the same items, files, classes, links, override syntax and object identities -/
structure SameCore (s s' : Stash) : Prop where
  items : s'.items = s.items
  files : s'.seenFiles = s.seenFiles
  classes : s'.seenClasses = s.seenClasses
  map : s'.map = s.map
  newStyle : s'.newStyle = s.newStyle
  uid : s'.nextUid = s.nextUid

/-- a relation between states that two worlds keep up: all that `AddFile` asks agrees, apart from the expansion of names -/
structure AlikeCore (W W' : World) (R : Stash → Stash → Prop) : Prop where
  cwd : W'.cwd = W.cwd
  find : ∀ n d, findLocalOrLayer W' n d = findLocalOrLayer W n d
  root : ∀ n, getLayerRoot W' n = getLayerRoot W n
  glob : ∀ p, W'.glob p = W.glob p
  core : ∀ {s s'}, R s s' → SameCore s s'
  set : ∀ {s s'}, R s s' → ∀ i f c m u, R { s with items := i, seenFiles := f, seenClasses := c, map := m, nextUid := u }
    { s' with items := i, seenFiles := f, seenClasses := c, map := m, nextUid := u }
  say : ∀ {s s'}, R s s' → ∀ f, R (s.say f) (s'.say f)
  hash : ∀ {s s'}, R s s' → ∀ l : List Item, R { s with hashed := s.hashed ++ (l.map W.repr).flatten }
    { s' with hashed := s'.hashed ++ (l.map W'.repr).flatten }
  conf : ∀ {s s'}, R s s' → ∀ key fn, key ∈ [c!"distros", c!"machines"] →
    (addConstants s'.consts (replConst key fn)).2 = (addConstants s.consts (replConst key fn)).2 ∧
    R { s with consts := (addConstants s.consts (replConst key fn)).1 } { s' with consts := (addConstants s'.consts (replConst key fn)).1 }
  ignoreClass : ∀ {s s'}, R s s' → classIgnore s'.consts = classIgnore s.consts
  ignoreInclude : ∀ {s s'}, R s s' → includeIgnore s'.consts = includeIgnore s.consts
  functions : ∀ {s s'}, R s s' → functionsKnown s'.consts = functionsKnown s.consts
  prep : ∀ {s s'}, R s s' → ∀ f off, prepareLines W' f off s'.negative = prepareLines W f off s.negative

/-- moreover the names of loaded files expand to the same while `G` holds; `G` holds before a call of `AddFile` if it holds after it -/
structure AlikeIf (G : Stash → Prop) (W W' : World) (R : Stash → Stash → Prop) : Prop extends AlikeCore W W' R where
  step : StepRel W (fun s t => G t → G s)
  expand : ∀ {s s'}, R s s' → G s → ∀ f n, WritesInclude W f n ∨ WritesInherit W f n → expandTerm W' s' f n = expandTerm W s f n

/-- all that `AddFile` asks agrees -/
structure Alike (W W' : World) (R : Stash → Stash → Prop) : Prop extends AlikeCore W W' R where
  expand : ∀ {s s'}, R s s' → ∀ f n, WritesInclude W f n ∨ WritesInherit W f n → expandTerm W' s' f n = expandTerm W s f n

namespace AlikeCore
variable {W W' : World} {R : Stash → Stash → Prop} {file : Str}

theorem fresh (h : AlikeCore W W' R) : TSim R freshUid freshUid := by
  intro s s' hr
  have hc := h.core hr
  refine ⟨by simp only [freshUid, hc.uid], ?_⟩
  have := h.set hr s.items s.seenFiles s.seenClasses s.map (s.nextUid + 1)
  simp only [freshUid, hc.uid]
  convert this using 2
  · exact hc.items
  · exact hc.files
  · exact hc.classes
  · exact hc.map

theorem findClass_same (h : AlikeCore W W' R) (d i : Str) (l : List Str) : findClass W' d i l = findClass W d i l := by
  induction l with
  | nil => rfl
  | cons x l ih => rw [findClass, findClass, h.find, ih]

theorem setItems (h : AlikeCore W W' R) {s s' : Stash} (hr : R s s') (l : List Item) : R { s with items := l } { s' with items := l } := by
  have hc := h.core hr
  have := h.set hr l s.seenFiles s.seenClasses s.map s.nextUid
  convert this using 2
  · exact hc.files
  · exact hc.classes
  · exact hc.map
  · exact hc.uid

theorem setMap (h : AlikeCore W W' R) {s s' : Stash} (hr : R s s') (m : List (Str × List Str)) :
    R { s with map := m } { s' with map := m } := by
  have hc := h.core hr
  have := h.set hr s.items s.seenFiles s.seenClasses m s.nextUid
  convert this using 2
  · exact hc.items
  · exact hc.files
  · exact hc.classes
  · exact hc.uid

theorem setSeen (h : AlikeCore W W' R) {s s' : Stash} (hr : R s s') (f c : List Str) :
    R { s with seenFiles := f, seenClasses := c } { s' with seenFiles := f, seenClasses := c } := by
  have hc := h.core hr
  have := h.set hr s.items f c s.map s.nextUid
  convert this using 2
  · exact hc.items
  · exact hc.map
  · exact hc.uid

theorem linkAppend_sim (h : AlikeCore W W' R) (f : Str) (l : List Str) (mx : Int) : TSim R (linkAppend f l mx) (linkAppend f l mx) := by
  induction l generalizing mx with
  | nil => exact TSim.pure _
  | cons x l ih =>
    intro s s' hr
    have hc := h.core hr
    rw [linkAppend]
    simp only
    split
    · exact ⟨rfl, hr⟩
    · exact ih _ _ _ hr
    · have := ih (max mx (maxLine (s.items.filter (fun i => i.origin == x)))) _ _ (h.setMap hr (mapAppend s.map x f))
      rw [← hc.items, ← hc.map] at this ⊢
      exact this

theorem linkRecipe_sim (h : AlikeCore W W' R) (f bn : Str) (mx : Int) (done l : List Item) :
    TSim R (linkRecipe f bn mx done l) (linkRecipe f bn mx done l) := by
  induction l generalizing done with
  | nil => exact fun s s' hr => ⟨rfl, h.setItems hr _⟩
  | cons x l ih =>
    intro s s' hr
    have hc := h.core hr
    rw [linkRecipe_cons, linkRecipe_cons]
    split
    · exact ih _ _ _ hr
    · split
      · exact ⟨rfl, h.setItems hr _⟩
      · exact ih _ _ _ hr
      · rw [hc.map]
        exact ih _ _ _ (h.setMap hr _)

theorem crossLink_sim (h : AlikeCore W W' R) (f : Str) (its : List Item) : TSim R (crossLink f its) (crossLink f its) := by
  intro s s' hr
  have hc := h.core hr
  unfold crossLink
  split
  · rw [M.bind_def, M.bind_def]
    simp only [M.get]
    rw [hc.map]
    exact TSim.bind (h.linkAppend_sim _ _ _) (fun _ => TSim.pure _) _ _ hr
  · split
    · rw [M.bind_def, M.bind_def]
      simp only [M.get]
      rw [hc.items]
      exact TSim.bind (h.linkRecipe_sim _ _ _ _ _) (fun _ => TSim.pure _) _ _ hr
    · exact TSim.pure _ _ _ hr

theorem addConfs_sim (h : AlikeCore W W' R) (key : Str) (hk : key ∈ [c!"distros", c!"machines"]) (l : List Str) :
    TSim R (addConfs key l) (addConfs key l) := by
  induction l with
  | nil => exact TSim.pure _
  | cons x l ih =>
    intro s s' hr
    obtain ⟨h1, h2⟩ := h.conf hr key (splitext (basename x)).1 hk
    show (match addConstants s.consts (replConst key (splitext (basename x)).1) with
        | (db, none) => addConfs key l { s with consts := db }
        | (db, some e) => (.error e, { s with consts := db }) : Except PyErr Unit × Stash).1 =
      (match addConstants s'.consts (replConst key (splitext (basename x)).1) with
        | (db, none) => addConfs key l { s' with consts := db }
        | (db, some e) => (.error e, { s' with consts := db }) : Except PyErr Unit × Stash).1 ∧
      R (match addConstants s.consts (replConst key (splitext (basename x)).1) with
        | (db, none) => addConfs key l { s with consts := db }
        | (db, some e) => (.error e, { s with consts := db }) : Except PyErr Unit × Stash).2
      (match addConstants s'.consts (replConst key (splitext (basename x)).1) with
        | (db, none) => addConfs key l { s' with consts := db }
        | (db, some e) => (.error e, { s' with consts := db }) : Except PyErr Unit × Stash).2
    rcases hx : addConstants s.consts (replConst key (splitext (basename x)).1) with ⟨db, e⟩
    rcases hy : addConstants s'.consts (replConst key (splitext (basename x)).1) with ⟨db', e'⟩
    rw [hx, hy] at h1 h2
    simp only at h1 h2
    subst h1
    cases e' with
    | none => exact ih _ _ h2
    | some e => exact ⟨rfl, h2⟩

theorem addDistroMachine_sim (h : AlikeCore W W' R) (f : Str) : TSim R (addDistroMachine W f) (addDistroMachine W' f) := by
  unfold addDistroMachine
  refine TSim.bind (TSim.lift (h.root f).symm) fun root => ?_
  split
  · exact TSim.pure _
  · rw [h.glob, h.glob]
    exact TSim.bind (h.addConfs_sim _ (by decide) _) fun _ => h.addConfs_sim _ (by decide) _

theorem commit_sim (h : AlikeCore W W' R) (its : List Item) : TSim R (M.modify (commitItems W its)) (M.modify (commitItems W' its)) := by
  refine TSim.modify fun s s' hr => ?_
  have hc := h.core hr
  unfold commitItems
  rw [hc.items]
  exact h.hash (h.setItems hr _) _

end AlikeCore

namespace AlikeIf
variable {W W' : World} {R : Stash → Stash → Prop} {file : Str} {G : Stash → Prop}

theorem down_fresh (h : AlikeIf G W W' R) : Down G freshUid := fun s => h.step.uid s

theorem down_inherit (h : AlikeIf G W W' R) {add : AddFn} (hd : ∀ p o f, Down G (add p o f)) (lineno : Int) (inhname : Str)
    (locs l found : List Str) (off : Int) : Down G (inheritLoop W add file lineno inhname locs l found off) :=
  inheritLoop_rel h.step.refl h.step.trans h.step.uid W file hd _ _ _ _ _ _

theorem down_classify (h : AlikeIf G W W' R) {add : AddFn} (hd : ∀ p o f, Down G (add p o f)) (lineno : Int) (p : Params) (cnt : Str)
    (l : List (Kind × Pattern)) : Down G (classify W add file lineno p cnt l) :=
  classify_rel h.step.refl h.step.trans h.step.uid W file hd _ _ _ _

theorem down_items (h : AlikeIf G W W' R) {add : AddFn} (hd : ∀ p o f, Down G (add p o f)) (off i : Int) (ns : Bool) (cs : List Chunk) :
    Down G (itemsLoop W add file off i ns cs) := itemsLoop_rel h.step.refl h.step.trans h.step.uid W file hd _ _ _ _

macro "dn" h:ident hd:ident : tactic => `(tactic| (
  intro _
  with_reducible (repeat' first
    | exact Down.pure _
    | exact Down.lift _
    | exact Down.ask _
    | exact down_fresh $h
    | exact $hd _ _ _
    | exact down_inherit $h $hd _ _ _ _ _ _
    | exact down_classify $h $hd _ _ _ _
    | exact down_items $h $hd _ _ _ _
    | refine Down.bind ?_ (fun _ => ?_)
    | split)))

theorem inheritLoop_sim (h : AlikeIf G W W' R) {add add' : AddFn} (ha : ∀ p o f, TSimIf G R (add p o f) (add' p o f))
    (hd : ∀ p o f, Down G (add p o f))
    (lineno : Int) (inhname : Str) (locs l found : List Str) (off : Int) :
    TSimIf G R (inheritLoop W add file lineno inhname locs l found off) (inheritLoop W' add' file lineno inhname locs l found off) := by
  induction l generalizing found off with
  | nil => exact TSimIf.pure _
  | cons i l ih =>
    rw [inheritLoop, inheritLoop]
    refine TSimIf.bind (TSimIf.lift (h.findClass_same ..).symm) (by dn h hd) fun path => ?_
    split
    · exact ih _ _
    · refine TSimIf.bind (TSimIf.ask fun s s' hr _ => (h.ignoreClass hr).symm) (by dn h hd) fun ign => ?_
      split
      · exact ih _ _
      · exact TSimIf.bind (ha _ _ _) (by dn h hd) fun tmp => ih _ _

theorem handleKind_sim (h : AlikeIf G W W' R) {add add' : AddFn} (ha : ∀ p o f, TSimIf G R (add p o f) (add' p o f))
    (hd : ∀ p o f, Down G (add p o f))
    (lineno : Int) (p : Params) (k : Kind) (pat : Pattern) (m : Mt)
    (hi : k = .include → WritesInclude W file ((pat.group m c!"incname").getD []))
    (hj : k = .inherit ∨ k = .inheritGlob → WritesInherit W file ((pat.group m c!"inhname").getD [])) :
    TSimIf G R (handleKind W add file lineno p k pat m) (handleKind W' add' file lineno p k pat m) := by
  cases k <;> unfold handleKind <;> simp only
  case func =>
    exact TSimIf.bind (TSimIf.ask fun s s' hr _ => (h.functions hr).symm) (by dn h hd) fun _ => TSimIf.bind h.fresh.toIf (by dn h hd) fun _ => TSimIf.pure _
  case inherit =>
    refine TSimIf.bind (TSimIf.ask fun s s' hr g => (h.expand hr g _ _ (Or.inr (hj (by simp)))).symm) (by dn h hd) fun inhname => ?_
    exact TSimIf.bind (h.inheritLoop_sim ha hd _ _ _ _ _ _) (by dn h hd) fun r => TSimIf.bind h.fresh.toIf (by dn h hd) fun _ => TSimIf.pure _
  case inheritGlob =>
    refine TSimIf.bind (TSimIf.ask fun s s' hr g => (h.expand hr g _ _ (Or.inr (hj (by simp)))).symm) (by dn h hd) fun inhname => ?_
    exact TSimIf.bind (h.inheritLoop_sim ha hd _ _ _ _ _ _) (by dn h hd) fun r => TSimIf.bind h.fresh.toIf (by dn h hd) fun _ => TSimIf.pure _
  case addtask =>
    split
    · exact TSimIf.pure _
    · exact TSimIf.bind h.fresh.toIf (by dn h hd) fun uid => TSimIf.pure _
  case «include» =>
    refine TSimIf.bind (TSimIf.ask fun s s' hr g => (h.expand hr g _ _ (Or.inl (hi rfl))).symm) (by dn h hd) fun name => ?_
    refine TSimIf.bind (TSimIf.lift (h.find ..).symm) (by dn h hd) fun path => ?_
    split
    · exact TSimIf.bind h.fresh.toIf (by dn h hd) fun uid => TSimIf.pure _
    · refine TSimIf.bind (TSimIf.ask fun s s' hr _ => (h.ignoreInclude hr).symm) (by dn h hd) fun ign => ?_
      split
      · exact TSimIf.pure _
      · exact TSimIf.bind (ha _ _ _) (by dn h hd) fun tmp => TSimIf.bind h.fresh.toIf (by dn h hd) fun uid => TSimIf.pure _
  all_goals exact TSimIf.bind h.fresh.toIf (by dn h hd) fun uid => TSimIf.pure _

theorem classify_sim (h : AlikeIf G W W' R) {add add' : AddFn} (ha : ∀ p o f, TSimIf G R (add p o f) (add' p o f))
    (hd : ∀ p o f, Down G (add p o f))
    (lineno : Int) (p : Params) (cnt : Str) (l : List (Kind × Pattern))
    (hi : ∀ k pat m, (k, pat) ∈ l → reMatch pat.re cnt = some m → k = .include →
      WritesInclude W file ((pat.group m c!"incname").getD []))
    (hj : ∀ k pat m, (k, pat) ∈ l → reMatch pat.re cnt = some m → k = .inherit ∨ k = .inheritGlob →
      WritesInherit W file ((pat.group m c!"inhname").getD [])) :
    TSimIf G R (classify W add file lineno p cnt l) (classify W' add' file lineno p cnt l) := by
  induction l with
  | nil => rw [classify, classify]; exact TSimIf.bind h.fresh.toIf (by dn h hd) fun uid => TSimIf.pure _
  | cons kp l ih =>
    obtain ⟨k, pat⟩ := kp
    have ih := ih (fun k pat m h => hi k pat m (by simp [h])) (fun k pat m h => hj k pat m (by simp [h]))
    rw [classify, classify]
    cases hm : reMatch pat.re cnt with
    | none => exact ih
    | some m =>
      refine TSimIf.bind (h.handleKind_sim ha hd _ _ _ _ _ (hi k pat m (by simp) hm) (hj k pat m (by simp) hm)) (by dn h hd) fun r => ?_
      cases r with
      | some x => exact TSimIf.pure _
      | none => exact ih

theorem itemsLoop_sim (h : AlikeIf G W W' R) {add add' : AddFn} (ha : ∀ p o f, TSimIf G R (add p o f) (add' p o f))
    (hd : ∀ p o f, Down G (add p o f))
    (lineOffset lo : Int) (neg : Bool) (all : List Chunk) (hp : prepareLines W file lo neg = .ok all)
    (off : Int) (ns : Bool) (cs : List Chunk) (hcs : ∀ c ∈ cs, c ∈ all) :
    TSimIf G R (itemsLoop W add file lineOffset off ns cs) (itemsLoop W' add' file lineOffset off ns cs) := by
  induction cs generalizing off ns with
  | nil => exact TSimIf.pure _
  | cons c cs ih =>
    rw [itemsLoop, itemsLoop]
    refine TSimIf.bind (h.classify_sim ha hd _ _ _ _ ?_ ?_) (by dn h hd) fun r =>
      TSimIf.bind (ih _ _ fun c h => hcs c (by simp [h])) (by dn h hd) fun _ => TSimIf.pure _
    · rintro k pat m hmem hm rfl
      have : pat = reInclude := by
        simp only [parseOrder, List.mem_cons, Prod.mk.injEq, reduceCtorEq, false_and, true_and, false_or, or_false,
          List.not_mem_nil] at hmem
        exact hmem
      subst this
      exact ⟨lo, neg, all, c, m, hp, hcs c (by simp), hm, rfl⟩
    · rintro k pat m hmem hm (rfl | rfl)
      · have : pat = reInherit := by
          simp only [parseOrder, List.mem_cons, Prod.mk.injEq, reduceCtorEq, false_and, true_and, false_or, or_false,
            List.not_mem_nil] at hmem
          exact hmem
        subst this
        exact ⟨lo, neg, all, c, m, hp, hcs c (by simp), Or.inl ⟨hm, rfl⟩⟩
      · have : pat = reInheritGlob := by
          simp only [parseOrder, List.mem_cons, Prod.mk.injEq, reduceCtorEq, false_and, true_and, false_or, or_false,
            List.not_mem_nil] at hmem
          exact hmem
        subst this
        exact ⟨lo, neg, all, c, m, hp, hcs c (by simp), Or.inr ⟨hm, rfl⟩⟩

theorem getItems_sim (h : AlikeIf G W W' R) {add add' : AddFn} (ha : ∀ p o f, TSimIf G R (add p o f) (add' p o f))
    (hd : ∀ p o f, Down G (add p o f))
    (path : Str) (o : Int) (ns : Bool) {s s' t t' : Stash} (hr : R s s') (ht : R t t')
    (hg : G (getItems W add path o ns s.negative t).2) :
    (getItems W add path o ns s.negative t).1 = (getItems W' add' path o ns s'.negative t').1 ∧
      R (getItems W add path o ns s.negative t).2 (getItems W' add' path o ns s'.negative t').2 := by
  unfold getItems at hg ⊢
  rw [h.cwd, h.prep hr]
  exact TSimIf.bindP (P := fun cs => prepareLines W _ o s.negative = .ok cs) (TSimIf.lift rfl) (fun _ _ _ h => (Prod.mk.inj h).1) (by dn h hd)
    (fun cs hcs => h.itemsLoop_sim ha hd _ o s.negative cs hcs _ _ _ (fun _ h => h)) _ _ ht hg

/-- both runs of `AddFile` give the same result and related states -/
theorem addFile_sim (h : AlikeIf G W W' R) (n : Nat) (path : Str) (o : Int) (fo : Option Str) :
    TSimIf G R (addFile W n path o fo) (addFile W' n path o fo) := by
  induction n generalizing path o fo with
  | zero => exact TSimIf.raise _
  | succ n ih =>
    intro s s' hr hG
    have hc := h.core hr
    have hd : ∀ p o f, Down G (addFile W n p o f) := fun p o f => addFile_rel h.step n p o f
    have hseen : alreadySeen s' (abspath W'.cwd path) = alreadySeen s (abspath W.cwd path) := by
      unfold alreadySeen; rw [hc.files, hc.classes, h.cwd]
    by_cases hs : alreadySeen s (abspath W.cwd path) = true
    · rw [addFile_seen o fo hs, addFile_seen o fo (hseen.trans hs)]
      exact ⟨rfl, hr⟩
    · have hs : alreadySeen s (abspath W.cwd path) = false := by simpa using hs
      rw [addFile_eq W n path o fo s hs] at hG ⊢
      rw [addFile_eq W' n path o fo s' (hseen.trans hs), h.cwd]
      have hm : R (markSeen s (abspath W.cwd path)) (markSeen s' (abspath W.cwd path)) := by
        unfold markSeen
        rw [hc.files, hc.classes]
        exact h.setSeen (h.say hr _) _ _
      have hg := h.getItems_sim (fun p o f => ih p o f) hd (abspath W.cwd path) o s.newStyle hr hm
      rw [hc.newStyle]
      rcases hx : getItems W (addFile W n) (abspath W.cwd path) o s.newStyle s.negative (markSeen s (abspath W.cwd path)) with ⟨r, s1⟩
      rcases hy : getItems W' (addFile W' n) (abspath W.cwd path) o s.newStyle s'.negative (markSeen s' (abspath W.cwd path)) with ⟨r', s1'⟩
      rw [hx, hy] at hg
      rw [hx] at hG
      cases r with
      | error e =>
        obtain ⟨h1, h2⟩ := hg hG
        simp only at h1 h2
        subst h1
        exact ⟨rfl, h2⟩
      | ok its =>
        simp only at hG
        have h3 := h.crossLink_sim (abspath W.cwd path) its { s1 with map := enterMap s1.map (abspath W.cwd path) fo }
          { s1' with map := enterMap s1'.map (abspath W.cwd path) fo }
        have d3 := crossLink_rel h.step.refl h.step.trans h.step.reline h.step.link (abspath W.cwd path) its
          { s1 with map := enterMap s1.map (abspath W.cwd path) fo }
        rcases hx3 : crossLink (abspath W.cwd path) its { s1 with map := enterMap s1.map (abspath W.cwd path) fo } with ⟨r, s3⟩
        rcases hy3 : crossLink (abspath W.cwd path) its { s1' with map := enterMap s1'.map (abspath W.cwd path) fo } with ⟨r', s3'⟩
        rw [hx3] at hG d3
        have g1 : G s3 → G s1 := fun g => enterMap_rel h.step.refl h.step.trans h.step.link h.step.enter _ _ s1 (d3 g)
        rw [hx3, hy3] at h3
        have d5 := addDistroMachine_rel h.step.refl h.step.trans h.step.consts W (abspath W.cwd path) s3
        have g3 : G s3 := by
          cases r with
          | error e => exact hG
          | ok res =>
            simp only at hG
            rcases hx : addDistroMachine W (abspath W.cwd path) s3 with ⟨r, s4⟩
            rw [hx] at hG d5
            cases r with
            | error e => exact d5 hG
            | ok u => exact d5 (h.step.commit s4 res hG)
        obtain ⟨h1, h2⟩ := hg (g1 g3)
        simp only at h1 h2
        subst h1
        have e2 : R { s1 with map := enterMap s1.map (abspath W.cwd path) fo } { s1' with map := enterMap s1'.map (abspath W.cwd path) fo } := by
          rw [(h.core h2).map]; exact h.setMap h2 _
        simp only
        obtain ⟨h3, h4⟩ := h3 e2
        rw [hx3, hy3]
        simp only at h3 h4
        subst h3
        cases r with
        | error e => exact ⟨rfl, h4⟩
        | ok res =>
          have h5 := h.addDistroMachine_sim (abspath W.cwd path) _ _ h4
          simp only
          rcases hx : addDistroMachine W (abspath W.cwd path) s3 with ⟨r, s4⟩
          rcases hy : addDistroMachine W' (abspath W.cwd path) s3' with ⟨r', s4'⟩
          rw [hx, hy] at h5
          obtain ⟨h5, h6⟩ := h5
          simp only at h5 h6
          subst h5
          cases r with
          | error e => exact ⟨rfl, h6⟩
          | ok u => exact ⟨rfl, (h.commit_sim res _ _ h6).2⟩

end AlikeIf

namespace Alike
variable {W W' : World} {R : Stash → Stash → Prop} {file : Str}

theorem toIf (h : Alike W W' R) : AlikeIf (fun _ => True) W W' R :=
  ⟨h.toAlikeCore, ⟨fun _ _ => trivial, fun _ _ _ _ _ _ => trivial, fun _ _ => trivial, fun _ _ _ => trivial, fun _ _ _ _ => trivial,
    fun _ _ _ _ => trivial, fun _ _ _ _ => trivial, fun _ _ _ => trivial, fun _ _ _ => trivial⟩, fun hr _ => h.expand hr⟩

theorem handleKind_sim (h : Alike W W' R) {add add' : AddFn} (ha : ∀ p o f, TSim R (add p o f) (add' p o f))
    (lineno : Int) (p : Params) (k : Kind) (pat : Pattern) (m : Mt)
    (hi : k = .include → WritesInclude W file ((pat.group m c!"incname").getD []))
    (hj : k = .inherit ∨ k = .inheritGlob → WritesInherit W file ((pat.group m c!"inhname").getD [])) :
    TSim R (handleKind W add file lineno p k pat m) (handleKind W' add' file lineno p k pat m) :=
  (h.toIf.handleKind_sim (fun p o f => (ha p o f).toIf) (fun _ _ _ _ _ => trivial) lineno p k pat m hi hj).of

theorem addFile_sim (h : Alike W W' R) (n : Nat) (path : Str) (o : Int) (fo : Option Str) :
    TSim R (addFile W n path o fo) (addFile W' n path o fo) := (h.toIf.addFile_sim n path o fo).of

end Alike
end Oelint

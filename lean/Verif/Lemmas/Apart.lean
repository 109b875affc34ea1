import Verif.Lemmas.Directory
import Verif.Lemmas.Places
/-! Two worlds that differ in what is not looked at (C94, C95). -/
set_option linter.unusedSectionVars false
set_option linter.unusedSimpArgs false
namespace Oelint
variable [Uni]
open Spec

/-- the second computation does what the first one does (if `e` is false: where the first one succeeds) -/
structure ASim (e : Bool) {α : Type} (x x' : CM α) : Prop where
  run : ∀ c, (e = true ∨ ∃ a, (x c).1 = .ok a) → x' c = x c

namespace ASim
variable {e : Bool} {α β : Type}

theorem refl (x : CM α) : ASim e x x := ⟨fun _ _ => rfl⟩

theorem of_eq {x x' : CM α} (h : x' = x) : ASim e x x' := h ▸ refl _

theorem bind {x x' : CM α} {g g' : α → CM β} (hx : ASim e x x') (hg : ∀ a, ASim e (g a) (g' a)) :
    ASim e (x >>= g) (x' >>= g') := by
  refine ⟨fun c h => ?_⟩
  rw [CM.bind_def, CM.bind_def]
  rw [CM.bind_def] at h
  rcases hc : x c with ⟨r, c1⟩
  rw [hc] at h
  cases r with
  | error er =>
    have : x' c = x c := hx.run c (h.imp_right fun ⟨a, ha⟩ => by cases ha)
    rw [this, hc]
  | ok a =>
    have : x' c = x c := hx.run c (Or.inr ⟨a, by rw [hc]⟩)
    rw [this, hc]
    exact (hg a).run c1 h

theorem memo {x x' : CM CVal} (k : CKey) (hx : ASim e x x') : ASim e (Oelint.memo k x) (Oelint.memo k x') := by
  refine ⟨fun c h => ?_⟩
  unfold Oelint.memo at h ⊢
  cases hk : c.tab.lookup k with
  | some v => rfl
  | none =>
    rw [hk] at h
    simp only at h ⊢
    rcases hc : x c with ⟨r, c1⟩
    rw [hc] at h
    cases r with
    | error er =>
      rw [hx.run c (h.imp_right fun ⟨a, ha⟩ => by cases ha), hc]
    | ok a => rw [hx.run c (Or.inr ⟨a, by rw [hc]⟩), hc]

theorem lift {x x' : Except PyErr α} (h : (e = true ∨ ∃ a, x = .ok a) → x' = x) : ASim e (CM.lift x) (CM.lift x') := by
  refine ⟨fun c hh => ?_⟩
  unfold CM.lift at hh ⊢
  rw [h hh]

theorem iteC {p : Prop} [Decidable p] {x x' y y' : CM α} (hx : ASim e x x') (hy : ASim e y y') :
    ASim e (if p then x else y) (if p then x' else y') := by
  split
  · exact hx
  · exact hy

theorem cMap {f f' : α → CM β} (h : ∀ a, ASim e (f a) (f' a)) : ∀ l, ASim e (Oelint.cMap f l) (Oelint.cMap f' l)
  | [] => refl _
  | a :: l => by
    rw [Oelint.cMap, Oelint.cMap]
    exact bind (h a) fun _ => bind (cMap h l) fun _ => refl _

end ASim

/-- what the second world is made of -/
def World.apart (W : World) (d : Str) (hd : isAbs d = true) (file : Str → FileRes) (pe fi di : Str → Bool) (gl : Str → List Str) :
    World := { W with cwd := d, cwd_abs := hd, file := file, pathExists := pe, isFile := fi, isDir := di, glob := gl }

/-- the second world differs in the working directory, in what relative paths mean, and in files the first world fails to open -/
structure Apart (e : Bool) (W : World) (file : Str → FileRes) (pe fi di : Str → Bool) (gl : Str → List Str) : Prop where
  file : ∀ p, file p = W.file p ∨ (e = false ∧ W.file p = .fails)
  pathExists : ∀ p, isAbs p = true → pe p = W.pathExists p
  isFile : ∀ p, isAbs p = true → fi p = W.isFile p
  isDir : ∀ p, isAbs p = true → di p = W.isDir p
  glob : ∀ p, isAbs p = true → gl p = W.glob p

section
set_option smartUnfolding false
variable (W : World) (d : Str) (hd : isAbs d = true) (file : Str → FileRes) (pe fi di : Str → Bool) (gl : Str → List Str)

theorem apart_itemsFor : cItemsFor (W.apart d hd file pe fi di gl) = cItemsFor W := rfl
theorem apart_reduce : cReduce (W.apart d hd file pe fi di gl) = cReduce W := rfl
theorem apart_expandMany : cExpandMany (W.apart d hd file pe fi di gl) = cExpandMany W := rfl
theorem apart_confFiles : cConfFiles (W.apart d hd file pe fi di gl) = cConfFiles W := rfl
theorem apart_links : cLinksForFile (W.apart d hd file pe fi di gl) = cLinksForFile W := rfl
theorem apart_scr : cScrComponents (W.apart d hd file pe fi di gl) = cScrComponents W := rfl
theorem apart_named : cNamedResources (W.apart d hd file pe fi di gl) = cNamedResources W := rfl
theorem apart_isImage : cIsImage (W.apart d hd file pe fi di gl) = cIsImage W := rfl
theorem apart_isPackageGroup : cIsPackageGroup (W.apart d hd file pe fi di gl) = cIsPackageGroup W := rfl
theorem apart_finalize : cFinalize (W.apart d hd file pe fi di gl) = cFinalize W := rfl
theorem apart_commit : commitItems (W.apart d hd file pe fi di gl) = commitItems W := rfl
end

section
variable {e : Bool} {W : World} {d : Str} {hd : isAbs d = true} {file : Str → FileRes} {pe fi di : Str → Bool}
  {gl : Str → List Str} (h : Apart e W file pe fi di gl)
include h

theorem Apart.expandMany {rec rec' : Str → Seen → CM (Str × Seen)} (hr : ∀ v sn, ASim e (rec v sn) (rec' v sn)) (baseset : J)
    (f : Str) (spare : List Str) (quote : Str) : ∀ (ms : List Mt) (res : Str) (seen : Seen),
    ASim e (cExpandMany W baseset rec f spare quote ms res seen)
      (cExpandMany (W.apart d hd file pe fi di gl) baseset rec' f spare quote ms res seen)
  | [], _, _ => ASim.refl _
  | m :: ms, res, seen => by
    rw [cExpandMany, cExpandMany]
    refine ASim.bind ?_ fun rs => Apart.expandMany hr baseset f spare quote ms rs.1 rs.2
    unfold cExpandOne
    simp only [apart_itemsFor]
    refine ASim.iteC (ASim.refl _) (ASim.bind (ASim.refl _) fun l => ?_)
    split
    · exact ASim.refl _
    · exact ASim.refl _
    · exact ASim.refl _
    · split
      · exact ASim.refl _
      · exact ASim.bind (hr _ _) fun _ => ASim.refl _

theorem Apart.readFiles {rec rec' : Str → Seen → CM (Str × Seen)} (hr : ∀ v sn, ASim e (rec v sn) (rec' v sn)) :
    ∀ (ms : List Mt) (res : Str) (seen : Seen),
    ASim e (cReadFiles W rec ms res seen) (cReadFiles (W.apart d hd file pe fi di gl) rec' ms res seen)
  | [], _, _ => ASim.refl _
  | m :: ms, res, seen => by
    rw [cReadFiles, cReadFiles]
    refine ASim.bind (hr _ _) fun ps => ?_
    simp only
    show ASim e _ (match file (stripP (oneOf c!"'\"") ps.1) with
      | .text t => cReadFiles (W.apart d hd file pe fi di gl) rec' ms (univNewlines t) _
      | .notFound => cReadFiles (W.apart d hd file pe fi di gl) rec' ms [] _
      | .denied => cReadFiles (W.apart d hd file pe fi di gl) rec' ms [] _
      | .fails => CM.lift (.error .osError))
    rcases h.file (stripP (oneOf c!"'\"") ps.1) with hf | ⟨he, hf⟩
    · rw [hf]
      cases W.file (stripP (oneOf c!"'\"") ps.1) with
      | text t => exact Apart.readFiles hr ms _ _
      | notFound => exact Apart.readFiles hr ms _ _
      | denied => exact Apart.readFiles hr ms _ _
      | fails => exact ASim.refl _
    · refine ⟨fun c hc => ?_⟩
      rw [hf] at hc
      rcases hc with hc | ⟨a, ha⟩
      · rw [he] at hc; cases hc
      · cases ha

theorem Apart.expandTermF : ∀ (n : Nat) (f : Str) (spare : List Str) (v : Str) (seen : Seen),
    ASim e (cExpandTermF W n f spare v seen) (cExpandTermF (W.apart d hd file pe fi di gl) n f spare v seen)
  | 0, _, _, _, _ => ASim.refl _
  | n + 1, f, spare, v, seen => by
    rw [cExpandTermF, cExpandTermF]
    refine ASim.bind (ASim.refl _) fun b => ?_
    simp only
    refine ASim.bind (h.expandMany (fun v sn => Apart.expandTermF n f [] v sn) _ _ _ _ _ _ _) fun r1 => ?_
    refine ASim.bind (h.expandMany (fun v sn => Apart.expandTermF n f [] v sn) _ _ _ _ _ _ _) fun r2 => ?_
    exact h.readFiles (fun v sn => Apart.expandTermF n f spare v sn) _ _ _

theorem Apart.expandTermS (f : Str) (spare : List Str) (v : Str) :
    ASim e (cExpandTermS W f spare v) (cExpandTermS (W.apart d hd file pe fi di gl) f spare v) := by
  unfold cExpandTermS
  exact ASim.bind (ASim.refl _) fun n => ASim.bind (h.expandTermF ..) fun _ => ASim.refl _

theorem Apart.expandTerm (f v : Str) :
    ASim e (cExpandTerm W f v) (cExpandTerm (W.apart d hd file pe fi di gl) f v) := h.expandTermS f [] v

theorem Apart.explode (f : Str) : ∀ (l : ExpDict) (acc : List (Str × List Str)),
    ASim e (cExplode W f l acc) (cExplode (W.apart d hd file pe fi di gl) f l acc)
  | [], _ => ASim.refl _
  | (k, v) :: rest, acc => by
    rw [cExplode, cExplode]
    exact ASim.bind (h.expandTerm ..) fun _ => ASim.bind (h.expandTerm ..) fun _ => Apart.explode f rest _

theorem Apart.expandVar (f : Option Str) (att val : Arg) (nolink : Bool) :
    ASim e (cExpandVar W f att val nolink) (cExpandVar (W.apart d hd file pe fi di gl) f att val nolink) := by
  unfold cExpandVar
  simp only [apart_itemsFor]
  refine ASim.bind (ASim.refl _) fun a => ASim.bind (ASim.refl _) fun b => ?_
  split
  · exact ASim.refl _
  · exact ASim.bind (ASim.refl _) fun _ => h.explode ..

theorem Apart.packageLoop (f pn : Str) (strip : Bool) : ∀ (l : List VarData) (acc : List Str),
    ASim e (cPackageLoop W f pn strip l acc) (cPackageLoop (W.apart d hd file pe fi di gl) f pn strip l acc)
  | [], _ => ASim.refl _
  | v :: vs, acc => by
    rw [cPackageLoop, cPackageLoop]
    exact ASim.bind (h.expandTermS ..) fun _ => Apart.packageLoop f pn strip vs _

theorem Apart.packageNames (f : Str) (strip : Bool) :
    ASim e (cPackageNames W f strip) (cPackageNames (W.apart d hd file pe fi di gl) f strip) := by
  unfold cPackageNames
  simp only [apart_itemsFor]
  refine ASim.bind (ASim.memo _ ?_) fun _ => ASim.refl _
  exact ASim.bind (ASim.refl _) fun a => ASim.bind (ASim.refl _) fun b => ASim.bind (h.packageLoop ..) fun r =>
    ASim.bind (h.packageLoop ..) fun r => ASim.refl _

theorem Apart.dynLoop (f : Str) : ∀ (l : List VarData) (acc : List Str),
    ASim e (cDynLoop W f l acc) (cDynLoop (W.apart d hd file pe fi di gl) f l acc)
  | [], _ => ASim.refl _
  | v :: vs, acc => by
    rw [cDynLoop, cDynLoop]
    exact ASim.bind (h.expandTerm ..) fun _ => Apart.dynLoop f vs _

theorem Apart.packagesDynamic (f : Str) :
    ASim e (cPackagesDynamic W f) (cPackagesDynamic (W.apart d hd file pe fi di gl) f) := by
  unfold cPackagesDynamic
  simp only [apart_itemsFor]
  refine ASim.bind (ASim.memo _ ?_) fun _ => ASim.refl _
  exact ASim.bind (ASim.refl _) fun a => ASim.bind (h.dynLoop ..) fun r => ASim.refl _

theorem Apart.isDynamicPackage (f n : Str) :
    ASim e (cIsDynamicPackage W f n) (cIsDynamicPackage (W.apart d hd file pe fi di gl) f n) := by
  unfold cIsDynamicPackage
  refine ASim.bind (ASim.memo _ ?_) fun _ => ASim.refl _
  refine ASim.bind (h.expandTerm ..) fun _ => ASim.bind (h.packagesDynamic ..) fun _ => ?_
  exact ASim.refl _

theorem Apart.files (hg : ∀ p, gl p = W.glob p) (f pat : Str) :
    ASim e (cFiles W f pat) (cFiles (W.apart d hd file pe fi di gl) f pat) := by
  have : (W.apart d hd file pe fi di gl).glob = W.glob := funext hg
  unfold cFiles
  simp only [apart_itemsFor, this]
  exact ASim.refl _

theorem Apart.question (q : Question) (hq : (∀ p, gl p = W.glob p) ∨ ∀ f p, q ≠ .files f p) :
    ASim e (q.ask W) (q.ask (W.apart d hd file pe fi di gl)) := by
  cases q <;> simp only [Question.ask]
  case itemsFor f => exact ASim.refl _
  case reduce l f => exact ASim.refl _
  case expandTerm f v sp => exact ASim.bind (h.expandTermS ..) fun _ => ASim.refl _
  case expandVar f a v n => exact ASim.bind (h.expandVar ..) fun _ => ASim.refl _
  case recipes => exact ASim.refl _
  case loneAppends => exact ASim.refl _
  case confFiles => exact ASim.refl _
  case bbClasses => exact ASim.refl _
  case links f => exact ASim.bind (ASim.of_eq (by rw [apart_links])) fun _ => ASim.refl _
  case files f p =>
    rcases hq with hq | hq
    · exact ASim.bind (h.files hq ..) fun _ => ASim.refl _
    · exact absurd rfl (hq f p)
  case scrComponents t => exact ASim.bind (ASim.of_eq (by rw [apart_scr])) fun _ => ASim.refl _
  case packageNames f b => exact ASim.bind (h.packageNames ..) fun _ => ASim.refl _
  case namedResources f => exact ASim.bind (ASim.of_eq (by rw [apart_named])) fun _ => ASim.refl _
  case isImage f => exact ASim.bind (ASim.of_eq (by rw [apart_isImage])) fun _ => ASim.refl _
  case isPackageGroup f => exact ASim.bind (ASim.of_eq (by rw [apart_isPackageGroup])) fun _ => ASim.refl _
  case packagesDynamic f => exact ASim.bind (h.packagesDynamic ..) fun _ => ASim.refl _
  case isDynamicPackage f n => exact ASim.bind (h.isDynamicPackage ..) fun _ => ASim.refl _

/-! ## looking for files -/

theorem Apart.layerRootLoop : ∀ (n : Nat) (cur : Str), isAbs cur = true →
    layerRootLoop (W.apart d hd file pe fi di gl) n cur = layerRootLoop W n cur
  | 0, _, _ => rfl
  | n + 1, cur, hc => by
    have hdn := isAbs_dirname hc
    rw [Oelint.layerRootLoop, Oelint.layerRootLoop]
    show (if di cur then _ else _) = _
    simp only [show (W.apart d hd file pe fi di gl).pathExists = pe from rfl, h.isDir _ hc, h.pathExists _ (isAbs_pathJoin hdn),
      Apart.layerRootLoop n _ hdn]

theorem Apart.findLoop (name : Str) : ∀ (n : Nat) (cur : Str), isAbs cur = true →
    findLoop (W.apart d hd file pe fi di gl) name n cur = findLoop W name n cur
  | 0, _, _ => rfl
  | n + 1, cur, hc => by
    have hdn := isAbs_dirname hc
    rw [Oelint.findLoop, Oelint.findLoop]
    show (if di cur then _ else _) = _
    simp only [show (W.apart d hd file pe fi di gl).pathExists = pe from rfl, h.isDir _ hc, h.pathExists _ (isAbs_pathJoin hdn),
      Apart.findLoop name n _ hdn]

theorem Apart.find (name dir : Str) (hc : isAbs dir = true) :
    findLocalOrLayer (W.apart d hd file pe fi di gl) name dir = findLocalOrLayer W name dir := by
  unfold findLocalOrLayer
  rw [h.findLoop _ _ _ hc]
  show (if pe _ then _ else _) = _
  rw [h.pathExists _ (isAbs_pathJoin hc)]

theorem Apart.findClass (dir inh : Str) (hc : isAbs dir = true) : ∀ locs,
    findClass (W.apart d hd file pe fi di gl) dir inh locs = findClass W dir inh locs
  | [] => rfl
  | l :: locs => by
    rw [Oelint.findClass, Oelint.findClass, h.find _ _ hc, Apart.findClass dir inh hc locs]

theorem Apart.layerRoot (f : Str) (hf : isAbs f = true) :
    getLayerRoot (W.apart d hd file pe fi di gl) f = getLayerRoot W f := by
  have hs : layerStart (W.apart d hd file pe fi di gl) f = layerStart W f := by
    unfold layerStart
    show (if fi f then _ else _) = _
    rw [h.isFile _ hf]
  have ha : isAbs (layerStart W f) = true := by
    unfold layerStart
    split
    · exact isAbs_dirname hf
    · exact hf
  unfold getLayerRoot
  rw [hs, h.layerRootLoop _ _ ha]

end

theorem layerRootLoop_abs (W : World) : ∀ (n : Nat) (cur r : Str), isAbs cur = true → layerRootLoop W n cur = some r →
    r = [] ∨ isAbs r = true
  | 0, _, _, _, h => by cases h
  | n + 1, cur, r, hc, h => by
    rw [Oelint.layerRootLoop] at h
    split at h
    · split at h
      · exact Or.inl (Option.some.inj h).symm
      · simp only at h
        split at h
        · exact Or.inr ((Option.some.inj h) ▸ isAbs_dirname hc)
        · exact layerRootLoop_abs W n _ r (isAbs_dirname hc) h
    · exact Or.inl (Option.some.inj h).symm

theorem layerRoot_abs (W : World) {f r : Str} (hf : isAbs f = true) (h : getLayerRoot W f = .ok r) : r = [] ∨ isAbs r = true := by
  unfold getLayerRoot at h
  split at h
  · rename_i r' hr
    cases h
    refine layerRootLoop_abs W _ _ _ ?_ hr
    unfold layerStart
    split
    · exact isAbs_dirname hf
    · exact hf
  · cases h

theorem findLoop_abs (W : World) (name : Str) : ∀ (n : Nat) (cur r : Str), isAbs cur = true → findLoop W name n cur = some r →
    r = [] ∨ isAbs r = true
  | 0, _, _, _, h => by cases h
  | n + 1, cur, r, hc, h => by
    rw [Oelint.findLoop] at h
    split at h
    · split at h
      · exact Or.inl (Option.some.inj h).symm
      · simp only at h
        split at h
        · split at h
          · exact Or.inr ((Option.some.inj h) ▸ isAbs_pathJoin (isAbs_dirname hc))
          · exact Or.inl (Option.some.inj h).symm
        · exact findLoop_abs W name n _ r (isAbs_dirname hc) h
    · exact Or.inl (Option.some.inj h).symm

theorem find_abs (W : World) {name dir r : Str} (hc : isAbs dir = true) (h : findLocalOrLayer W name dir = .ok r) :
    r = [] ∨ isAbs r = true := by
  unfold findLocalOrLayer at h
  split at h
  · cases h
    exact Or.inr (isAbs_pathJoin hc)
  · split at h
    · rename_i r' hr
      cases h
      exact findLoop_abs W name _ _ _ hc hr
    · cases h

theorem findClass_abs (W : World) {dir inh : Str} (hc : isAbs dir = true) : ∀ (locs : List Str) (r : Str),
    findClass W dir inh locs = .ok r → r = [] ∨ isAbs r = true
  | [], r, h => by cases h; exact Or.inl rfl
  | l :: locs, r, h => by
    rw [Oelint.findClass] at h
    split at h
    · cases h
    · rename_i p hp
      split at h
      · exact findClass_abs W hc locs r h
      · cases h
        exact find_abs W hc hp

/-! ## AddFile -/

/-- the second computation does what the first one does, where the remembered places are right -/
structure PSim (e : Bool) (W : World) {α : Type} (x x' : CM α) : Prop where
  run : ∀ c, PlacesRight W c → (e = true ∨ ∃ a, (x c).1 = .ok a) → x' c = x c

namespace PSim
variable {e : Bool} {W : World} {α β : Type}

theorem refl (x : CM α) : PSim e W x x := ⟨fun _ _ _ => rfl⟩

theorem of_eq {x x' : CM α} (h : x' = x) : PSim e W x x' := h ▸ refl _

theorem of {x x' : CM α} (h : ASim e x x') : PSim e W x x' := ⟨fun c _ => h.run c⟩

/-- the rest of the computation only has to agree on what the first part can give -/
theorem bindWith {x x' : CM α} {g g' : α → CM β} (P : α → Prop) (px : Placed W x) (hx : PSim e W x x')
    (hP : ∀ c, PlacesRight W c → ∀ a, (x c).1 = .ok a → P a) (hg : ∀ a, P a → PSim e W (g a) (g' a)) : PSim e W (x >>= g) (x' >>= g') := by
  refine ⟨fun c hr h => ?_⟩
  have h1 := px c hr
  have h2 := hP c hr
  rw [CM.bind_def, CM.bind_def]
  rw [CM.bind_def] at h
  rcases hc : x c with ⟨r, c1⟩
  rw [hc] at h h1 h2
  cases r with
  | error er =>
    have : x' c = x c := hx.run c hr (h.imp_right fun ⟨a, ha⟩ => by cases ha)
    rw [this, hc]
  | ok a =>
    have : x' c = x c := hx.run c hr (Or.inr ⟨a, by rw [hc]⟩)
    rw [this, hc]
    exact (hg a (h2 a rfl)).run c1 h1 h

theorem bind {x x' : CM α} {g g' : α → CM β} (px : Placed W x) (hx : PSim e W x x') (hg : ∀ a, PSim e W (g a) (g' a)) :
    PSim e W (x >>= g) (x' >>= g') := bindWith (fun _ => True) px hx (fun _ _ _ _ => trivial) (fun a _ => hg a)

end PSim

section
variable {e : Bool} {W : World} {d : Str} {hd : isAbs d = true} {file : Str → FileRes} {pe fi di : Str → Bool}
  {gl : Str → List Str} (h : Apart e W file pe fi di gl)
include h

theorem Apart.cFind (name dir : Str) (hc : isAbs dir = true) :
    cFindLocalOrLayer (W.apart d hd file pe fi di gl) name dir = cFindLocalOrLayer W name dir := by
  unfold cFindLocalOrLayer
  rw [h.find _ _ hc]

theorem Apart.cFindClass (dir inh : Str) (hc : isAbs dir = true) : ∀ locs,
    cFindClass (W.apart d hd file pe fi di gl) dir inh locs = cFindClass W dir inh locs
  | [] => rfl
  | l :: locs => by
    rw [Oelint.cFindClass, Oelint.cFindClass, h.cFind _ _ hc, Apart.cFindClass dir inh hc locs]

end

section
variable {e : Bool} {W : World} {d : Str} {hd : isAbs d = true} {file : Str → FileRes} {pe fi di : Str → Bool}
  {gl : Str → List Str} (h : Apart e W file pe fi di gl)
  {add add' : CAddFn} (pa : ∀ p o f, Placed W (add p o f))
  (ha : ∀ p o f, isAbs p = true → PSim e W (add p o f) (add' p o f)) {f : Str} (hf : isAbs f = true)
include h pa ha hf

theorem Apart.inheritLoop (lineno : Int) (inhname : Str) (locs : List Str) : ∀ (l found : List Str) (off : Int),
    PSim e W (cInheritLoop W add f lineno inhname locs l found off)
      (cInheritLoop (W.apart d hd file pe fi di gl) add' f lineno inhname locs l found off)
  | [], _, _ => PSim.refl _
  | i :: l, found, off => by
    rw [cInheritLoop, cInheritLoop, h.cFindClass _ _ (isAbs_dirname hf)]
    refine PSim.bindWith (fun path => path = [] ∨ isAbs path = true) (placed_findClass W _ _ _) (PSim.refl _)
      (fun c hc a hca => findClass_abs W (isAbs_dirname hf) _ _ ((right_findClass _ _ _ hc).symm.trans hca)) fun path hp => ?_
    split
    · exact Apart.inheritLoop lineno inhname locs l _ _
    · rename_i hne
      refine PSim.bind (placed_ask _) (PSim.refl _) fun ign => ?_
      split
      · exact Apart.inheritLoop lineno inhname locs l _ _
      · rcases hp with hz | hz
        · rw [hz] at hne
          exact absurd rfl hne
        · exact PSim.bind (pa _ _ _) (ha _ _ _ hz) fun tmp => Apart.inheritLoop lineno inhname locs l _ _

theorem Apart.handleKind (lineno : Int) (p : Params) (k : Kind) (pat : Pattern) (m : Mt) :
    PSim e W (cHandleKind W add f lineno p k pat m) (cHandleKind (W.apart d hd file pe fi di gl) add' f lineno p k pat m) := by
  cases k <;> unfold cHandleKind <;> simp only
  case inherit =>
    refine PSim.bind (placed_expandTermS W _ _ _) (PSim.of (h.expandTerm ..)) fun inhname => ?_
    exact PSim.bind (placed_inheritLoop W pa _ _ _ _ _ _ _) (h.inheritLoop pa ha hf _ _ _ _ _ _) fun r => PSim.refl _
  case inheritGlob =>
    refine PSim.bind (placed_expandTermS W _ _ _) (PSim.of (h.expandTerm ..)) fun inhname => ?_
    exact PSim.bind (placed_inheritLoop W pa _ _ _ _ _ _ _) (h.inheritLoop pa ha hf _ _ _ _ _ _) fun r => PSim.refl _
  case «include» =>
    refine PSim.bind (placed_expandTermS W _ _ _) (PSim.of (h.expandTerm ..)) fun name => ?_
    rw [h.cFind _ _ (isAbs_dirname hf)]
    refine PSim.bindWith (fun path => path = [] ∨ isAbs path = true) (placed_findLocalOrLayer W _ _) (PSim.refl _)
      (fun c hc a hca => find_abs W (isAbs_dirname hf) ((right_findLocalOrLayer hc _ _).symm.trans hca)) fun path hp => ?_
    split
    · exact PSim.refl _
    · rename_i hne
      refine PSim.bind (placed_ask _) (PSim.refl _) fun ign => ?_
      split
      · exact PSim.refl _
      · rcases hp with hz | hz
        · rw [hz] at hne
          exact absurd rfl hne
        · exact PSim.bind (pa _ _ _) (ha _ _ _ hz) fun tmp => PSim.refl _
  all_goals exact PSim.refl _

theorem Apart.classify (lineno : Int) (p : Params) (cnt : Str) : ∀ l : List (Kind × Pattern),
    PSim e W (cClassify W add f lineno p cnt l) (cClassify (W.apart d hd file pe fi di gl) add' f lineno p cnt l)
  | [] => PSim.refl _
  | (k, pat) :: rest => by
    rw [cClassify, cClassify]
    split
    · exact Apart.classify lineno p cnt rest
    · refine PSim.bind (placed_handleKind W pa _ _ _ _ _ _) (h.handleKind pa ha hf _ _ _ _ _) fun r => ?_
      split
      · exact PSim.refl _
      · exact Apart.classify lineno p cnt rest

theorem Apart.itemsLoop (lineOffset : Int) : ∀ (l : List Chunk) (off : Int) (ns : Bool),
    PSim e W (cItemsLoop W add f lineOffset off ns l) (cItemsLoop (W.apart d hd file pe fi di gl) add' f lineOffset off ns l)
  | [], _, _ => PSim.refl _
  | c :: cs, off, ns => by
    rw [cItemsLoop, cItemsLoop]
    refine PSim.bind (placed_classify W pa _ _ _ _ _) (h.classify pa ha hf _ _ _ _) fun r => ?_
    exact PSim.bind (placed_itemsLoop W pa _ _ _ _ _) (Apart.itemsLoop lineOffset cs _ _) fun _ => PSim.refl _

theorem Apart.getItems (lineOffset : Int) (ns neg : Bool) :
    PSim e W (cGetItems W add f lineOffset ns neg) (cGetItems (W.apart d hd file pe fi di gl) add' f lineOffset ns neg) := by
  unfold cGetItems
  simp only [hf, if_true]
  refine PSim.bind (placed_lift _) (PSim.of (ASim.lift fun hh => ?_)) fun chunks => h.itemsLoop pa ha hf _ _ _ _
  unfold prepareLines at hh ⊢
  show (match file f with
    | .text t => chunksOf lineOffset neg (univNewlines t)
    | .notFound => .ok []
    | .denied => .error .osError
    | .fails => .error .osError) = _
  rcases h.file f with hw | ⟨he, hw⟩
  · rw [hw]
    rfl
  · rw [hw] at hh
    rcases hh with hh | ⟨a, hh⟩
    · rw [he] at hh; cases hh
    · cases hh

end

section
variable {e : Bool} {W : World} {d : Str} {hd : isAbs d = true} {file : Str → FileRes} {pe fi di : Str → Bool}
  {gl : Str → List Str} (h : Apart e W file pe fi di gl)
include h

theorem Apart.distro (f : Str) (hf : isAbs f = true) :
    PSim e W (cAddDistroMachine W f) (cAddDistroMachine (W.apart d hd file pe fi di gl) f) := by
  have hl : cLayerRoot (W.apart d hd file pe fi di gl) f = cLayerRoot W f := by
    unfold cLayerRoot
    rw [h.layerRoot _ hf]
  have hp : Placed W (cLayerRoot W f) := by
    intro c hc
    have := placed_addLayer W f c hc
    unfold cAddDistroMachine at this
    rw [CM.bind_def] at this
    rcases hx : cLayerRoot W f c with ⟨r, c'⟩
    rw [hx] at this
    cases r <;> exact this
  unfold cAddDistroMachine
  rw [hl]
  refine PSim.bindWith (fun r => r = [] ∨ isAbs r = true) hp (PSim.refl _)
    (fun c hc a hca => layerRoot_abs W hf ((right_layerRoot hc f).symm.trans hca)) fun r hr => PSim.of_eq ?_
  congr 1
  unfold addLayerConfs
  rcases hr with rfl | hra
  · rfl
  · split
    · rfl
    · rw [show (W.apart d hd file pe fi di gl).glob = gl from rfl,
        h.glob _ (isAbs_pathJoin (isAbs_pathJoin (isAbs_pathJoin hra))),
        h.glob _ (isAbs_pathJoin (isAbs_pathJoin (isAbs_pathJoin hra)))]

theorem Apart.addFile : ∀ (n : Nat) (path : Str) (off : Int) (forced : Option Str), abspath d path = abspath W.cwd path →
    PSim e W (cAddFile W n path off forced) (cAddFile (W.apart d hd file pe fi di gl) n path off forced)
  | 0, _, _, _, _ => PSim.refl _
  | n + 1, path, off, forced, hp => by
    have hf := isAbs_abspath (W := W) path
    rw [cAddFile, cAddFile, show (W.apart d hd file pe fi di gl).cwd = d from rfl, hp, apart_commit]
    refine PSim.bind (placed_ask _) (PSim.refl _) fun s => ?_
    split
    · exact PSim.refl _
    · refine PSim.bind (placed_base _) (PSim.refl _) fun _ => PSim.bind ?_ (h.getItems ?_ ?_ hf _ _ _) fun _ => ?_
      · unfold cGetItems
        exact placed_bind (placed_lift _) fun _ => placed_itemsLoop W (fun p o f => placed_addFile W n p o f) _ _ _ _ _
      · exact fun p o f => placed_addFile W n p o f
      · exact fun p o f hpa => Apart.addFile n p o f (abspath_abs hpa)
      · refine PSim.bind (placed_base _) (PSim.refl _) fun _ => PSim.bind (placed_base _) (PSim.refl _) fun _ => ?_
        exact PSim.bind (placed_addLayer W _) (h.distro _ hf) fun _ => PSim.refl _

theorem Apart.call (n : Nat) (k : Call) (hk : ∀ p o f, k = .addFile p o f → abspath d p = abspath W.cwd p) :
    PSim e W (k.perform W n) (k.perform (W.apart d hd file pe fi di gl) n) := by
  cases k with
  | addFile p o f => exact h.addFile n p o f (hk p o f rfl)
  | append l => exact PSim.refl _
  | remove l => exact PSim.refl _
  | finalize => exact PSim.of_eq (by simp only [Call.perform]; rw [apart_finalize])

end

theorem apart_form {W W' : World} (h1 : W'.itemOrder = W.itemOrder) (h2 : W'.strOrder = W.strOrder) (h3 : W'.urlparse = W.urlparse)
    (h4 : W'.printable = W.printable) (h5 : W'.sha1 = W.sha1) :
    W' = W.apart W'.cwd W'.cwd_abs W'.file W'.pathExists W'.isFile W'.isDir W'.glob := by
  cases W'; cases W
  simp only at h1 h2 h3 h4 h5
  subst h1 h2 h3 h4 h5
  rfl

theorem Apart.observe {e : Bool} {W : World} {d : Str} {hd : isAbs d = true} {file : Str → FileRes} {pe fi di : Str → Bool}
    {gl : Str → List Str} (h : Apart e W file pe fi di gl) : ∀ (acts : List Act) (c : CStash), PlacesRight W c →
    (∀ n k, Act.call n k ∈ acts → ∀ p o f, k = .addFile p o f → abspath d p = abspath W.cwd p) →
    ((∀ p, gl p = W.glob p) ∨ ∀ f p, Act.ask (.files f p) ∉ acts) →
    (e = true ∨ ∀ r ∈ observe W acts c, r.fine) →
    observe (W.apart d hd file pe fi di gl) acts c = observe W acts c ∧
      afterActs (W.apart d hd file pe fi di gl) acts c = afterActs W acts c
  | [], _, _, _, _, _ => ⟨rfl, rfl⟩
  | .ask q :: rest, c, hc, hk, hq, he => by
    have h1 : q.ask (W.apart d hd file pe fi di gl) c = q.ask W c := by
      refine (h.question q ?_).run c ?_
      · refine hq.imp_right fun hh f p hqf => hh f p ?_
        rw [hqf]
        exact List.mem_cons_self
      · exact he.imp_right fun hh => hh _ (List.mem_cons_self)
    have h2 := Apart.observe (hd := hd) h rest (q.ask W c).2 (placed_question W q c hc) (fun n k hm => hk n k (List.mem_cons_of_mem _ hm))
      (hq.imp_right fun hh f p hm => hh f p (List.mem_cons_of_mem _ hm))
      (he.imp_right fun hh r hm => hh r (List.mem_cons_of_mem _ hm))
    simp only [Spec.observe, afterActs, h1, h2.1, h2.2, and_self]
  | .call n k :: rest, c, hc, hk, hq, he => by
    have h1 : k.perform (W.apart d hd file pe fi di gl) n c = k.perform W n c :=
      (h.call n k (hk n k List.mem_cons_self)).run c hc (he.imp_right fun hh => hh _ (List.mem_cons_self))
    have h2 := Apart.observe (hd := hd) h rest (k.perform W n c).2 (placed_call W n k c hc) (fun n k hm => hk n k (List.mem_cons_of_mem _ hm))
      (hq.imp_right fun hh f p hm => hh f p (List.mem_cons_of_mem _ hm))
      (he.imp_right fun hh r hm => hh r (List.mem_cons_of_mem _ hm))
    simp only [Spec.observe, afterActs, h1, h2.1, h2.2, and_self]

end Oelint

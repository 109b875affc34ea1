import Verif.Lemmas.CacheAsk
import Verif.Lemmas.Constants
import Verif.Spec.Cache
import Verif.Lemmas.History
/-! The operations with caches do what the operations without caches do. -/
set_option linter.unusedSectionVars false
set_option linter.unusedSimpArgs false
namespace Oelint
variable [Uni] {W : World}
open Spec

/-! ## what the answers depend on -/

/-- the parts of the stash that questions read -/
def SameView (s s' : Stash) : Prop := s'.items = s.items ∧ s'.map = s.map ∧ s'.consts = s.consts

theorem SameView.refl (s : Stash) : SameView s s := ⟨rfl, rfl, rfl⟩
theorem SameView.trans {a b c : Stash} (h1 : SameView a b) (h2 : SameView b c) : SameView a c :=
  ⟨h2.1.trans h1.1, h2.2.1.trans h1.2.1, h2.2.2.trans h1.2.2⟩

theorem getItemsFor_view {s s' : Stash} (h : SameView s s') (f : Filter) : getItemsFor W s' f = getItemsFor W s f := by
  obtain ⟨i, sf, sc, m, ns, ng, hs, c, u⟩ := s
  obtain ⟨i', sf', sc', m', ns', ng', hs', c', u'⟩ := s'
  obtain ⟨h1, h2, h3⟩ := h
  cases h1; cases h2; cases h3
  rfl

theorem expandMany_view {s s' : Stash} (h : SameView s s') {rec rec' : Str → Seen → Except PyErr (Str × Seen)} (hrec : rec' = rec)
    (baseset : J) (file : Str) (spare : List Str) (quote : Str) (ms : List Mt) (res : Str) (seen : Seen) :
    expandMany W s' baseset rec' file spare quote ms res seen = expandMany W s baseset rec file spare quote ms res seen := by
  subst hrec
  induction ms generalizing res seen with
  | nil => rfl
  | cons m ms ih =>
    have e : expandOne W s' baseset rec' file spare quote m res seen = expandOne W s baseset rec' file spare quote m res seen := by
      unfold expandOne sourceOf assignments
      simp only [getItemsFor_view h]
    unfold expandMany
    rw [e]
    cases expandOne W s baseset rec' file spare quote m res seen with
    | error e => rfl
    | ok r => exact ih r.1 r.2

theorem expandTermF_view {s s' : Stash} (h : SameView s s') (n : Nat) (file : Str) (spare : List Str) (value : Str) (seen : Seen) :
    expandTermF W s' n file spare value seen = expandTermF W s n file spare value seen := by
  induction n generalizing spare value seen with
  | zero => rfl
  | succ n ih =>
    have e : ∀ sp, (fun v sn => expandTermF W s' n file sp v sn) = (fun v sn => expandTermF W s n file sp v sn) := by
      intro sp; funext v sn; exact ih sp v sn
    unfold expandTermF
    rw [h.2.2]
    cases setsBase s.consts with
    | error e => rfl
    | ok baseset =>
      simp only [e]
      simp only [expandMany_view h rfl]

theorem expandTermS_view {s s' : Stash} (h : SameView s s') (file : Str) (spare : List Str) (value : Str) :
    expandTermS W s' file spare value = expandTermS W s file spare value := by
  unfold expandTermS
  rw [expandTermF_view h]
  have : expandBound s' value = expandBound s value := by
    unfold expandBound knownNames knownTexts
    rw [h.1, h.2.2]
  rw [this]

theorem packageLoop_view {s s' : Stash} (h : SameView s s') (file pn : Str) (b : Bool) (vs : List VarData) (res : List Str) :
    packageLoop W s' file pn b vs res = packageLoop W s file pn b vs res := by
  induction vs generalizing res with
  | nil => rfl
  | cons v vs ih =>
    unfold packageLoop packageWords
    rw [expandTermS_view h]
    cases expandTermS W s file [c!"PN"] (varValueStripped v) with
    | error e => rfl
    | ok t => exact ih _

theorem getScrComponents_mirrors {s s' : Stash} (h : mirrorsKnown s'.consts = mirrorsKnown s.consts) (t : Str) :
    getScrComponents W s' t = getScrComponents W s t := by
  unfold getScrComponents withKnownMirrors
  rw [h]

theorem namedLoop_view {s s' : Stash} (h : SameView s s') (pn : Str) (ws res : List Str) :
    namedLoop W s' pn ws res = namedLoop W s pn ws res := by
  induction ws generalizing res with
  | nil => rfl
  | cons w ws ih =>
    unfold namedLoop
    rw [getScrComponents_mirrors (s := s) (s' := s') (by rw [h.2.2]) w]
    cases getScrComponents W s w with
    | error e => rfl
    | ok url =>
      simp only
      cases dget c!"name" url.options with
      | none => exact ih _
      | some n => exact ih _

theorem dynLoop_view {s s' : Stash} (h : SameView s s') (file : Str) (vs : List VarData) (res : List Str) :
    dynLoop W s' file vs res = dynLoop W s file vs res := by
  induction vs generalizing res with
  | nil => rfl
  | cons v vs ih =>
    unfold dynLoop expandTerm
    rw [expandTermS_view h]
    cases expandTermS W s file [] (varValueStripped v) with
    | error e => rfl
    | ok t => exact ih _

theorem isLinkedTo_view {s s' : Stash} (h : s'.map = s.map) (x : Item) (f : Str) (n : Bool) : isLinkedTo s' x f n = isLinkedTo s x f n := by
  unfold isLinkedTo
  rw [h]

theorem freshVal_view {s s' : Stash} (h : SameView s s') (k : CKey) : freshVal W s' k = freshVal W s k := by
  cases k with
  | linked x f n => simp only [freshVal, isLinkedTo_view h.2.1]
  | byFile l f n => simp only [freshVal, isLinkedTo_view h.2.1]
  | byClassifier l cs => rfl
  | byAttribute l a v => rfl
  | recipes => simp only [freshVal, getRecipes, h.2.1]
  | loneAppends => simp only [freshVal, getLoneAppends, h.1, h.2.1]
  | confFiles => simp only [freshVal, getConfFiles, h.1]
  | bbClasses => simp only [freshVal, getBBClasses, h.1]
  | links f => simp only [freshVal, getLinksForFile, getItemsByFile, isLinkedTo_view h.2.1, h.1]
  | files f p => simp only [freshVal, getFiles, getItemsFor_view h]
  | scr t => simp only [freshVal, getScrComponents_mirrors (show mirrorsKnown s'.consts = mirrorsKnown s.consts by rw [h.2.2])]
  | packageNames f b => simp only [freshVal, getValidPackageNames, getItemsFor_view h, packageLoop_view h]
  | namedResources f => simp only [freshVal, getValidNamedResources, getItemsFor_view h, namedLoop_view h]
  | isImage f => simp only [freshVal, isImage, getItemsFor_view h, h.2.2]
  | isPackageGroup f => simp only [freshVal, isPackageGroup, getItemsFor_view h]
  | packagesDynamic f => simp only [freshVal, getPackagesDynamic, getItemsFor_view h, dynLoop_view h]
  | isDynamicPackage f n =>
    simp only [freshVal, isDynamicPackage, expandTerm, expandTermS_view h, getPackagesDynamic, getItemsFor_view h, dynLoop_view h]
  | layerRoot n => rfl
  | found n d => rfl

/-! ## the mirrors are not touched -/

theorem mirrorsKnown_eq (db : J) : mirrorsKnown db = getKeys [c!"replacements", c!"mirrors"] db := by
  unfold mirrorsKnown constGet getByPath
  rw [show pathKeys c!"replacements/mirrors" = [c!"replacements", c!"mirrors"] by decide]

theorem mergeKV_add_cons (a : KV) (k : Str) (v : J) (rest : KV) : mergeKV .add a (.cons k v rest) =
    match a.get k with
    | none => mergeKV .add (a.set k v) rest
    | some ak => match mergeJ .add ak v with
      | (ak', none) => mergeKV .add (a.set k ak') rest
      | (ak', some e) => (a.set k ak', some e) := by
  rw [mergeKV]
  · rfl
  · intro h; cases h

theorem mergeKV_add_one (a : KV) (k : Str) (v : J) :
    ∃ w, (mergeKV .add a (.cons k v .nil)).1 = a.set k w ∧
      ((a.get k = none ∧ w = v) ∨ ∃ ak, a.get k = some ak ∧ w = (mergeJ .add ak v).1) := by
  rw [mergeKV_add_cons]
  cases h : a.get k with
  | none => simp only [mergeKV_nil]; exact ⟨v, rfl, Or.inl ⟨trivial, rfl⟩⟩
  | some x =>
    simp only
    cases hm : mergeJ .add x v with
    | mk r e =>
      cases e with
      | none => simp only [mergeKV_nil]; exact ⟨r, rfl, Or.inr ⟨x, rfl, by rw [hm]⟩⟩
      | some e => exact ⟨r, rfl, Or.inr ⟨x, rfl, by rw [hm]⟩⟩

theorem mergeJ_under {op : MergeOp} {x : J} (hx : ¬ IsDict x) (b : KV) : (mergeJ op x (.dict b)).1 = x := by
  cases x with
  | dict a => exact absurd ⟨a, rfl⟩ hx
  | list xs => simp [mergeJ]
  | str s => simp [mergeJ]

theorem addConstants_mirrors (db : J) {key : Str} (hk : key ≠ c!"mirrors") (fn : Str) :
    mirrorsKnown (addConstants db (replConst key fn)).1 = mirrorsKnown db := by
  rw [mirrorsKnown_eq, mirrorsKnown_eq]
  have hget : ∀ (a2 : KV) v, (a2.set key v).get c!"mirrors" = a2.get c!"mirrors" := by
    intro a2 v
    rw [KV.get_set, if_neg (fun h => hk h.symm)]
  have inner : ∀ ak : J, getKeys [c!"mirrors"] (mergeJ .add ak (.dict (.cons key (.list [fn]) .nil))).1 = getKeys [c!"mirrors"] ak := by
    intro ak
    cases ak with
    | list xs => rw [mergeJ_under (by rintro ⟨d, hd⟩; cases hd)]
    | str s => rw [mergeJ_under (by rintro ⟨d, hd⟩; cases hd)]
    | dict a2 =>
      rw [mergeJ_dict]
      obtain ⟨w, hw, _⟩ := mergeKV_add_one a2 key (.list [fn])
      simp only [hw]
      simp only [getKeys, hget]
  unfold addConstants mergeDb
  cases db with
  | list xs => rw [mergeJ_under (by rintro ⟨d, hd⟩; cases hd)]
  | str s => rw [mergeJ_under (by rintro ⟨d, hd⟩; cases hd)]
  | dict a =>
    rw [mergeJ_dict]
    unfold replConst
    obtain ⟨w, hw, h⟩ := mergeKV_add_one a c!"replacements" (.dict (.cons key (.list [fn]) .nil))
    simp only [hw]
    have h1 : ∀ x : KV, getKeys [c!"replacements", c!"mirrors"] (.dict x) = getKeys [c!"mirrors"] ((x.get c!"replacements").getD J.empty) := fun x => rfl
    rw [h1, h1, KV.get_set, if_pos rfl]
    rcases h with ⟨h, rfl⟩ | ⟨ak, h, rfl⟩
    · rw [h]
      have : (key == c!"mirrors") = false := by simpa using hk
      simp only [getKeys, KV.get, J.empty, Option.getD_some, Option.getD_none]
      first | rfl | simp [KV.get, hk, Ne.symm hk]
    · rw [h, Option.getD_some, Option.getD_some, inner]

/-- the known mirrors stay the same -/
def SameMirrors (s s' : Stash) : Prop := mirrorsKnown s'.consts = mirrorsKnown s.consts

theorem sameMirrors_trans : ∀ a b c, SameMirrors a b → SameMirrors b c → SameMirrors a c := fun _ _ _ h1 h2 => Eq.trans h2 h1

theorem addConfs_mirrors {key : Str} (hk : key ≠ c!"mirrors") (l : List Str) : M.Rel SameMirrors (addConfs key l) := by
  induction l with
  | nil => exact fun s => rfl
  | cons conf rest ih =>
    intro s
    rw [addConfs_cons]
    have h := addConstants_mirrors s.consts hk (splitext (basename conf)).1
    cases hm : addConstants s.consts (replConst key (splitext (basename conf)).1) with
    | mk db e =>
      rw [hm] at h
      cases e with
      | none => exact sameMirrors_trans _ { s with consts := db } _ h (ih _)
      | some e => exact h

theorem addDistroMachine_mirrors (path : Str) : M.Rel SameMirrors (addDistroMachine W path) := by
  unfold addDistroMachine
  refine M.Rel.bind sameMirrors_trans (fun s => rfl) fun root => ?_
  split
  · exact fun s => rfl
  · exact M.Rel.bind sameMirrors_trans (addConfs_mirrors (by decide) _) fun _ => addConfs_mirrors (by decide) _

theorem addLayerConfs_mirrors (root : Str) : M.Rel SameMirrors (addLayerConfs W root) := by
  unfold addLayerConfs
  split
  · exact fun s => rfl
  · exact M.Rel.bind sameMirrors_trans (addConfs_mirrors (by decide) _) fun _ => addConfs_mirrors (by decide) _

/-! ## simulation -/

/-- the caches that are never emptied and never outdated -/
def CKey.lasting : CKey → Bool
  | .scr _ | .layerRoot _ | .found .. => true
  | _ => false

theorem CKey.lasting_of {k : CKey} (hk : k.kept = true) (hc : k.cleared = false) : k.lasting = true := by
  cases k <;> first | rfl | (simp [CKey.kept, CKey.cleared] at hk; done) | (simp [CKey.cleared] at hc; done)

theorem CKey.kept_of_lasting {k : CKey} (hk : k.lasting = true) : k.kept = true := by
  cases k <;> first | rfl | (simp [CKey.lasting] at hk; done)

theorem freshVal_lasting {s s' : Stash} (h : SameMirrors s s') {k : CKey} (hk : k.lasting = true) : freshVal W s' k = freshVal W s k := by
  cases k with
  | scr t => simp only [freshVal, getScrComponents_mirrors h]
  | layerRoot n => rfl
  | found n d => rfl
  | _ => cases hk

/-- what is remembered for good is right -/
def ValidL (W : World) (c : CStash) : Prop := ∀ e ∈ c.tab, e.1.lasting = true → freshVal W c.base e.1 = .ok e.2

theorem Valid.lasting {c : CStash} (h : Valid W c) : ValidL W c := fun e he hk => h e he (CKey.kept_of_lasting hk)

/-- entries that survive `_clear_cached` -/
theorem valid_clear {c : CStash} (h : ValidL W c) : Valid W c.clear := by
  intro e he hk
  rw [CStash.clear] at he ⊢
  simp only at he ⊢
  obtain ⟨he, hnc⟩ := List.mem_filter.1 he
  exact h e he (CKey.lasting_of hk (by simpa using hnc))

/-- it succeeds, or fails while reading files -/
def harmless {α : Type} : Except PyErr α → Bool
  | .ok _ => true
  | .error e => PyErr.early e

/-- with truthful caches the program does what the program without caches does, and if it succeeds (or fails while reading files) the
caches are truthful after it -/
def Sim {α : Type} (W : World) (y : CM α) (x : M α) : Prop :=
  ∀ c, Valid W c → ∃ r c', y c = (r, c') ∧ x c.base = (r, c'.base) ∧ (harmless r = true → Valid W c')

section sim
variable {α β : Type}

theorem Sim.pure (a : α) : Sim W (Pure.pure a : CM α) (Pure.pure a : M α) := fun c hc => ⟨_, c, rfl, rfl, fun _ => hc⟩

theorem Sim.lift (a : Except PyErr α) : Sim W (CM.lift a) (M.lift a) := fun c hc => ⟨_, c, rfl, rfl, fun _ => hc⟩

theorem Sim.reads {y : CM α} {f : Stash → Except PyErr α} (h : CReads W y f) : Sim W y (M.ask f) := by
  intro c hc
  obtain ⟨c', h1, h2, h3⟩ := h c hc
  exact ⟨_, c', h1, by rw [h2]; rfl, fun _ => h3⟩

theorem Sim.bind {y : CM α} {x : M α} {g : α → CM β} {h : α → M β} (hx : Sim W y x) (hg : ∀ a, Sim W (g a) (h a)) :
    Sim W (y >>= g) (x >>= h) := by
  intro c hc
  obtain ⟨r, c1, h1, h2, h3⟩ := hx c hc
  rw [CM.bind_def, h1, M.bind_def, h2]
  cases r with
  | error e => exact ⟨.error e, c1, rfl, rfl, fun he => h3 he⟩
  | ok a =>
    obtain ⟨r2, c2, h4, h5, h6⟩ := hg a c1 (h3 rfl)
    exact ⟨r2, c2, h4, h5, h6⟩

theorem Sim.base {x : M α} (h : M.Rel SameView x) : Sim W (CM.base x) x := by
  intro c hc
  refine ⟨(x c.base).1, { c with base := (x c.base).2 }, rfl, rfl, fun _ => ?_⟩
  intro e he hk
  rw [freshVal_view (h c.base)]
  exact hc e he hk

/-- as `Sim`, while only what is remembered for good need be right -/
def SimL {α : Type} (W : World) (y : CM α) (x : M α) : Prop :=
  ∀ c, ValidL W c → ∃ r c', y c = (r, c') ∧ x c.base = (r, c'.base) ∧ ValidL W c'

theorem SimL.bind {y : CM α} {x : M α} {g : α → CM β} {h : α → M β} (hx : SimL W y x) (hg : ∀ a, SimL W (g a) (h a)) :
    SimL W (y >>= g) (x >>= h) := by
  intro c hc
  obtain ⟨r, c1, h1, h2, h3⟩ := hx c hc
  rw [CM.bind_def, h1, M.bind_def, h2]
  cases r with
  | error e => exact ⟨.error e, c1, rfl, rfl, h3⟩
  | ok a =>
    obtain ⟨r2, c2, h4, h5, h6⟩ := hg a c1 h3
    exact ⟨r2, c2, h4, h5, h6⟩

theorem SimL.base {x : M α} (h : M.Rel SameMirrors x) : SimL W (CM.base x) x := by
  intro c hc
  refine ⟨(x c.base).1, { c with base := (x c.base).2 }, rfl, rfl, ?_⟩
  intro e he hk
  rw [freshVal_lasting (h c.base) hk]
  exact hc e he hk

theorem SimL.layerRoot (name : Str) : SimL W (cLayerRoot W name) (M.lift (getLayerRoot W name)) := by
  intro c hc
  unfold cLayerRoot
  rw [CM.bind_def]
  unfold memo
  cases hl : c.tab.lookup (.layerRoot name) with
  | some v =>
    have := hc _ (mem_of_lookup hl) rfl
    simp only [freshVal] at this
    cases hg : getLayerRoot W name with
    | error e => rw [hg] at this; cases this
    | ok r => rw [hg] at this; cases this; exact ⟨_, c, rfl, rfl, hc⟩
  | none =>
    simp only [CM.lift]
    cases hg : getLayerRoot W name with
    | error e => exact ⟨_, c, rfl, rfl, hc⟩
    | ok r =>
      refine ⟨_, { c with tab := (.layerRoot name, .str r) :: c.tab }, rfl, rfl, ?_⟩
      intro e he hk
      rcases List.mem_cons.1 he with rfl | he
      · show (getLayerRoot W name).map CVal.str = _
        rw [hg]; rfl
      · exact hc e he hk

theorem simL_addDistroMachine (path : Str) : SimL W (cAddDistroMachine W path) (addDistroMachine W path) :=
  SimL.bind (SimL.layerRoot path) fun root => SimL.base (addLayerConfs_mirrors root)

/-- whatever happens, emptying the caches makes them right -/
theorem Sim.clear {y : CM α} {x : M α} (h : SimL W y x) (hn : ∀ s e, (x s).1 = .error e → PyErr.early e = false) : Sim W (y >>= fun a => CM.clear >>= fun _ => Pure.pure a) x := by
  intro c hc
  obtain ⟨r, c1, h1, h2, h3⟩ := h c hc.lasting
  rw [CM.bind_def, h1]
  cases r with
  | error e =>
    refine ⟨.error e, c1, rfl, h2, fun ha => ?_⟩
    have := hn c.base e (by rw [h2])
    rw [show PyErr.early e = true from ha] at this
    cases this
  | ok a => exact ⟨.ok a, c1.clear, rfl, h2, fun _ => valid_clear h3⟩

theorem CM.base_bind (x : M α) (g : α → M β) : CM.base (x >>= g) = (CM.base x >>= fun a => CM.base (g a)) := by
  funext c
  rw [CM.bind_def]
  unfold CM.base
  rw [M.bind_def]
  cases hx : x c.base with
  | mk r s' => cases r <;> rfl

theorem CM.bind_assoc {γ : Type} (x : CM α) (g : α → CM β) (h : β → CM γ) : ((x >>= g) >>= h) = (x >>= fun a => g a >>= h) := by
  funext c
  rw [CM.bind_def, CM.bind_def, CM.bind_def]
  cases hx : x c with
  | mk r s' =>
    cases r with
    | ok a => simp only [CM.bind_def]
    | error e => rfl

theorem CM.base_pure (a : α) : CM.base (Pure.pure a : M α) = (Pure.pure a : CM α) := rfl

theorem CM.pure_bind (a : α) (g : α → CM β) : ((Pure.pure a : CM α) >>= g) = g a := rfl

theorem freshUid_view : M.Rel SameView freshUid := fun s => ⟨rfl, rfl, rfl⟩

end sim

theorem reads_findLocalOrLayer (n d : Str) : CReads W (cFindLocalOrLayer W n d) (fun _ => findLocalOrLayer W n d) := by
  unfold cFindLocalOrLayer
  refine (CReads.map CVal.toStr (CReads.memo (k := .found n d) rfl (CReads.lift _))).congr fun s => ?_
  show ((findLocalOrLayer W n d).map CVal.str).map CVal.toStr = _
  cases findLocalOrLayer W n d <;> rfl

theorem reads_findClass (dir inh : Str) (locs : List Str) : CReads W (cFindClass W dir inh locs) (fun _ => findClass W dir inh locs) := by
  induction locs with
  | nil => exact CReads.pure _
  | cons loc locs ih =>
    unfold cFindClass
    refine (CReads.bind (h := fun p _ => if p.isEmpty then findClass W dir inh locs else .ok p)
      (reads_findLocalOrLayer _ _) fun p => ?_).congr fun s => ?_
    · split
      · exact ih
      · exact CReads.pure _
    · rw [findClass]
      cases findLocalOrLayer W (pathJoin loc inh) dir <;> rfl

/-! ## AddFile -/
section add
variable {cadd : CAddFn} {add : AddFn} (hadd : ∀ p o f, Sim W (cadd p o f) (add p o f))
include hadd

theorem sim_inheritLoop (file : Str) (lineno : Int) (inhname : Str) (locs l found : List Str) (off : Int) :
    Sim W (cInheritLoop W cadd file lineno inhname locs l found off) (inheritLoop W add file lineno inhname locs l found off) := by
  induction l generalizing found off with
  | nil => exact Sim.pure _
  | cons inh rest ih =>
    unfold cInheritLoop inheritLoop
    refine Sim.bind (Sim.reads (reads_findClass _ _ _)) (fun path => ?_)
    split
    · exact ih _ _
    · refine Sim.bind (Sim.reads (CReads.ask _)) (fun ign => ?_)
      split
      · exact ih _ _
      · exact Sim.bind (hadd _ _ _) (fun tmp => ih _ _)

theorem sim_handleKind (file : Str) (lineno : Int) (p : Params) (k : Kind) (pat : Pattern) (m : Mt) :
    Sim W (cHandleKind W cadd file lineno p k pat m) (handleKind W add file lineno p k pat m) := by
  have hsame : M.Rel SameView (handleKind W (fun _ _ _ => M.raise .recursionError) file lineno p k pat m) :=
    handleKind_rel SameView.refl (fun a b c => SameView.trans) (fun s => ⟨rfl, rfl, rfl⟩) W file
      (fun p o f s => SameView.refl s) lineno p k pat m
  cases k
  case inherit | inheritGlob =>
    unfold cHandleKind handleKind
    refine Sim.bind (Sim.reads (reads_expandTerm _ _)) (fun inhname => ?_)
    refine Sim.bind (sim_inheritLoop hadd _ _ _ _ _ _ _) (fun r => ?_)
    exact Sim.bind (Sim.base freshUid_view) (fun uid => Sim.pure _)
  case «include» =>
    unfold cHandleKind handleKind
    refine Sim.bind (Sim.reads (reads_expandTerm _ _)) (fun name => ?_)
    refine Sim.bind (Sim.reads (reads_findLocalOrLayer _ _)) (fun path => ?_)
    split
    · exact Sim.bind (Sim.base freshUid_view) (fun uid => Sim.pure _)
    · refine Sim.bind (Sim.reads (CReads.ask _)) (fun ign => ?_)
      split
      · exact Sim.pure _
      · refine Sim.bind (hadd _ _ _) (fun tmp => ?_)
        exact Sim.bind (Sim.base freshUid_view) (fun uid => Sim.pure _)
  all_goals exact Sim.base hsame

theorem sim_classify (file : Str) (lineno : Int) (p : Params) (cnt : Str) (l : List (Kind × Pattern)) :
    Sim W (cClassify W cadd file lineno p cnt l) (classify W add file lineno p cnt l) := by
  induction l with
  | nil => exact Sim.bind (Sim.base freshUid_view) (fun uid => Sim.pure _)
  | cons kp rest ih =>
    obtain ⟨k, pat⟩ := kp
    unfold cClassify classify
    cases reMatch pat.re cnt with
    | none => exact ih
    | some m =>
      refine Sim.bind (sim_handleKind hadd _ _ _ _ _ _) (fun r => ?_)
      cases r with
      | some r => exact Sim.pure _
      | none => exact ih

theorem sim_itemsLoop (file : Str) (lineOffset off : Int) (ns : Bool) (cs : List Chunk) :
    Sim W (cItemsLoop W cadd file lineOffset off ns cs) (itemsLoop W add file lineOffset off ns cs) := by
  induction cs generalizing off ns with
  | nil => exact Sim.pure _
  | cons c cs ih =>
    unfold cItemsLoop itemsLoop
    refine Sim.bind (sim_classify hadd _ _ _ _ _) (fun r => ?_)
    exact Sim.bind (ih _ _) (fun _ => Sim.pure _)

theorem sim_getItems (file : Str) (lineOffset : Int) (ns neg : Bool) :
    Sim W (cGetItems W cadd file lineOffset ns neg) (getItems W add file lineOffset ns neg) := by
  unfold cGetItems getItems
  exact Sim.bind (Sim.lift _) (fun _ => sim_itemsLoop hadd _ _ _ _ _)

end add

/-- `/repo/oelint_parser/cls_stash.py:186-227` without caches -/
def afterParse (W : World) (file : Str) (forced : Option Str) (res : List Item) : M (List Item) := do
  M.modify (fun s => { s with map := enterMap s.map file forced })
  let res ← crossLink file res
  addDistroMachine W file
  M.modify (commitItems W res)
  pure res

/-- `/repo/oelint_parser/cls_stash.py:186-227` -/
def cAfterParse (W : World) (file : Str) (forced : Option Str) (res : List Item) : CM (List Item) := do
  CM.base (M.modify (fun s => { s with map := enterMap s.map file forced }))
  let res ← CM.base (crossLink file res)
  cAddDistroMachine W file
  CM.base (M.modify (commitItems W res))
  pure res

theorem simL_afterParse (file : Str) (forced : Option Str) (res : List Item) :
    SimL W (cAfterParse W file forced res) (afterParse W file forced res) := by
  unfold cAfterParse afterParse
  refine SimL.bind (SimL.base fun s => rfl) fun _ => ?_
  refine SimL.bind (SimL.base (crossLink_rel (R := SameMirrors) (fun a => rfl) sameMirrors_trans (fun s l _ => rfl) (fun s k x => rfl) _ _))
    fun _ => ?_
  refine SimL.bind (simL_addDistroMachine file) fun _ => ?_
  exact SimL.bind (SimL.base fun s => rfl) fun _ c hc => ⟨_, c, rfl, rfl, hc⟩

theorem late_bind {α β : Type} {x : M α} {g : α → M β} (hx : ∀ s e, (x s).1 = .error e → PyErr.early e = false)
    (hg : ∀ a s e, (g a s).1 = .error e → PyErr.early e = false) : ∀ s e, ((x >>= g) s).1 = .error e → PyErr.early e = false := by
  intro s e h
  rw [M.bind_def] at h
  rcases hxs : x s with ⟨r, s'⟩
  rw [hxs] at h
  cases r with
  | error e' =>
    have h : (Except.error e' : Except PyErr β) = .error e := h
    injection h with h
    exact h ▸ hx s e' (by rw [hxs])
  | ok a => exact hg a s' e h

theorem late_matchDyn {p s : Str} {e : PyErr} (h : matchDyn p s = .error e) : PyErr.early e = false := by
  unfold matchDyn at h
  split at h <;> cases h
  rfl

theorem late_linkAppend (file : Str) (l : List Str) : ∀ mx s e, (linkAppend file l mx s).1 = .error e → PyErr.early e = false := by
  induction l with
  | nil => intro mx s e h; cases h
  | cons x xs ih =>
    intro mx s e h
    rw [linkAppend] at h
    split at h
    · rename_i e' he
      cases h
      exact late_matchDyn he
    · exact ih _ _ _ h
    · exact ih _ _ _ h

theorem late_linkRecipe (file bn : Str) (mx : Int) (todo : List Item) :
    ∀ done s e, (linkRecipe file bn mx done todo s).1 = .error e → PyErr.early e = false := by
  induction todo with
  | nil => intro d s e h; rw [linkRecipe] at h; cases h
  | cons x xs ih =>
    intro d s e h
    rw [linkRecipe] at h
    split at h
    · exact ih _ _ _ h
    · split at h
      · rename_i e' he
        cases h
        exact late_matchDyn he
      · exact ih _ _ _ h
      · exact ih _ _ _ h

theorem late_crossLink (file : Str) (res : List Item) : ∀ s e, (crossLink file res s).1 = .error e → PyErr.early e = false := by
  unfold crossLink
  split
  · exact late_bind (fun s e h => by cases h) fun s => late_bind (late_linkAppend _ _ _) fun _ s e h => by cases h
  · split
    · exact late_bind (fun s e h => by cases h) fun s => late_bind (late_linkRecipe _ _ _ _ _) fun _ s e h => by cases h
    · exact fun s e h => by cases h

theorem late_descend (op : MergeOp) (x : J) (l : List Str) (e : PyErr) (h : descendErr op x l = some e) : PyErr.early e = false := by
  induction l with
  | nil => rw [descendErr] at h; cases h
  | cons k l ih =>
    rw [descendErr.eq_def] at h
    simp only at h
    have hi : ∀ (b : Bool) (y : Option PyErr), (if b = true then some .typeError else y) = some e → e = .typeError ∨ y = some e := by
      intro b y h
      cases b
      · exact .inr h
      · cases h; exact .inl rfl
    rcases hi _ _ h with h | h
    · rw [h]; rfl
    · exact ih h

theorem late_leaf (op : MergeOp) (x y : J) (e : PyErr) (h : leafMerge op x y = .error e) : PyErr.early e = false := by
  unfold leafMerge at h
  split at h
  · unfold plusEq at h
    split at h <;> cases h
    rfl
  · cases h
  · cases h

mutual
theorem late_mergeJ (op : MergeOp) (a : J) : (b : J) → (e : PyErr) → (mergeJ op a b).2 = some e → PyErr.early e = false
  | .dict b, e, h => by
    cases a with
    | dict a =>
      rw [mergeJ] at h
      exact late_mergeKV op a b e h
    | list l => rw [mergeJ] at h; exact late_descend _ _ _ _ h; all_goals (intro a; simp)
    | str s => rw [mergeJ] at h; exact late_descend _ _ _ _ h; all_goals (intro a; simp)
  | .list l, e, h => by
    rw [mergeJ] at h
    split at h
    · cases h
    · rename_i e' he
      have h : some e' = some e := h
      cases h
      exact late_leaf _ _ _ _ he
  | .str s, e, h => by
    rw [mergeJ] at h
    split at h
    · cases h
    · rename_i e' he
      have h : some e' = some e := h
      cases h
      exact late_leaf _ _ _ _ he
theorem late_mergeKV (op : MergeOp) (a : KV) : (b : KV) → (e : PyErr) → (mergeKV op a b).2 = some e → PyErr.early e = false
  | .nil, e, h => by rw [mergeKV] at h; cases h
  | .cons k v rest, e, h => by
    rw [mergeKV.eq_def] at h
    simp only at h
    split at h
    · exact late_mergeKV op _ rest e h
    · split at h
      · exact late_mergeKV op _ rest e h
      · rename_i ak hak _ ak' e' he
        have h : some e' = some e := h
        cases h
        exact late_mergeJ op ak v e (by rw [he])
end

theorem late_addConstants (db : J) (d : KV) (e : PyErr) (h : (addConstants db d).2 = some e) : PyErr.early e = false :=
  late_mergeJ .add db (.dict d) e h

theorem late_addConfs (key : Str) (l : List Str) : ∀ s e, (addConfs key l s).1 = .error e → PyErr.early e = false := by
  induction l with
  | nil => intro s e h; cases h
  | cons x xs ih =>
    intro s e h
    rw [addConfs] at h
    simp only at h
    split at h
    · exact ih _ _ h
    · rename_i db e' he
      cases h
      exact late_addConstants _ _ _ (by rw [he])

theorem late_addDistroMachine (file : Str) : ∀ s e, (addDistroMachine W file s).1 = .error e → PyErr.early e = false := by
  unfold addDistroMachine
  refine late_bind (fun s e h => ?_) fun root => ?_
  · have h : getLayerRoot W file = .error e := h
    unfold getLayerRoot at h
    split at h <;> cases h
    rfl
  · split
    · exact fun s e h => by cases h
    · exact late_bind (late_addConfs _ _) fun _ => late_addConfs _ _

theorem late_afterParse (file : Str) (forced : Option Str) (res : List Item) :
    ∀ s e, (afterParse W file forced res s).1 = .error e → PyErr.early e = false :=
  late_bind (fun s e h => by cases h) fun _ => late_bind (late_crossLink _ _) fun _ => late_bind (late_addDistroMachine _) fun _ =>
    late_bind (fun s e h => by cases h) fun _ s e h => by cases h

theorem sim_addFile (n : Nat) (path : Str) (off : Int) (forced : Option Str) :
    Sim W (cAddFile W n path off forced) (addFile W n path off forced) := by
  induction n generalizing path off forced with
  | zero => exact Sim.lift _
  | succ n ih =>
    unfold cAddFile addFile
    have hask : Sim W (CM.ask (fun s => .ok s)) M.get := Sim.reads (f := fun s => .ok s) (CReads.ask _)
    refine Sim.bind hask (fun s => ?_)
    split
    · exact Sim.pure _
    · refine Sim.bind (Sim.base (fun s => ⟨rfl, rfl, rfl⟩)) (fun _ => ?_)
      refine Sim.bind (sim_getItems (fun p o f => ih p o f) _ _ _ _) (fun res => ?_)
      have h := Sim.clear (simL_afterParse (W := W) (abspath W.cwd path) forced res) (late_afterParse _ _ _)
      have e : (cAfterParse W (abspath W.cwd path) forced res >>= fun a => CM.clear >>= fun _ => Pure.pure a) = (do
          CM.base (M.modify (fun s => { s with map := enterMap s.map (abspath W.cwd path) forced }))
          let res ← CM.base (crossLink (abspath W.cwd path) res)
          cAddDistroMachine W (abspath W.cwd path)
          CM.base (M.modify (commitItems W res))
          CM.clear
          pure res) := by
        unfold cAfterParse
        simp only [CM.bind_assoc, CM.pure_bind]
      rw [e] at h
      exact h


/-! ## Append, Remove -/

theorem removeItems_mirrors (l : List Item) : M.Rel SameMirrors (removeItems l) := by
  induction l with
  | nil => exact fun s => rfl
  | cons x xs ih =>
    intro s
    unfold removeItems
    cases removeOne x s.items with
    | none => exact rfl
    | some r => exact sameMirrors_trans _ { s with items := r } _ rfl (ih _)

theorem sim_append (l : List Item) : Sim W (cAppend l) (M.modify (fun s => appendItems s l)) :=
  Sim.clear (W := W) (x := M.modify (fun s => appendItems s l)) (SimL.base fun s => rfl) (fun s e h => by cases h)

/-- as `Sim`, while nothing is said about the caches after an exception -/
def SimOk {α : Type} (W : World) (y : CM α) (x : M α) : Prop :=
  ∀ c, Valid W c → ∃ r c', y c = (r, c') ∧ x c.base = (r, c'.base) ∧ ∀ a, r = .ok a → Valid W c'

theorem Sim.ok {α : Type} {y : CM α} {x : M α} (h : Sim W y x) : SimOk W y x := by
  intro c hc
  obtain ⟨r, c', h1, h2, h3⟩ := h c hc
  exact ⟨r, c', h1, h2, fun a ha => h3 (by rw [ha]; rfl)⟩

theorem sim_remove (l : List Item) :
    SimOk W (cRemove l >>= fun _ => (Pure.pure [] : CM (List Item))) (removeItems l >>= fun _ => (Pure.pure [] : M (List Item))) := by
  intro c hc
  unfold cRemove
  rw [CM.bind_def, CM.bind_def, M.bind_def]
  obtain ⟨r, c1, h1, h2, h3⟩ := SimL.base (W := W) (removeItems_mirrors l) c hc.lasting
  rw [h1, h2]
  cases r with
  | error e => exact ⟨.error e, c1, rfl, rfl, fun a ha => by cases ha⟩
  | ok a => exact ⟨.ok [], c1.clear, rfl, rfl, fun _ _ => valid_clear h3⟩

/-! ## Finalize -/

/-- the caches of the filters -/
def CKey.filtering : CKey → Bool
  | .linked .. | .byFile .. | .byClassifier .. | .byAttribute .. => true
  | _ => false

/-- the program remembers results of filters only -/
def Filtering {α : Type} (x : CM α) : Prop := ∀ c, ∀ e ∈ (x c).2.tab, e ∈ c.tab ∨ e.1.filtering = true

section filtering
variable {α β : Type}
theorem Filtering.pure (a : α) : Filtering (Pure.pure a : CM α) := fun _ _ he => Or.inl he
theorem Filtering.ask (f : Stash → Except PyErr α) : Filtering (CM.ask f) := fun _ _ he => Or.inl he
theorem Filtering.bind {x : CM α} {g : α → CM β} (hx : Filtering x) (hg : ∀ a, Filtering (g a)) : Filtering (x >>= g) := by
  intro c e he
  rw [CM.bind_def] at he
  have h1 := hx c
  cases hxc : x c with
  | mk r c' =>
    rw [hxc] at he h1
    cases r with
    | error _ => exact h1 e he
    | ok a =>
      rcases hg a c' e he with h | h
      · exact h1 e h
      · exact Or.inr h
theorem Filtering.memo {k : CKey} {x : CM CVal} (hk : k.filtering = true) (hx : Filtering x) : Filtering (memo k x) := by
  intro c e he
  unfold Oelint.memo at he
  cases hl : c.tab.lookup k with
  | some v => rw [hl] at he; exact Or.inl he
  | none =>
    rw [hl] at he
    have h1 := hx c
    cases hxc : x c with
    | mk r c' =>
      simp only [hxc] at he h1
      cases r with
      | error _ => exact h1 e he
      | ok v =>
        rcases List.mem_cons.1 he with rfl | he
        · exact Or.inr hk
        · exact h1 e he

theorem filtering_linkedFilter (f : Str) (n : Bool) (l : List Item) : Filtering (cLinkedFilter f n l) := by
  induction l with
  | nil => exact Filtering.pure _
  | cons x xs ih =>
    exact Filtering.bind (Filtering.bind (Filtering.memo rfl (Filtering.ask _)) (fun _ => Filtering.pure _))
      (fun _ => Filtering.bind ih (fun _ => Filtering.pure _))

theorem filtering_itemsFor (f : Filter) : Filtering (cItemsFor W f) := by
  refine Filtering.bind (Filtering.ask _) (fun l => Filtering.bind ?_ (fun _ => Filtering.pure _))
  refine Filtering.bind ?_ (fun l => Filtering.bind ?_ (fun l => ?_))
  · unfold cStepFile
    split
    · split
      · exact Filtering.pure _
      · exact Filtering.bind (Filtering.memo rfl (Filtering.bind (filtering_linkedFilter _ _ _) (fun _ => Filtering.pure _)))
          (fun _ => Filtering.pure _)
    · exact Filtering.pure _
  · unfold cStepClassifier
    split
    · exact Filtering.pure _
    · exact Filtering.bind (Filtering.memo rfl (Filtering.pure _)) (fun _ => Filtering.pure _)
  · unfold cStepAttribute
    split
    · exact Filtering.pure _
    · exact Filtering.bind (Filtering.memo rfl (Filtering.pure _)) (fun _ => Filtering.pure _)

end filtering

/-- nothing is remembered but results of filters, of `GetScrComponents` and what is never cleared -/
def FilteringOnly (c : CStash) : Prop := ∀ e ∈ c.tab, e.1.cleared = true → e.1.filtering = true

theorem freshVal_filtering {s s' : Stash} (h : s'.map = s.map) (hm : s'.consts = s.consts) {k : CKey}
    (hk : k.kept = true) (hf : k.cleared = true → k.filtering = true) : freshVal W s' k = freshVal W s k := by
  cases k with
  | linked x f n => simp only [freshVal, isLinkedTo_view h]
  | byFile l f n => simp only [freshVal, isLinkedTo_view h]
  | byClassifier l cs => rfl
  | byAttribute l a v => rfl
  | scr t => simp only [freshVal, getScrComponents_mirrors (show mirrorsKnown s'.consts = mirrorsKnown s.consts by rw [hm])]
  | layerRoot n => rfl
  | found n d => rfl
  | _ => first | (exact absurd (hf rfl) (by decide)) | (exact absurd (hf rfl) (by simp [CKey.filtering])) | (exact absurd hk (by simp [CKey.kept, CKey.cleared]))

theorem includedLoop_cached (m : List (Str × List Str)) (c : CStash) (hc : Valid W c) (hf : FilteringOnly c) :
    ∃ c', cIncludedLoop W m c = (.ok (), c') ∧ c'.base = includedLoop W m c.base ∧ Valid W c' := by
  induction m generalizing c with
  | nil => exact ⟨c, rfl, rfl, hc⟩
  | cons kv rest ih =>
    obtain ⟨k, v⟩ := kv
    obtain ⟨c1, h1, h2, h3⟩ := reads_itemsFor (W := W) { filename := some k } c hc
    unfold cIncludedLoop includedLoop
    rw [CM.bind_def, h1]
    simp only
    rw [CM.bind_def]
    have hmod : ∀ g : Stash → Stash, CM.base (M.modify g) c1 = (.ok (), { c1 with base := g c1.base }) := fun g => rfl
    rw [hmod]
    simp only
    have hf1 : FilteringOnly c1 := by
      intro e he hcl
      have := filtering_itemsFor (W := W) { filename := some k } c e (by rw [h1]; exact he)
      rcases this with h | h
      · exact hf e h hcl
      · exact h
    have hv : Valid W { c1 with base := { c1.base with items := c1.base.items.map (
        fun x => if (getItemsFor W c.base { filename := some k }).contains x then addIncluded v x else x) } } := by
      intro e he hk
      rw [← h3 e he hk]
      refine freshVal_filtering ?_ ?_ hk (fun hcl => hf1 e he hcl) <;> rfl
    obtain ⟨c', h4, h5, h6⟩ := ih _ hv hf1
    refine ⟨c', h4, ?_, h6⟩
    rw [h5]
    simp only [h2]

theorem clear_notCleared (c : CStash) : ∀ e ∈ c.clear.tab, e.1.cleared = false := by
  intro e he
  have := (List.mem_filter.1 he).2
  simpa using this

theorem cFinalize_fresh (c : CStash) (hc : Valid W c) (hn : ∀ e ∈ c.tab, e.1.cleared = false) :
    ∃ r c', cFinalize W c = (r, c') ∧ finalize W c.base = (r, c'.base) := by
  unfold cFinalize finalize
  rw [CM.bind_def]
  have hb : CM.base (closeM W) c = ((closeM W c.base).1, { c with base := (closeM W c.base).2 }) := rfl
  rw [hb]
  unfold closeM
  cases hm : closeLoop W (c.base.map.map (·.1)) c.base.map with
  | mk r m =>
    cases r with
    | error e => exact ⟨_, _, rfl, rfl⟩
    | ok u =>
      cases u
      simp only
      have hv : Valid W { c with base := { c.base with map := m } } := by
        intro e he hk
        rw [← hc e he hk]
        exact freshVal_lasting (s := c.base) (s' := { c.base with map := m }) rfl (CKey.lasting_of hk (hn e he))
      obtain ⟨c', h4, h5, h6⟩ := includedLoop_cached m _ hv (fun e he hcl => absurd hcl (by rw [hn e he]; decide))
      rw [CM.bind_def, h4]
      exact ⟨_, _, rfl, by rw [show (CStash.clear c').base = c'.base from rfl, h5]⟩

/-- what is remembered for good stays right -/
theorem lasting_of_mirrors {c c' : CStash} (hc : Valid W c) (hb : SameMirrors c.base c'.base)
    (ht : ∀ e ∈ c'.tab, e.1.lasting = true → e ∈ c.tab) : ValidL W c' := by
  intro e he hk
  rw [freshVal_lasting hb hk]
  exact hc e (ht e he hk) (CKey.kept_of_lasting hk)

/-- the program changes items only and remembers filters only -/
def ItemsOnly {α : Type} (x : CM α) : Prop :=
  ∀ c, (x c).2.base.consts = c.base.consts ∧ ∀ e ∈ (x c).2.tab, e ∈ c.tab ∨ e.1.filtering = true

section itemsOnly
variable {α β : Type}
theorem ItemsOnly.bind {x : CM α} {g : α → CM β} (hx : ItemsOnly x) (hg : ∀ a, ItemsOnly (g a)) : ItemsOnly (x >>= g) := by
  intro c
  rw [CM.bind_def]
  have h1 := hx c
  cases hxc : x c with
  | mk r c' =>
    rw [hxc] at h1
    cases r with
    | error _ => exact h1
    | ok a =>
      have h2 := hg a c'
      refine ⟨h2.1.trans h1.1, fun e he => ?_⟩
      rcases h2.2 e he with h | h
      · exact h1.2 e h
      · exact Or.inr h
end itemsOnly

theorem cMemo_base {k : CKey} {x : CM CVal} (hx : ∀ c, (x c).2.base = c.base) (c : CStash) : (memo k x c).2.base = c.base := by
  unfold Oelint.memo
  cases c.tab.lookup k with
  | some v => rfl
  | none =>
    simp only
    have h := hx c
    cases hxc : x c with
    | mk r c' =>
      rw [hxc] at h
      cases r <;> exact h

theorem cBind_base {α β : Type} {x : CM α} {g : α → CM β} (hx : ∀ c, (x c).2.base = c.base) (hg : ∀ a c, (g a c).2.base = c.base)
    (c : CStash) : ((x >>= g) c).2.base = c.base := by
  rw [CM.bind_def]
  have h := hx c
  cases hxc : x c with
  | mk r c' =>
    rw [hxc] at h
    cases r with
    | error _ => exact h
    | ok a => exact (hg a c').trans h

theorem cLinkedFilter_base (f : Str) (n : Bool) (l : List Item) (c : CStash) : (cLinkedFilter f n l c).2.base = c.base := by
  induction l generalizing c with
  | nil => rfl
  | cons x xs ih =>
    exact cBind_base (fun c => cBind_base (cMemo_base (fun _ => rfl)) (fun _ _ => rfl) c)
      (fun _ c => cBind_base ih (fun _ _ => rfl) c) c

theorem cItemsFor_base (f : Filter) (c : CStash) : (cItemsFor W f c).2.base = c.base := by
  refine cBind_base (fun _ => rfl) (fun l c => cBind_base (fun c => ?_) (fun _ _ => rfl) c) c
  refine cBind_base (fun c => ?_) (fun l c => cBind_base (fun c => ?_) (fun l c => ?_) c) c
  · unfold cStepFile
    cases f.filename with
    | some fn =>
      simp only
      split
      · rfl
      · exact cBind_base (cMemo_base (fun c => cBind_base (cLinkedFilter_base _ _ _) (fun _ _ => rfl) c)) (fun _ _ => rfl) c
    | none => rfl
  · unfold cStepClassifier
    split
    · rfl
    · exact cBind_base (cMemo_base (fun _ => rfl)) (fun _ _ => rfl) c
  · unfold cStepAttribute
    split
    · rfl
    · exact cBind_base (cMemo_base (fun _ => rfl)) (fun _ _ => rfl) c

theorem itemsOnly_includedLoop (m : List (Str × List Str)) : ItemsOnly (cIncludedLoop W m) := by
  induction m with
  | nil => exact fun c => ⟨rfl, fun e he => Or.inl he⟩
  | cons kv rest ih =>
    obtain ⟨k, v⟩ := kv
    unfold cIncludedLoop
    refine ItemsOnly.bind (fun c => ⟨by rw [cItemsFor_base], filtering_itemsFor _ c⟩) fun l => ?_
    exact ItemsOnly.bind (fun c => ⟨rfl, fun e he => Or.inl he⟩) fun _ => ih

/-- `Finalize` leaves truthful caches, whatever was asked before -/
theorem cFinalize_valid (c : CStash) (hc : Valid W c) {c' : CStash} (h : cFinalize W c = (.ok (), c')) :
    Valid W c' ∧ ∀ e ∈ c'.tab, e.1.cleared = false := by
  unfold cFinalize at h
  have key : ∃ c1, c' = CStash.clear c1 ∧ c1.base.consts = c.base.consts ∧ ∀ e ∈ c1.tab, e ∈ c.tab ∨ e.1.filtering = true := by
    rw [CM.bind_def] at h
    have hcl : ∀ c, (CM.base (closeM W) c).2.base.consts = c.base.consts ∧ (CM.base (closeM W) c).2.tab = c.tab := by
      intro c
      unfold CM.base closeM
      cases closeLoop W (c.base.map.map (·.1)) c.base.map with
      | mk r m => cases r <;> exact ⟨rfl, rfl⟩
    have h0 := hcl c
    cases hx : CM.base (closeM W) c with
    | mk r c1 =>
      rw [hx] at h h0
      cases r with
      | error e => cases h
      | ok m =>
        simp only at h
        rw [CM.bind_def] at h
        have h1 := itemsOnly_includedLoop (W := W) m c1
        cases hy : cIncludedLoop W m c1 with
        | mk r c2 =>
          rw [hy] at h h1
          cases r with
          | error e => cases h
          | ok u =>
            cases h
            refine ⟨c2, rfl, h1.1.trans h0.1, fun e he => ?_⟩
            have := h1.2 e he
            rw [h0.2] at this
            exact this
  obtain ⟨c1, rfl, h1, h2⟩ := key
  refine ⟨valid_clear (lasting_of_mirrors hc (by unfold SameMirrors; rw [h1]) fun e he hk => ?_), clear_notCleared c1⟩
  rcases h2 _ he with h | h
  · exact h
  · obtain ⟨k, v⟩ := e
    cases k <;> first | (cases h; done) | (cases hk; done)

/-! ## questions -/

theorem reads_question (q : Question) (hq : q.neverCleared = false) : CReads W (q.ask W) (fun s => q.fresh W s) := by
  cases q with
  | itemsFor f => exact CReads.mapOk _ (reads_itemsFor f)
  | reduce l f => exact CReads.mapOk _ (reads_reduce l f)
  | expandTerm f v sp => exact CReads.map _ (reads_expandTermS f sp v)
  | expandVar f a v n => exact CReads.map _ (reads_expandVar f a v n)
  | recipes => exact CReads.mapOk _ reads_recipes
  | loneAppends => exact CReads.mapOk _ reads_loneAppends
  | confFiles => exact CReads.mapOk _ reads_confFiles
  | bbClasses => cases hq
  | links f => exact CReads.mapOk _ (reads_links f)
  | files f p => exact CReads.mapOk _ (reads_files f p)
  | scrComponents t => exact CReads.map _ (reads_scr t)
  | packageNames f b => exact CReads.map _ (reads_packageNames f b)
  | namedResources f => exact CReads.map _ (reads_namedResources f)
  | isImage f => exact CReads.map _ (reads_isImage f)
  | isPackageGroup f => exact CReads.mapOk _ (reads_isPackageGroup f)
  | packagesDynamic f => cases hq
  | isDynamicPackage f n => cases hq

theorem keeps_question (q : Question) : CKeeps W (q.ask W) := by
  cases h : q.neverCleared with
  | false => exact (reads_question q h).keeps
  | true =>
    cases q with
    | bbClasses => exact CKeeps.bind keeps_bbClasses (fun _ => (CReads.pure _).keeps)
    | packagesDynamic f => exact CKeeps.bind (keeps_packagesDynamic f) (fun _ => (CReads.pure _).keeps)
    | isDynamicPackage f n => exact CKeeps.bind (keeps_isDynamicPackage f n) (fun _ => (CReads.pure _).keeps)
    | _ => cases h

/-! ## calls -/

/-- the call without caches -/
def Spec.Call.plain (W : World) (depth : Nat) : Call → M (List Item)
  | .addFile p o f => Oelint.addFile W depth p o f
  | .append l => do M.modify (fun s => appendItems s l); return []
  | .remove l => do removeItems l; return []
  | .finalize => do Oelint.finalize W; return []

theorem sim_call (k : Call) (d : Nat) (hk : k ≠ .finalize) :
    SimOk W (k.perform W d) (k.plain W d) := by
  cases k with
  | addFile p o f => exact (sim_addFile d p o f).ok
  | append l => exact (Sim.bind (sim_append l) (fun _ => Sim.pure _)).ok
  | remove l => exact sim_remove l
  | finalize => exact absurd rfl hk

theorem valid_call {k : Call} {d : Nat} {c c' : CStash} {r : List Item} (hc : Valid W c) (h : k.perform W d c = (.ok r, c')) :
    Valid W c' := by
  by_cases hk : k = .finalize
  · subst hk
    have h : (cFinalize W >>= fun _ => (Pure.pure [] : CM (List Item))) c = (.ok r, c') := h
    rw [CM.bind_def] at h
    cases hf : cFinalize W c with
    | mk r1 c1 =>
      rw [hf] at h
      cases r1 with
      | error e => cases h
      | ok u => cases u; cases h; exact (cFinalize_valid c hc hf).1
  · obtain ⟨r1, c1, h1, _, h3⟩ := sim_call (W := W) k d hk c hc
    rw [h] at h1
    cases h1
    exact h3 r rfl

theorem valid_failed {p : Str} {o : Int} {f : Option Str} {d : Nat} {c c' : CStash} {e : PyErr} (hc : Valid W c)
    (h : (Call.addFile p o f).perform W d c = (.error e, c')) (he : PyErr.early e = true) : Valid W c' := by
  obtain ⟨r1, c1, h1, _, h3⟩ := sim_addFile (W := W) d p o f c hc
  rw [show cAddFile W d p o f c = (.error e, c') from h] at h1
  cases h1
  exact h3 he

theorem valid_lived {c0 c : CStash} (h : Lived W c0 c) (h0 : Valid W c0) : Valid W c := by
  induction h with
  | nil => exact h0
  | call h hk ih => exact valid_call ih hk
  | failed h hk he ih => exact valid_failed ih hk he
  | ask h q ih => exact (keeps_question q _ ih).2

/-! ## with and without questions -/

theorem cleared_of_tail {α : Type} (x : CM α) {c c' : CStash} {a : α}
    (h : (x >>= fun a => CM.clear >>= fun _ => Pure.pure a) c = (.ok a, c')) : ∀ e ∈ c'.tab, e.1.cleared = false := by
  rw [CM.bind_def] at h
  cases hx : x c with
  | mk r c1 =>
    rw [hx] at h
    cases r with
    | error e => cases h
    | ok b =>
      have h : ((.ok b, c1.clear) : Except PyErr α × CStash) = (.ok a, c') := h
      cases h
      exact clear_notCleared c1

/-- no entries that `_clear_cached` would drop -/
def NoCleared (c : CStash) : Prop := ∀ e ∈ c.tab, e.1.cleared = false

theorem noCleared_bind {α β : Type} {x : CM α} {g : α → CM β} (hg : ∀ a c b c', g a c = (.ok b, c') → NoCleared c') {c c' : CStash} {b : β}
    (h : (x >>= g) c = (.ok b, c')) : NoCleared c' := by
  rw [CM.bind_def] at h
  cases hx : x c with
  | mk r c1 =>
    rw [hx] at h
    cases r with
    | error e => cases h
    | ok a => exact hg a c1 b c' h

theorem noCleared_clear {α : Type} (a : α) (c : CStash) (b : α) (c' : CStash) (h : (CM.clear >>= fun _ => (Pure.pure a : CM α)) c = (.ok b, c')) :
    NoCleared c' := by
  have h : ((.ok a, c.clear) : Except PyErr α × CStash) = (.ok b, c') := h
  cases h
  exact clear_notCleared c

/-- a successful call other than an `AddFile` of a file that is skipped leaves no clearable entries; one that is skipped
changes nothing -/
theorem cleared_call {k : Call} {d : Nat} {c c' : CStash} {r : List Item} (h : k.perform W d c = (.ok r, c')) :
    (c' = c ∧ ∃ p o f, k = .addFile p o f ∧ alreadySeen c.base (abspath W.cwd p) = true) ∨ NoCleared c' := by
  cases k with
  | addFile p o f =>
    cases d with
    | zero => cases h
    | succ n =>
      have h : cAddFile W (n + 1) p o f c = (.ok r, c') := h
      unfold cAddFile at h
      rw [CM.bind_def] at h
      have ha : CM.ask (fun s => Except.ok s) c = ((.ok c.base, c) : Except PyErr Stash × CStash) := rfl
      rw [ha] at h
      simp only at h
      split at h
      · next hs => cases h; exact Or.inl ⟨rfl, p, o, f, rfl, hs⟩
      · right
        exact noCleared_bind (fun _ _ _ _ => noCleared_bind (fun _ _ _ _ => noCleared_bind (fun _ _ _ _ => noCleared_bind
          (fun _ _ _ _ => noCleared_bind (fun _ _ _ _ => noCleared_bind (fun _ _ _ _ => noCleared_clear _ _ _ _)))))) h
  | append l =>
    right
    have h : (cAppend l >>= fun _ => (Pure.pure [] : CM (List Item))) c = (.ok r, c') := h
    unfold cAppend at h
    rw [CM.bind_assoc] at h
    exact noCleared_bind (fun _ _ _ _ => noCleared_clear _ _ _ _) h
  | remove l =>
    right
    have h : (cRemove l >>= fun _ => (Pure.pure [] : CM (List Item))) c = (.ok r, c') := h
    unfold cRemove at h
    rw [CM.bind_assoc] at h
    exact noCleared_bind (fun _ _ _ _ => noCleared_clear _ _ _ _) h
  | finalize =>
    right
    have h : (cFinalize W >>= fun _ => (Pure.pure [] : CM (List Item))) c = (.ok r, c') := h
    unfold cFinalize at h
    rw [CM.bind_assoc] at h
    refine noCleared_bind (fun _ _ _ _ h => ?_) h
    rw [CM.bind_assoc] at h
    exact noCleared_bind (fun _ _ _ _ => noCleared_clear _ _ _ _) h

theorem plain_after (k : Call) (d : Nat) (s : Stash) : (k.plain W d s).2 = k.after W d s := by
  cases k with
  | addFile p o f => rfl
  | append l => rfl
  | remove l =>
    show ((removeItems l >>= fun _ => (Pure.pure [] : M (List Item))) s).2 = (removeItems l s).2
    rw [M.bind_def]
    cases hr : removeItems l s with
    | mk r s' => cases r <;> rfl
  | finalize =>
    show ((finalize W >>= fun _ => (Pure.pure [] : M (List Item))) s).2 = (finalize W s).2
    rw [M.bind_def]
    cases hr : finalize W s with
    | mk r s' => cases r <;> rfl

theorem plain_classesOnly (k : Call) (d : Nat) (s : Stash) (hs : ClassesOnly s) : ClassesOnly (k.plain W d s).2 := by
  rw [plain_after]
  exact history_classesOnly (W := W) (P := fun _ => True) (History.snoc .nil d k trivial) hs

/-- the calls of a play, without caches -/
def playPlain (W : World) : List Act → M (List (List Item))
  | [] => pure []
  | .call d k :: rest => do
    let r ← k.plain W d
    let rs ← playPlain W rest
    pure (r :: rs)
  | .ask _ :: rest => playPlain W rest

theorem play_plain (l : List Act) (hl : EmptiedBeforeFinalize W l) (c : CStash) (hc : Valid W c) (hco : ClassesOnly c.base)
    (hd : (∀ mid d post, l = mid ++ .call d .finalize :: post → ∃ d' k, Act.call d' k ∈ mid ∧ k.empties W = true) ∨ NoCleared c) :
    ∃ r c', play W l c = (r, c') ∧ playPlain W l c.base = (r, c'.base) := by
  induction l generalizing c with
  | nil => exact ⟨_, c, rfl, rfl⟩
  | cons a rest ih =>
    have hrest : EmptiedBeforeFinalize W rest := fun pre q mid d post h => hl (a :: pre) q mid d post (by rw [h]; rfl)
    cases a with
    | ask q =>
      obtain ⟨h1, h2⟩ := keeps_question (W := W) q c hc
      obtain ⟨r, c', h3, h4⟩ := ih hrest (q.ask W c).2 h2 (by rw [h1]; exact hco)
        (Or.inl fun mid d post h => hl [] q mid d post (by rw [h]; rfl))
      refine ⟨r, c', h3, ?_⟩
      rw [h1] at h4
      exact h4
    | call d k =>
      have main : ∃ r c', k.perform W d c = (r, c') ∧ k.plain W d c.base = (r, c'.base) := by
        by_cases hk : k = .finalize
        · subst hk
          have hn : NoCleared c := by
            rcases hd with h | h
            · obtain ⟨_, _, hm, _⟩ := h [] d rest rfl
              cases hm
            · exact h
          obtain ⟨r, c', h1, h2⟩ := cFinalize_fresh (W := W) c hc hn
          show ∃ r c', (cFinalize W >>= fun _ => (Pure.pure [] : CM (List Item))) c = (r, c') ∧
            (finalize W >>= fun _ => (Pure.pure [] : M (List Item))) c.base = (r, c'.base)
          rw [CM.bind_def, M.bind_def, h1, h2]
          cases r with
          | error e => exact ⟨_, c', rfl, rfl⟩
          | ok u => exact ⟨_, c', rfl, rfl⟩
        · obtain ⟨r, c', h1, h2, _⟩ := sim_call (W := W) k d hk c hc
          exact ⟨r, c', h1, h2⟩
      obtain ⟨r, c1, h1, h2⟩ := main
      unfold play playPlain
      rw [CM.bind_def, M.bind_def, h1, h2]
      cases r with
      | error e => exact ⟨_, c1, rfl, rfl⟩
      | ok r =>
        simp only
        have hco1 : ClassesOnly c1.base := by
          have := plain_classesOnly (W := W) k d c.base hco
          rw [h2] at this
          exact this
        obtain ⟨rs, c2, h3, h4⟩ := ih hrest c1 (valid_call hc h1) hco1 (by
          rcases cleared_call h1 with ⟨rfl, p, o, f, rfl, hs⟩ | h
          · rcases hd with h | h
            · left
              intro mid d' post he
              obtain ⟨d2, k2, hm, hk2⟩ := h (.call d (.addFile p o f) :: mid) d' post (by rw [he]; rfl)
              rcases List.mem_cons.1 hm with hm | hm
              · cases hm
                exfalso
                have := (seen_of_alreadySeen hco hs).2
                unfold Call.empties at hk2
                simp only [List.contains_eq_mem, decide_eq_true_eq, List.mem_cons, List.not_mem_nil, or_false] at hk2 this
                tauto
              · exact ⟨d2, k2, hm, hk2⟩
            · exact Or.inr h
          · exact Or.inr h)
        rw [CM.bind_def, M.bind_def, h3, h4]
        cases rs with
        | error e => exact ⟨_, c2, rfl, rfl⟩
        | ok rs => exact ⟨_, c2, rfl, rfl⟩

theorem playPlain_callsOnly (l : List Act) : playPlain W (callsOnly l) = playPlain W l := by
  induction l with
  | nil => rfl
  | cons a rest ih =>
    cases a with
    | ask q => exact ih
    | call d k =>
      unfold callsOnly playPlain
      rw [ih]

theorem ask_not_callsOnly (l : List Act) (q : Question) : Act.ask q ∉ callsOnly l := by
  induction l with
  | nil => exact List.not_mem_nil
  | cons a rest ih =>
    cases a with
    | ask q' => exact ih
    | call d k =>
      intro h
      rcases List.mem_cons.1 h with h | h
      · cases h
      · exact ih h

theorem emptied_callsOnly (l : List Act) : EmptiedBeforeFinalize W (callsOnly l) := by
  intro pre q mid d post h
  exact absurd (by rw [h]; simp) (ask_not_callsOnly l q)

theorem valid_init (W : World) (ns neg : Bool) (consts : J) (uid : Nat) : Valid W (CStash.init ns neg consts uid) := fun _ he => by cases he

theorem noCleared_init (ns neg : Bool) (consts : J) (uid : Nat) : NoCleared (CStash.init ns neg consts uid) := fun _ he => by cases he

theorem lived_trans {W : World} {a b c : CStash} (h1 : Lived W a b) (h2 : Lived W b c) : Lived W a c := by
  induction h2 with
  | nil => exact h1
  | call _ hk ih => exact .call ih hk
  | failed _ hk he ih => exact .failed ih hk he
  | ask _ q ih => exact .ask ih q

theorem lived_play {W : World} (l : List Act) {c0 c : CStash} {r : List (List Item)} (h : play W l c0 = (.ok r, c)) : Lived W c0 c := by
  induction l generalizing c0 r with
  | nil => cases h; exact .nil
  | cons a rest ih =>
    cases a with
    | ask q => exact lived_trans (.ask .nil q) (ih h)
    | call d k =>
      unfold play at h
      rw [CM.bind_def] at h
      cases h1 : k.perform W d c0 with
      | mk r1 c1 =>
        rw [h1] at h
        cases r1 with
        | error e => cases h
        | ok r1 =>
          simp only at h
          rw [CM.bind_def] at h
          cases h2 : play W rest c1 with
          | mk r2 c2 =>
            rw [h2] at h
            cases r2 with
            | error e => cases h
            | ok r2 =>
              cases h
              exact lived_trans (.call .nil h1) (ih h2)

end Oelint

import Verif.Model.Cache
import Verif.Lemmas.State
/-! The caches always hold what a fresh computation would give. -/
set_option linter.unusedSectionVars false
set_option linter.unusedSimpArgs false
namespace Oelint
variable [Uni]

/-- what a decorated function computes when nothing is remembered -/
def freshVal (W : World) (s : Stash) : CKey → Except PyErr CVal
  | .linked x f n => .ok (.bool (isLinkedTo s x f n))
  | .byFile l f n => .ok (.items (l.filter (fun x => isLinkedTo s x f n)))
  | .byClassifier l cs => .ok (.items (getItemsByClassifier l cs))
  | .byAttribute l a v => .ok (.items (getItemsByAttribute l a v))
  | .recipes => .ok (.strs (getRecipes s))
  | .loneAppends => .ok (.strs (getLoneAppends s))
  | .confFiles => .ok (.strs (getConfFiles W s))
  | .bbClasses => .ok (.strs (getBBClasses s))
  | .links f => .ok (.strs (getLinksForFile W s f))
  | .files f p => .ok (.strs (getFiles W s f p))
  | .scr t => (getScrComponents W s t).map .comps
  | .packageNames f b => (getValidPackageNames W s f b).map .strs
  | .namedResources f => (getValidNamedResources W s f).map .strs
  | .isImage f => (isImage W s f).map .bool
  | .isPackageGroup f => .ok (.bool (isPackageGroup W s f))
  | .packagesDynamic f => (getPackagesDynamic W s f).map .strs
  | .isDynamicPackage f n => (isDynamicPackage W s f n).map .bool
  | .layerRoot n => (getLayerRoot W n).map .str
  | .found n d => (findLocalOrLayer W n d).map .str

/-- the caches that never hold anything outdated -/
def CKey.kept : CKey → Bool
  | .scr _ | .layerRoot _ | .found .. => true
  | k => k.cleared

/-- the remembered results are those of a fresh computation -/
def Valid (W : World) (c : CStash) : Prop := ∀ e ∈ c.tab, e.1.kept = true → freshVal W c.base e.1 = .ok e.2

/-- the program answers like the function and changes nothing but the caches -/
def CReads {α : Type} (W : World) (x : CM α) (f : Stash → Except PyErr α) : Prop :=
  ∀ c, Valid W c → ∃ c', x c = (f c.base, c') ∧ c'.base = c.base ∧ Valid W c'

/-- the program changes nothing but the caches -/
def CKeeps {α : Type} (W : World) (x : CM α) : Prop :=
  ∀ c, Valid W c → (x c).2.base = c.base ∧ Valid W (x c).2

section reads
variable {W : World} {α β : Type}

theorem CM.bind_def (x : CM α) (g : α → CM β) (c : CStash) :
    (x >>= g) c = match x c with | (.ok a, c') => g a c' | (.error e, c') => (.error e, c') := rfl

theorem CM.pure_def (a : α) (c : CStash) : (pure a : CM α) c = (.ok a, c) := rfl

theorem CReads.keeps {x : CM α} {f : Stash → Except PyErr α} (h : CReads W x f) : CKeeps W x := by
  intro c hc
  obtain ⟨c', h1, h2, h3⟩ := h c hc
  rw [h1]
  exact ⟨h2, h3⟩

theorem CReads.congr {x : CM α} {f f' : Stash → Except PyErr α} (h : CReads W x f) (e : ∀ s, f s = f' s) : CReads W x f' := by
  intro c hc
  rw [← e]
  exact h c hc

theorem CReads.pure (a : α) : CReads W (pure a : CM α) (fun _ => .ok a) := fun c hc => ⟨c, rfl, rfl, hc⟩

theorem CReads.lift (a : Except PyErr α) : CReads W (CM.lift a) (fun _ => a) := fun c hc => ⟨c, rfl, rfl, hc⟩

theorem CReads.ask (f : Stash → Except PyErr α) : CReads W (CM.ask f) f := fun c hc => ⟨c, rfl, rfl, hc⟩

theorem CReads.bind {x : CM α} {f : Stash → Except PyErr α} {g : α → CM β} {h : α → Stash → Except PyErr β}
    (hx : CReads W x f) (hg : ∀ a, CReads W (g a) (h a)) :
    CReads W (x >>= g) (fun s => match f s with | .ok a => h a s | .error e => .error e) := by
  intro c hc
  obtain ⟨c1, h1, h2, h3⟩ := hx c hc
  rw [CM.bind_def, h1]
  cases hf : f c.base with
  | error e => exact ⟨c1, by simp only [hf], h2, h3⟩
  | ok a =>
    obtain ⟨c2, h4, h5, h6⟩ := hg a c1 h3
    simp only
    rw [h4, h2]
    exact ⟨c2, by simp only [hf], h5.trans h2, h6⟩

theorem CReads.bindOk {x : CM α} {f : Stash → α} {g : α → CM β} {h : α → Stash → Except PyErr β}
    (hx : CReads W x (fun s => .ok (f s))) (hg : ∀ a, CReads W (g a) (h a)) :
    CReads W (x >>= g) (fun s => h (f s) s) := CReads.bind hx hg

theorem CReads.mapOk {x : CM α} {f : Stash → α} (g : α → β) (hx : CReads W x (fun s => .ok (f s))) :
    CReads W (x >>= fun a => Pure.pure (g a)) (fun s => .ok (g (f s))) := CReads.bindOk hx (fun a => CReads.pure (g a))

theorem CReads.map {x : CM α} {f : Stash → Except PyErr α} (g : α → β) (hx : CReads W x f) :
    CReads W (x >>= fun a => Pure.pure (g a)) (fun s => (f s).map g) :=
  (CReads.bind hx (fun a => CReads.pure (g a))).congr (fun s => by cases f s <;> rfl)

theorem CKeeps.bind {x : CM α} {g : α → CM β} (hx : CKeeps W x) (hg : ∀ a, CKeeps W (g a)) : CKeeps W (x >>= g) := by
  intro c hc
  obtain ⟨h1, h2⟩ := hx c hc
  rw [CM.bind_def]
  cases hxc : x c with
  | mk r c' =>
    rw [hxc] at h1 h2
    cases r with
    | error e => exact ⟨h1, h2⟩
    | ok a =>
      obtain ⟨h3, h4⟩ := hg a c' h2
      exact ⟨h3.trans h1, h4⟩

theorem mem_of_lookup {k : CKey} {v : CVal} {l : List (CKey × CVal)} (h : l.lookup k = some v) : (k, v) ∈ l := by
  induction l with
  | nil => cases h
  | cons e l ih =>
    obtain ⟨k', v'⟩ := e
    rw [List.lookup_cons] at h
    split at h
    · next he =>
      rw [beq_iff_eq] at he
      cases h
      subst he
      exact List.mem_cons_self
    · exact List.mem_cons_of_mem _ (ih h)

theorem Valid.insert {c : CStash} {k : CKey} {v : CVal} (hc : Valid W c) (hv : k.kept = true → freshVal W c.base k = .ok v) :
    Valid W { c with tab := (k, v) :: c.tab } := by
  intro e he hk
  rcases List.mem_cons.1 he with rfl | he
  · exact hv hk
  · exact hc e he hk

theorem CReads.memo {k : CKey} {x : CM CVal} (hk : k.kept = true) (hx : CReads W x (fun s => freshVal W s k)) :
    CReads W (memo k x) (fun s => freshVal W s k) := by
  intro c hc
  unfold Oelint.memo
  cases hl : c.tab.lookup k with
  | some v =>
    have := hc _ (mem_of_lookup hl) hk
    simp only at this
    exact ⟨c, by simp only [this], rfl, hc⟩
  | none =>
    obtain ⟨c', h1, h2, h3⟩ := hx c hc
    simp only
    rw [h1]
    cases hf : freshVal W c.base k with
    | error e => exact ⟨c', by simp only [hf], h2, h3⟩
    | ok v => exact ⟨{ c' with tab := (k, v) :: c'.tab }, by simp only [hf], h2, h3.insert (fun _ => by rw [h2, hf])⟩

theorem CKeeps.memo {k : CKey} {x : CM CVal} (hk : k.kept = false) (hx : CKeeps W x) : CKeeps W (memo k x) := by
  intro c hc
  unfold Oelint.memo
  cases hl : c.tab.lookup k with
  | some v => exact ⟨rfl, hc⟩
  | none =>
    obtain ⟨h2, h3⟩ := hx c hc
    simp only
    cases hxc : x c with
    | mk r c' =>
      rw [hxc] at h2 h3
      cases r with
      | error e => exact ⟨h2, h3⟩
      | ok v => exact ⟨h2, h3.insert (fun h => by rw [hk] at h; cases h)⟩

theorem reads_cMap {f : α → CM β} {g : α → Stash → β} (hf : ∀ a, CReads W (f a) (fun s => .ok (g a s))) (l : List α) :
    CReads W (cMap f l) (fun s => .ok (l.map (fun a => g a s))) := by
  induction l with
  | nil => exact CReads.pure _
  | cons a l ih =>
    unfold cMap
    exact CReads.bindOk (hf a) (fun y => CReads.bindOk ih (fun ys => CReads.pure (y :: ys)))

end reads

/-! ## filters -/
section filters
variable {W : World}

theorem isLinkedTo_ident (s : Stash) (x : Item) (f : Str) (n : Bool) : isLinkedTo s x.ident f n = isLinkedTo s x f n := rfl

theorem reads_linked (f : Str) (n : Bool) (x : Item) : CReads W (cLinked f n x) (fun s => .ok (isLinkedTo s x f n)) := by
  unfold cLinked
  exact CReads.mapOk (f := fun s => CVal.bool (isLinkedTo s x f n)) CVal.toBool (CReads.memo rfl (CReads.ask _))

theorem reads_linkedFilter (f : Str) (n : Bool) (l : List Item) :
    CReads W (cLinkedFilter f n l) (fun s => .ok (l.filter (fun x => isLinkedTo s x f n))) := by
  induction l with
  | nil => exact CReads.pure _
  | cons x l ih =>
    unfold cLinkedFilter
    refine (CReads.bindOk (reads_linked f n x) (fun b => CReads.bindOk ih (fun r => CReads.pure _))).congr (fun s => ?_)
    simp only [List.filter_cons]

theorem filter_ident {p : Item → Bool} (hp : ∀ x, p x.ident = p x) (l : List Item) :
    (l.filter p).map Item.ident = (l.map Item.ident).filter p := by
  rw [List.filter_map]
  congr 1
  exact List.filter_congr (fun x _ => (hp x).symm)

theorem among_filter {p : Item → Bool} (hp : ∀ x, p x.ident = p x) (l : List Item) :
    (CVal.items ((l.map Item.ident).filter p)).among l = l.filter p := by
  unfold CVal.among
  refine List.filter_congr (fun x hx => ?_)
  rw [← hp x, Bool.eq_iff_iff, List.contains_iff_mem, List.mem_filter]
  exact ⟨fun h => h.2, fun h => ⟨List.mem_map.2 ⟨x, hx, rfl⟩, h⟩⟩

theorem reads_byFile (l : List Item) (f : Str) (n : Bool) :
    CReads W (cByFile l f n) (fun s => .ok (l.filter (fun x => isLinkedTo s x f n))) := by
  unfold cByFile
  have h : CReads W (memo (.byFile (l.map Item.ident) f n) (do
      let r ← cLinkedFilter f n l
      pure (.items (r.map Item.ident)))) (fun s => freshVal W s (.byFile (l.map Item.ident) f n)) := by
    refine CReads.memo rfl ((CReads.mapOk _ (reads_linkedFilter f n l)).congr (fun s => ?_))
    rw [filter_ident (p := fun x => isLinkedTo s x f n) (fun x => rfl)]
    rfl
  refine (CReads.bindOk (f := fun s => CVal.items ((l.map Item.ident).filter (fun x => isLinkedTo s x f n))) h
    (fun v => CReads.pure (v.among l))).congr (fun s => ?_)
  rw [among_filter (p := fun x => isLinkedTo s x f n) (fun x => rfl)]

theorem reads_byClassifier (l : List Item) (cs : List Str) :
    CReads W (cByClassifier l cs) (fun _ => .ok (getItemsByClassifier l cs)) := by
  unfold cByClassifier
  have e1 : ∀ l, getItemsByClassifier l cs = l.filter (fun x => cs.isEmpty || cs.contains x.payload.classifier) := by
    intro l
    unfold getItemsByClassifier
    cases cs.isEmpty with
    | true => simp
    | false => simp
  have h : CReads W (memo (.byClassifier (l.map Item.ident) cs) (pure (.items ((getItemsByClassifier l cs).map Item.ident))))
      (fun s => freshVal W s (.byClassifier (l.map Item.ident) cs)) := by
    refine CReads.memo rfl ((CReads.pure _).congr (fun s => ?_))
    show _ = Except.ok (CVal.items (getItemsByClassifier _ _))
    rw [e1, e1, filter_ident (fun x => rfl)]
  refine (CReads.bindOk (f := fun s => CVal.items (getItemsByClassifier (l.map Item.ident) cs)) h
    (fun v => CReads.pure (v.among l))).congr (fun s => ?_)
  rw [e1, e1, among_filter (fun x => rfl)]

/-- does the value found under the name pass -/
def passes (vs : List Str) : Option Attr → Bool
  | none => false
  | some a => vs.isEmpty || vs.any (fun v => Attr.str v == a)

theorem passes_cons (vs : List Str) (name k : Str) {a a' : Attr} {l l' : List (Str × Attr)} (ha : passes vs (some a) = passes vs (some a'))
    (hl : passes vs (dget name l) = passes vs (dget name l')) :
    passes vs (dget name ((k, a) :: l)) = passes vs (dget name ((k, a') :: l')) := by
  unfold dget
  by_cases h : k == name
  · simpa [h] using ha
  · simpa [h] using hl

theorem passes_append (vs : List Str) (name : Str) (l : List (Str × Attr)) {m m' : List (Str × Attr)}
    (h : passes vs (dget name m) = passes vs (dget name m')) : passes vs (dget name (l ++ m)) = passes vs (dget name (l ++ m')) := by
  induction l with
  | nil => exact h
  | cons x l ih => exact passes_cons vs name _ rfl ih

theorem attrFilter_ident (a v : List Str) (x : Item) : attrFilter x.ident a v = attrFilter x a v := by
  have e : ∀ (y : Item), attrFilter y a v = a.any (fun name => passes v (dget name y.getAttributes)) := by
    intro y
    unfold attrFilter
    congr 1
  rw [e, e]
  congr 1
  funext name
  show passes v (dget name (ownAttributes x ++ _)) = passes v (dget name (ownAttributes x ++ _))
  refine passes_append v name _ (passes_cons v name _ ?_ ?_)
  · have : ∀ (i : Int), (v.any fun v => Attr.str v == Attr.int i) = false := by
      intro i; rw [List.any_eq_false]; intro w _; simp
    show (_ || _) = (_ || _)
    rw [this, this]
  · refine passes_cons v name _ rfl (passes_cons v name _ rfl (passes_cons v name _ rfl (passes_cons v name _ rfl
      (passes_cons v name _ rfl (passes_cons v name _ rfl (passes_cons v name _ rfl (passes_cons v name _ rfl
      (passes_cons v name _ ?_ rfl))))))))
    have : ∀ (i : List Str), (v.any fun v => Attr.str v == Attr.strset i) = false := by
      intro i; rw [List.any_eq_false]; intro w _; simp
    show (_ || _) = (_ || _)
    rw [this, this]

theorem reads_byAttribute (l : List Item) (a vs : List Str) :
    CReads W (cByAttribute l a vs) (fun _ => .ok (getItemsByAttribute l a vs)) := by
  unfold cByAttribute
  have e1 : ∀ l, getItemsByAttribute l a vs = l.filter (fun x => a.isEmpty || attrFilter x a vs) := by
    intro l
    unfold getItemsByAttribute
    cases a.isEmpty with
    | true => simp
    | false => simp
  have hp : ∀ x : Item, (a.isEmpty || attrFilter x.ident a vs) = (a.isEmpty || attrFilter x a vs) := by
    intro x; rw [attrFilter_ident]
  have h : CReads W (memo (.byAttribute (l.map Item.ident) a vs) (pure (.items ((getItemsByAttribute l a vs).map Item.ident))))
      (fun s => freshVal W s (.byAttribute (l.map Item.ident) a vs)) := by
    refine CReads.memo rfl ((CReads.pure _).congr (fun s => ?_))
    show _ = Except.ok (CVal.items (getItemsByAttribute _ _ _))
    rw [e1, e1, filter_ident hp]
  refine (CReads.bindOk (f := fun s => CVal.items (getItemsByAttribute (l.map Item.ident) a vs)) h
    (fun v => CReads.pure (v.among l))).congr (fun s => ?_)
  rw [e1, e1, among_filter hp]

theorem reads_applyFilter (l : List Item) (f : Filter) : CReads W (cApplyFilter l f) (fun s => .ok (applyFilter s l f)) := by
  have h1 : CReads W (cStepFile f l) (fun s => .ok (match f.filename with
        | some fn => if fn.isEmpty then l else getItemsByFile s l fn f.nolink
        | none => l)) := by
    unfold cStepFile
    cases f.filename with
    | none => exact CReads.pure _
    | some fn =>
      simp only
      by_cases hfn : fn.isEmpty = true
      · simp only [hfn, if_true]; exact CReads.pure _
      · rw [if_neg hfn]
        refine (reads_byFile l fn f.nolink).congr (fun s => ?_)
        rw [if_neg hfn, getItemsByFile, if_neg hfn]
  have h2 : ∀ l, CReads W (cStepClassifier f l)
      (fun _ => .ok (if f.classifier.norm.isEmpty then l else getItemsByClassifier l f.classifier.norm)) := by
    intro l
    unfold cStepClassifier
    split
    · exact CReads.pure _
    · exact reads_byClassifier _ _
  have h3 : ∀ l, CReads W (cStepAttribute f l)
      (fun _ => .ok (if f.attname.norm.isEmpty then l else getItemsByAttribute l f.attname.norm f.attvalue.norm)) := by
    intro l
    unfold cStepAttribute
    split
    · exact CReads.pure _
    · exact reads_byAttribute _ _ _
  exact CReads.bindOk h1 (fun l => CReads.bindOk (h2 l) (fun l => h3 l))

theorem reads_reduce (l : List Item) (f : Filter) : CReads W (cReduce W l f) (fun s => .ok (reduceL W s l f)) :=
  CReads.mapOk _ (reads_applyFilter l f)

theorem reads_itemsFor (f : Filter) : CReads W (cItemsFor W f) (fun s => .ok (getItemsFor W s f)) :=
  CReads.bindOk (CReads.ask _) (fun l => reads_reduce l f)

end filters

/-! ## ExpandTerm -/
section expand
variable {W : World}

theorem reads_expandOne {baseset : J} {rec : Str → Seen → CM (Str × Seen)} {rec' : Stash → Str → Seen → Except PyErr (Str × Seen)}
    (hrec : ∀ v sn, CReads W (rec v sn) (fun s => rec' s v sn)) (file : Str) (spare : List Str) (quote : Str) (m : Mt) (res : Str)
    (seen : Seen) : CReads W (cExpandOne W baseset rec file spare quote m res seen)
      (fun s => expandOne W s baseset (rec' s) file spare quote m res seen) := by
  unfold cExpandOne expandOne
  by_cases hsp : spare.contains ((m.group 1).getD []) = true
  · simp only [hsp, if_true]; exact CReads.pure _
  · simp only [hsp]
    refine (CReads.bindOk (reads_itemsFor _) (h := fun l s =>
      match sourceFrom (l.filterMap asAssignment) baseset file ((m.group 1).getD []) quote with
      | .error e => .error e
      | .ok .keep => .ok (res, seen)
      | .ok (.lit t) => .ok (replaceAll m.text t res, seen)
      | .ok (.text t) =>
        match dget ((m.group 1).getD []) seen with
        | some r => .ok (replaceAll m.text r res, seen)
        | none =>
          match rec' s t (dset ((m.group 1).getD []) [] seen) with
          | .error e => .error e
          | .ok (r, seen) => .ok (replaceAll m.text r res, dset ((m.group 1).getD []) r seen)) (fun l => ?_)).congr (fun s => rfl)
    cases sourceFrom (l.filterMap asAssignment) baseset file ((m.group 1).getD []) quote with
    | error e => exact CReads.lift _
    | ok src =>
      cases src with
      | keep => exact CReads.pure _
      | lit t => exact CReads.pure _
      | text t =>
        simp only
        cases dget ((m.group 1).getD []) seen with
        | some r => exact CReads.pure _
        | none =>
          refine (CReads.bind (hrec _ _) (fun rs => CReads.pure _)).congr (fun s => ?_)
          cases rec' s t (dset ((m.group 1).getD []) [] seen) <;> rfl

theorem reads_expandMany {baseset : J} {rec : Str → Seen → CM (Str × Seen)} {rec' : Stash → Str → Seen → Except PyErr (Str × Seen)}
    (hrec : ∀ v sn, CReads W (rec v sn) (fun s => rec' s v sn)) (file : Str) (spare : List Str) (quote : Str) (ms : List Mt) (res : Str)
    (seen : Seen) : CReads W (cExpandMany W baseset rec file spare quote ms res seen)
      (fun s => expandMany W s baseset (rec' s) file spare quote ms res seen) := by
  induction ms generalizing res seen with
  | nil => exact CReads.pure _
  | cons m ms ih =>
    unfold cExpandMany
    refine (CReads.bind (reads_expandOne hrec file spare quote m res seen) (fun rs => ih rs.1 rs.2)).congr (fun s => ?_)
    conv => rhs; unfold expandMany
    cases expandOne W s baseset (rec' s) file spare quote m res seen <;> rfl

theorem reads_readFiles {rec : Str → Seen → CM (Str × Seen)} {rec' : Stash → Str → Seen → Except PyErr (Str × Seen)}
    (hrec : ∀ v sn, CReads W (rec v sn) (fun s => rec' s v sn)) (ms : List Mt) (res : Str) (seen : Seen) :
    CReads W (cReadFiles W rec ms res seen) (fun s => readFiles W (rec' s) ms res seen) := by
  induction ms generalizing res seen with
  | nil => exact CReads.pure _
  | cons m ms ih =>
    unfold cReadFiles
    refine (CReads.bind (hrec _ _) (h := fun ps s =>
      match W.file (stripP (oneOf c!"'\"") ps.1) with
      | .text t => readFiles W (rec' s) ms (univNewlines t) (if seen.isEmpty then seen else ps.2)
      | .notFound => readFiles W (rec' s) ms [] (if seen.isEmpty then seen else ps.2)
      | .denied => readFiles W (rec' s) ms [] (if seen.isEmpty then seen else ps.2)
      | .fails => .error .osError) (fun ps => ?_)).congr (fun s => ?_)
    · simp only
      cases W.file (stripP (oneOf c!"'\"") ps.1) with
      | text t => exact ih _ _
      | notFound => exact ih _ _
      | denied => exact ih _ _
      | fails => exact CReads.lift _
    · conv => rhs; unfold readFiles
      cases rec' s ((reOeUtilsReadFile.group m c!"file").getD []) seen <;> rfl

theorem reads_expandTermF (n : Nat) (file : Str) (spare : List Str) (value : Str) (seen : Seen) :
    CReads W (cExpandTermF W n file spare value seen) (fun s => expandTermF W s n file spare value seen) := by
  induction n generalizing spare value seen with
  | zero => exact CReads.lift _
  | succ n ih =>
    unfold cExpandTermF
    refine (CReads.bind (CReads.ask _) (fun baseset => CReads.bind
      (reads_expandMany (rec' := fun s v sn => expandTermF W s n file [] v sn) (fun v sn => ih [] v sn) file spare [] _ value seen)
      (fun r1 => CReads.bind
        (reads_expandMany (rec' := fun s v sn => expandTermF W s n file [] v sn) (fun v sn => ih [] v sn) file spare c!"\"" _ r1.1 r1.2)
        (fun r2 => reads_readFiles (rec' := fun s v sn => expandTermF W s n file spare v sn) (fun v sn => ih spare v sn) _ r2.1 r2.2)))).congr
      (fun s => ?_)
    conv => rhs; unfold expandTermF
    cases setsBase s.consts with
    | error e => rfl
    | ok baseset =>
      simp only
      cases expandMany W s baseset (fun v sn => expandTermF W s n file [] v sn) file spare [] (reFinditer reVariablePattern.re value)
          value seen with
      | error e => rfl
      | ok r1 =>
        simp only
        cases expandMany W s baseset (fun v sn => expandTermF W s n file [] v sn) file spare c!"\""
          (reFinditer reVariablePattern2.re value) r1.1 r1.2 <;> rfl

theorem reads_expandTermS (file : Str) (spare : List Str) (value : Str) :
    CReads W (cExpandTermS W file spare value) (fun s => expandTermS W s file spare value) := by
  unfold cExpandTermS
  exact CReads.bindOk (CReads.ask _) (h := fun n s => (expandTermF W s n file spare value []).map (·.1))
    (fun n => CReads.map _ (reads_expandTermF n file spare value []))

theorem reads_expandTerm (file value : Str) : CReads W (cExpandTerm W file value) (fun s => expandTerm W s file value) :=
  reads_expandTermS file [] value

end expand

end Oelint

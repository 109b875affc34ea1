import Verif.Lemmas.Cache
/-! Every question is answered as a fresh computation would, except those whose cache is never emptied. -/
set_option linter.unusedSectionVars false
set_option linter.unusedSimpArgs false
namespace Oelint
variable [Uni] {W : World}

theorem reads_explode (file : Str) (d : ExpDict) (acc : List (Str × List Str)) :
    CReads W (cExplode W file d acc) (fun s => explode W s file d acc) := by
  induction d generalizing acc with
  | nil => exact CReads.pure _
  | cons kv rest ih =>
    obtain ⟨k, v⟩ := kv
    unfold cExplode
    refine (CReads.bind (reads_expandTerm file k) (fun key => CReads.bind (reads_expandTerm file (v.getD []))
      (fun val => ih _))).congr (fun s => ?_)
    conv => rhs; unfold explode
    cases expandTerm W s file k with
    | error e => rfl
    | ok key => cases expandTerm W s file (v.getD []) <;> rfl

theorem reads_expandVar (filename : Option Str) (att val : Arg) (nolink : Bool) :
    CReads W (cExpandVar W filename att val nolink) (fun s => expandVar W s filename att val nolink) := by
  unfold cExpandVar
  refine (CReads.bindOk (reads_itemsFor _) (fun a => CReads.bindOk (reads_itemsFor _) (h := fun b s =>
    match (match filename with
    | some f => some f
    | none => (a ++ b).head?.map (·.origin)) with
    | none => .ok []
    | some file =>
      match expInit s file with
      | .error e => .error e
      | .ok d =>
        explode W s file (passRemove (sortBy lineLe (a ++ b)) (passAppend (sortBy lineLe (a ++ b))
          (passImmediate (sortBy lineLe (a ++ b)) d))) []) (fun b => ?_))).congr (fun s => rfl)
  simp only
  cases filename with
  | some file => exact (CReads.bind (CReads.ask _) (fun d => reads_explode _ _ _)).congr (fun s => by simp only; cases expInit s file <;> rfl)
  | none =>
    simp only
    cases (a ++ b).head? with
    | none => exact CReads.pure _
    | some x =>
      exact (CReads.bind (CReads.ask _) (fun d => reads_explode _ _ _)).congr (fun s => by simp only [Option.map_some]; cases expInit s x.origin <;> rfl)

theorem reads_recipes : CReads W cRecipes (fun s => .ok (getRecipes s)) :=
  CReads.mapOk (f := fun s => CVal.strs (getRecipes s)) CVal.toStrs (CReads.memo rfl (CReads.ask _))

theorem reads_loneAppends : CReads W cLoneAppends (fun s => .ok (getLoneAppends s)) :=
  CReads.mapOk (f := fun s => CVal.strs (getLoneAppends s)) CVal.toStrs (CReads.memo rfl (CReads.ask _))

theorem reads_confFiles : CReads W (cConfFiles W) (fun s => .ok (getConfFiles W s)) :=
  CReads.mapOk (f := fun s => CVal.strs (getConfFiles W s)) CVal.toStrs (CReads.memo rfl (CReads.ask _))

theorem reads_links (file : Str) : CReads W (cLinksForFile W file) (fun s => .ok (getLinksForFile W s file)) := by
  refine CReads.mapOk (f := fun s => CVal.strs (getLinksForFile W s file)) CVal.toStrs (CReads.memo rfl ?_)
  show CReads W _ (fun s => .ok (CVal.strs (getLinksForFile W s file)))
  by_cases hf : file.isEmpty = true
  · rw [if_pos hf]
    refine (CReads.pure _).congr (fun s => ?_)
    rw [getLinksForFile, if_pos hf]
  · rw [if_neg hf]
    refine (CReads.bindOk (CReads.ask _) (fun l => CReads.bindOk (reads_linkedFilter file false l) (fun r => CReads.pure _))).congr
      (fun s => ?_)
    rw [getLinksForFile, if_neg hf, getItemsByFile, if_neg hf]

theorem reads_files (file pattern : Str) : CReads W (cFiles W file pattern) (fun s => .ok (getFiles W s file pattern)) := by
  refine CReads.mapOk (f := fun s => CVal.strs (getFiles W s file pattern)) CVal.toStrs (CReads.memo rfl ?_)
  exact (CReads.bindOk (reads_itemsFor _) (fun uris => CReads.bindOk
    (reads_cMap (g := fun i s => (getItemsFor W s { filename := some i.origin }).map
      (fun x => dirname x.origin ++ c!"/*/" ++ pattern)) (fun i => CReads.mapOk _ (reads_itemsFor _)) uris)
    (fun more => CReads.pure _))).congr (fun s => by simp only [freshVal, getFiles])

theorem reads_scr (t : Str) : CReads W (cScrComponents W t) (fun s => getScrComponents W s t) := by
  refine (CReads.map CVal.toComps (f := fun s => freshVal W s (.scr t)) (CReads.memo rfl (CReads.ask _))).congr (fun s => ?_)
  show ((getScrComponents W s t).map CVal.comps).map CVal.toComps = _
  cases getScrComponents W s t <;> rfl

theorem reads_packageLoop (file pn : Str) (b : Bool) (vs : List VarData) (res : List Str) :
    CReads W (cPackageLoop W file pn b vs res) (fun s => packageLoop W s file pn b vs res) := by
  induction vs generalizing res with
  | nil => exact CReads.pure _
  | cons v vs ih =>
    unfold cPackageLoop
    refine (CReads.bind (reads_expandTermS file _ _) (fun t => ih _)).congr (fun s => ?_)
    conv => rhs; unfold packageLoop packageWords
    cases expandTermS W s file [c!"PN"] (varValueStripped v) <;> rfl

theorem reads_packageNames (file : Str) (b : Bool) :
    CReads W (cPackageNames W file b) (fun s => getValidPackageNames W s file b) := by
  have h : CReads W (memo (.packageNames file b) (do
      let a ← cItemsFor W (varFilter file c!"PACKAGES")
      let b' ← cItemsFor W (varFilter file c!"PACKAGE_BEFORE_PN")
      let comp := varsOf (a ++ b')
      let r ← cPackageLoop W file c!"${PN}" b comp ((stdPackages c!"${PN}").foldl sadd [])
      let r ← cPackageLoop W file (guessRecipeName file) b comp ((stdPackages (guessRecipeName file)).foldl sadd r)
      pure (.strs r))) (fun s => freshVal W s (.packageNames file b)) := by
    refine CReads.memo rfl ?_
    refine (CReads.bindOk (reads_itemsFor _) (fun a => CReads.bindOk (reads_itemsFor _) (fun b' =>
      CReads.bind (reads_packageLoop file _ b _ _) (fun r => CReads.map CVal.strs (reads_packageLoop file _ b _ _))))).congr (fun s => ?_)
    show _ = (getValidPackageNames W s file b).map CVal.strs
    unfold getValidPackageNames
    simp only
    cases packageLoop W s file c!"${PN}" b _ ((stdPackages c!"${PN}").foldl sadd []) <;> rfl
  refine (CReads.map CVal.toStrs h).congr (fun s => ?_)
  show ((getValidPackageNames W s file b).map CVal.strs).map CVal.toStrs = _
  cases getValidPackageNames W s file b <;> rfl

theorem reads_namedLoop (pn : Str) (ws res : List Str) : CReads W (cNamedLoop W pn ws res) (fun s => namedLoop W s pn ws res) := by
  induction ws generalizing res with
  | nil => exact CReads.pure _
  | cons w ws ih =>
    unfold cNamedLoop
    refine (CReads.bind (reads_scr w) (h := fun url s => match dget c!"name" url.options with
      | some n => namedLoop W s pn ws (sadd res (replaceAll c!"${PN}" pn n))
      | none => namedLoop W s pn ws res) (fun url => ?_)).congr (fun s => ?_)
    · cases dget c!"name" url.options with
      | none => exact ih _
      | some n => exact ih _
    · conv => rhs; unfold namedLoop
      cases getScrComponents W s w <;> rfl

theorem reads_namedResources (file : Str) : CReads W (cNamedResources W file) (fun s => getValidNamedResources W s file) := by
  have h : CReads W (memo (.namedResources file) (do
      let a ← cItemsFor W (varFilter file c!"SRC_URI")
      let words := ((varsOf a).map (fun v => (stashSafeLineSplit (varValueStripped v)).filter (fun x => !x.isEmpty))).flatten
      let r ← cNamedLoop W (guessRecipeName file) words [guessRecipeName file]
      pure (.strs r))) (fun s => freshVal W s (.namedResources file)) := by
    refine CReads.memo rfl ?_
    exact (CReads.bindOk (reads_itemsFor _) (fun a => CReads.map CVal.strs (reads_namedLoop _ _ _))).congr (fun s => rfl)
  refine (CReads.map CVal.toStrs h).congr (fun s => ?_)
  show ((getValidNamedResources W s file).map CVal.strs).map CVal.toStrs = _
  cases getValidNamedResources W s file <;> rfl

theorem reads_isImage (file : Str) : CReads W (cIsImage W file) (fun s => isImage W s file) := by
  have h : CReads W (memo (.isImage file) (do
      let classes ← CM.ask (fun s => imagesClasses s.consts)
      let vars ← CM.ask (fun s => imagesVariables s.consts)
      let inh ← cItemsFor W (inheritFilter file)
      let found ← cMap (fun v => cItemsFor W (varFilter file v)) vars.elems
      pure (.bool (inh.any (fun i => i.getItems.any classes.has) || found.any (fun l => !l.isEmpty)))))
      (fun s => freshVal W s (.isImage file)) := by
    refine CReads.memo rfl ?_
    refine (CReads.bind (CReads.ask _) (fun (classes : J) => CReads.bind (CReads.ask _) (fun (vars : J) => CReads.bindOk (reads_itemsFor _)
      (fun inh => CReads.mapOk (fun (found : List (List Item)) =>
          CVal.bool (inh.any (fun i => i.getItems.any classes.has) || found.any (fun l => !l.isEmpty)))
        (reads_cMap (g := fun v s => getItemsFor W s (varFilter file v)) (fun v => reads_itemsFor _) vars.elems))))).congr (fun s => ?_)
    show _ = (isImage W s file).map CVal.bool
    unfold isImage
    cases imagesClasses s.consts with
    | error e => rfl
    | ok classes =>
      cases imagesVariables s.consts with
      | error e => rfl
      | ok vars => simp only [Except.map, List.any_map]; rfl
  refine (CReads.map CVal.toBool h).congr (fun s => ?_)
  show ((isImage W s file).map CVal.bool).map CVal.toBool = _
  cases isImage W s file <;> rfl

theorem reads_isPackageGroup (file : Str) : CReads W (cIsPackageGroup W file) (fun s => .ok (isPackageGroup W s file)) := by
  refine CReads.mapOk (f := fun s => CVal.bool (isPackageGroup W s file)) CVal.toBool (CReads.memo rfl ?_)
  exact (CReads.mapOk _ (reads_itemsFor _)).congr (fun s => rfl)

theorem reads_dynLoop (file : Str) (vs : List VarData) (res : List Str) :
    CReads W (cDynLoop W file vs res) (fun s => dynLoop W s file vs res) := by
  induction vs generalizing res with
  | nil => exact CReads.pure _
  | cons v vs ih =>
    unfold cDynLoop
    refine (CReads.bind (reads_expandTerm file _) (fun t => ih _)).congr (fun s => ?_)
    conv => rhs; unfold dynLoop
    cases expandTerm W s file (varValueStripped v) <;> rfl

theorem keeps_bbClasses : CKeeps W cBBClasses :=
  CKeeps.bind (CKeeps.memo rfl (CReads.ask _).keeps) (fun v => (CReads.pure _).keeps)

theorem keeps_packagesDynamic (file : Str) : CKeeps W (cPackagesDynamic W file) :=
  CKeeps.bind (CKeeps.memo rfl (CReads.bindOk (reads_itemsFor _) (fun l => CReads.map CVal.strs (reads_dynLoop file _ _))).keeps)
    (fun v => (CReads.pure _).keeps)

theorem keeps_isDynamicPackage (file name : Str) : CKeeps W (cIsDynamicPackage W file name) :=
  CKeeps.bind (CKeeps.memo rfl (CKeeps.bind (reads_expandTerm file name).keeps (fun e => CKeeps.bind (keeps_packagesDynamic file)
    (fun p => (CReads.map CVal.bool (CReads.lift _)).keeps)))) (fun v => (CReads.pure _).keeps)

end Oelint

import Verif.Lemmas.Disk
import Verif.Lemmas.SampleRuns
import Verif.Props.Cache
/-!
# A disk that changes while a stash is used (C101)

`SameButDisk W W'` allows everything on the disk to differ.  `observeOver` is what a user sees of acts each of which finds its
own disk; `LivedOver W c0 c` says that `c` comes about from `c0` while the disk changes.
-/
set_option linter.unusedSectionVars false
namespace Oelint
section
variable [Uni]
open Spec

/-- **C101** What has been loaded is not affected by the disk: `Append`, `Remove`, `Finalize` and all questions but `GetFiles` and
those that expand texts give the same whatever is on the disk meanwhile. -/
theorem C101_loaded (W : World) (l : List (World × Act)) (hl : ∀ x ∈ l, SameButDisk W x.1 ∧ x.2.offline = true) (c : CStash) :
    observeOver l c = observe W (l.map Prod.snd) c := by
  induction l generalizing c with
  | nil => rfl
  | cons x l ih =>
    obtain ⟨W', a⟩ := x
    obtain ⟨hw, ha⟩ := hl _ List.mem_cons_self
    have hl' := fun x hx => hl x (List.mem_cons_of_mem _ hx)
    cases a with
    | ask q =>
      show _ :: observeOver l _ = _ :: observe W _ _
      have e : q.ask W' = q.ask W := disk_question hw q ha
      rw [ih hl', e]
    | call d k =>
      show _ :: observeOver l _ = _ :: observe W _ _
      have e : k.perform W' d = k.perform W d := disk_call hw d k (fun p o f hk => by subst hk; cases ha)
      rw [ih hl', e]

/-- **C101** (partial) Whatever has happened to the disk and the stash before, a question is answered as a fresh computation with the disk of
now would.  Missing: `GetFiles` and `GetValidPackageNames`, see `C101_reloaded_partial`, and the three questions of C34. -/
theorem C101_current_partial {W W' : World} (hw : SameButDisk W W') (ns neg : Bool) (consts : J) (uid : Nat) (c : CStash)
    (h : LivedOver W (CStash.init ns neg consts uid) c) (q : Question) (h1 : q.neverCleared = false) (h2 : q.remembersDisk = false) :
    (q.ask W' c).1 = q.fresh W' c.base ∧ (q.ask W' c).2.base = c.base := by
  have hc := (validD_livedOver h (fun _ he => by cases he)).world hw
  exact ⟨disk_answer hc q h1 h2, (validD_question q hc).1⟩

/-- **C101** (partial) `AddFile` returns, raises and adds what it would if nothing were remembered, with the files as they are now, if no place of a
file that is remembered has become wrong.  Missing: a file that has appeared where it was looked for before, or is gone from where
it was found, see `C101_false`. -/
theorem C101_addFile_partial {W W' : World} (hw : SameButDisk W W') (ns neg : Bool) (consts : J) (uid : Nat) (c : CStash)
    (h : LivedOver W (CStash.init ns neg consts uid) c) (hp : PlacesRight W' c) (depth : Nat) (path : Str) (off : Int) (forced : Option Str) :
    ((Call.addFile path off forced).perform W' depth c).1 = (addFile W' depth path off forced c.base).1 ∧
    ((Call.addFile path off forced).perform W' depth c).2.base = (addFile W' depth path off forced c.base).2 :=
  disk_sim (k := .addFile path off forced) (by intro e; cases e) ((validD_livedOver h (fun _ he => by cases he)).world hw) hp

/-- **C101** (partial) After `AddFile` (if the file is not skipped), `Append`, `Remove` or `Finalize`, and any questions, every question is answered
as a fresh computation with the disk of now would, if no place of a file that is remembered had become wrong at the call. -/
theorem C101_reloaded_partial {W W' : World} (hw : SameButDisk W W') (ns neg : Bool) (consts : J) (uid : Nat) (c c' : CStash)
    (h : LivedOver W (CStash.init ns neg consts uid) c) (hp : PlacesRight W' c) (depth : Nat) (k : Call) (r : List Item)
    (hk : k.perform W' depth c = (.ok r, c')) (hs : ∀ p o f, k = .addFile p o f → alreadySeen c.base (abspath W'.cwd p) = false)
    (qs : List Question) (q : Question) (hq : q.neverCleared = false) :
    (q.ask W' (afterActs W' (qs.map .ask) c')).1 = q.fresh W' c'.base := by
  have hc := (validD_livedOver h (fun _ he => by cases he)).world hw
  have hv : Valid W' c' := by
    refine disk_emptied (validD_call hc hp hk) ?_
    rcases cleared_call hk with ⟨-, p, o, f, rfl, hseen⟩ | hn
    · rw [hs p o f rfl] at hseen; cases hseen
    · exact hn
  have hqs : ∀ (qs : List Question) (c : CStash), Valid W' c →
      Valid W' (afterActs W' (qs.map .ask) c) ∧ (afterActs W' (qs.map .ask) c).base = c.base := by
    intro qs
    induction qs with
    | nil => exact fun _ h => ⟨h, rfl⟩
    | cons q qs ih =>
      intro c hc
      have h1 := keeps_question (W := W') q c hc
      have h2 := ih _ h1.2
      exact ⟨h2.1, h2.2.trans h1.1⟩
  obtain ⟨h1, h2⟩ := hqs qs c' hv
  obtain ⟨c2, h3, -⟩ := reads_question (W := W') q hq _ h1
  rw [h3, h2]

/-- **C101** If only what is in the files changes, no place of a file becomes wrong, however often the files change. -/
theorem C101_edited (W : World) (ns neg : Bool) (consts : J) (uid : Nat) (l : List (World × Act)) (hl : ∀ x ∈ l, SameTree W x.1)
    {W' : World} (hw : SameTree W W') :
    PlacesRight W' (l.foldl (fun c x => afterActs x.1 [x.2] c) (CStash.init ns neg consts uid)) := by
  refine tree_places hw _ ?_
  have key : ∀ (l : List (World × Act)), (∀ x ∈ l, SameTree W x.1) → ∀ c, PlacesRight W c →
      PlacesRight W (l.foldl (fun c x => afterActs x.1 [x.2] c) c) := by
    intro l
    induction l with
    | nil => exact fun _ _ h => h
    | cons x l ih =>
      intro hl c hc
      refine ih (fun y hy => hl y (List.mem_cons_of_mem _ hy)) _ ?_
      have ht := hl x List.mem_cons_self
      have ht' : SameTree x.1 W := ⟨ht.disk.symm, ht.pathExists.symm, ht.isFile.symm, ht.isDir.symm⟩
      exact tree_places ht' _ (placed_acts x.1 [x.2] c (tree_places ht c hc))
  exact key l hl _ ⟨fun _ _ h => (by cases h), fun _ _ _ h => (by cases h)⟩

end

attribute [local instance] Sample.asciiUni
open Spec

/-- a recipe that includes a file which is not there -/
def Sample.before : World := Sample.world [ (c!"/w/a_1.bb", c!"include b.inc\nA = \"1\"\n") ]
/-- then it is -/
def Sample.later : World := Sample.world [ (c!"/w/a_1.bb", c!"include b.inc\nA = \"1\"\n"), (c!"/w/b.inc", c!"B = \"1\"\n") ]
/-- then the recipe is edited -/
def Sample.edited : World := Sample.world [ (c!"/w/a_1.bb", c!"include b.inc\nA = \"2\"\n"), (c!"/w/b.inc", c!"B = \"1\"\n") ]

/-- the stash after the recipe has been added -/
def Sample.added (W : World) (c : CStash) : CStash := ((Call.addFile c!"/w/a_1.bb" 0 none).perform W 9 c).2

/-- `AddFile` succeeds -/
def Sample.addable (W : World) (c : CStash) : Bool :=
  match (Call.addFile c!"/w/a_1.bb" 0 none).perform W 9 c with
  | (.ok _, _) => true
  | _ => false

theorem Sample.addable_iff {W : World} {c : CStash} (h : Sample.addable W c = true) :
    ∃ r, (Call.addFile c!"/w/a_1.bb" 0 none).perform W 9 c = (.ok r, Sample.added W c) := by
  unfold Sample.addable at h
  split at h
  · rename_i r c' hr
    exact ⟨r, by unfold Sample.added; rw [hr]⟩
  · cases h

theorem Sample.disks : SameTree Sample.later Sample.edited := by
  have e : ∀ p, dhas p [ (c!"/w/a_1.bb", c!"include b.inc\nA = \"2\"\n"), (c!"/w/b.inc", c!"B = \"1\"\n") ] =
      dhas p [ (c!"/w/a_1.bb", c!"include b.inc\nA = \"1\"\n"), (c!"/w/b.inc", c!"B = \"1\"\n") ] := by
    intro p
    unfold dhas dget
    split <;> rfl
  refine ⟨⟨rfl, rfl, rfl, rfl, rfl, rfl⟩, ?_, ?_, rfl⟩
  · funext p
    show (dhas p _ || _) = (dhas p _ || _)
    rw [e]
    rfl
  · funext p
    exact e p

/-- the values of a variable in the stash -/
def Sample.valuesOf (name : Str) (c : CStash) : List Str :=
  c.base.items.filterMap (fun x => match x.payload with
    | .«variable» v => if v.varName == name then some v.varValue else none
    | _ => none)

/-- a directory of patches, empty at first -/
def Sample.patches (l : List Str) : World :=
  { Sample.world [ (c!"/w/a_1.bb", c!"SRC_URI = \"file://x.patch\"\n") ] with glob := fun _ => l }

/-- **C101 is false** of an include that appears after it was looked for: adding the recipe again does not add the include, although
a new stash gets it; and of `GetFiles`, which goes on giving the files it found first. -/
theorem C101_false :
    (∃ c, LivedOver Sample.before Sample.cached c ∧ Sample.valuesOf c!"B" (Sample.added Sample.later c) = [] ∧
      Sample.addable Sample.later c = true ∧
      Sample.valuesOf c!"B" { base := (addFile Sample.later 9 c!"/w/a_1.bb" 0 none c.base).2, tab := [] } = [c!"\"1\""] ∧
      Sample.valuesOf c!"B" (Sample.added Sample.later Sample.cached) = [c!"\"1\""]) ∧
    (∃ c, LivedOver (Sample.patches []) Sample.cached c ∧
      ((Question.files c!"/w/a_1.bb" c!"*").ask (Sample.patches [c!"/w/a/x.patch"]) c).1 = .ok (.names []) ∧
      (Question.files c!"/w/a_1.bb" c!"*").fresh (Sample.patches [c!"/w/a/x.patch"]) c.base = .ok (.names [c!"/w/a/x.patch"])) := by
  constructor
  · obtain ⟨r, hr⟩ := Sample.addable_iff (W := Sample.before) (c := Sample.cached) (by decide +kernel)
    refine ⟨_, LivedOver.call .nil ⟨rfl, rfl, rfl, rfl, rfl, rfl⟩ ⟨fun _ _ h => (by cases h), fun _ _ _ h => (by cases h)⟩ hr, ?_, ?_, ?_, ?_⟩ <;>
      decide +kernel
  · obtain ⟨r, hr⟩ := Sample.addable_iff (W := Sample.patches []) (c := Sample.cached) (by decide +kernel)
    refine ⟨_, LivedOver.ask (W' := Sample.patches []) (LivedOver.call .nil ⟨rfl, rfl, rfl, rfl, rfl, rfl⟩
      ⟨fun _ _ h => (by cases h), fun _ _ _ h => (by cases h)⟩ hr) ⟨rfl, rfl, rfl, rfl, rfl, rfl⟩ (.files c!"/w/a_1.bb" c!"*"), ?_, ?_⟩ <;>
      decide +kernel

/-- the theorems apply: the recipe is edited and added again; the stash then has both values, and says so -/
example : ∃ c, LivedOver Sample.later Sample.cached c ∧ PlacesRight Sample.edited c ∧ c.tab ≠ [] ∧
    Sample.valuesOf c!"A" (Sample.added Sample.edited c) = [c!"\"1\"", c!"\"2\""] ∧
    ∃ r, (Call.addFile c!"/w/a_1.bb" 0 none).perform Sample.edited 9 c = (.ok r, Sample.added Sample.edited c) ∧
      alreadySeen c.base (abspath Sample.edited.cwd c!"/w/a_1.bb") = false := by
  obtain ⟨r, hr⟩ := Sample.addable_iff (W := Sample.later) (c := Sample.cached) (by decide +kernel)
  refine ⟨_, LivedOver.call .nil ⟨rfl, rfl, rfl, rfl, rfl, rfl⟩ ⟨fun _ _ h => (by cases h), fun _ _ _ h => (by cases h)⟩ hr, ?_, ?_, ?_, ?_⟩
  · have h := C101_edited Sample.later false false Sample.stash.consts 0 [(Sample.later, .call 9 (.addFile c!"/w/a_1.bb" 0 none))]
      (by simp only [List.mem_singleton]; rintro x rfl; exact ⟨⟨rfl, rfl, rfl, rfl, rfl, rfl⟩, rfl, rfl, rfl⟩) Sample.disks
    exact h
  · decide +kernel
  · decide +kernel
  · obtain ⟨r2, hr2⟩ := Sample.addable_iff (W := Sample.edited) (c := Sample.added Sample.later Sample.cached) (by decide +kernel)
    exact ⟨r2, hr2, by decide +kernel⟩

/-- and the disk does not matter to what has been loaded -/
example : observeOver [(Sample.before, .ask .recipes), (Sample.edited, .call 9 .finalize), (Sample.before, .ask (.links c!"/w/a_1.bb"))]
      (Sample.added Sample.later Sample.cached) =
    observe Sample.later [.ask .recipes, .call 9 .finalize, .ask (.links c!"/w/a_1.bb")] (Sample.added Sample.later Sample.cached) :=
  C101_loaded Sample.later [(Sample.before, .ask .recipes), (Sample.edited, .call 9 .finalize), (Sample.before, .ask (.links c!"/w/a_1.bb"))]
    (by
      intro x hx
      simp only [List.mem_cons, List.not_mem_nil, or_false] at hx
      rcases hx with rfl | rfl | rfl
      · exact ⟨⟨rfl, rfl, rfl, rfl, rfl, rfl⟩, rfl⟩
      · exact ⟨⟨rfl, rfl, rfl, rfl, rfl, rfl⟩, rfl⟩
      · exact ⟨⟨rfl, rfl, rfl, rfl, rfl, rfl⟩, rfl⟩) _

end Oelint

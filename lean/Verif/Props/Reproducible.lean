import Verif.Lemmas.Reproducible
import Verif.Lemmas.History
import Verif.Lemmas.FingerprintOrder
import Verif.Props.State
import Verif.Props.Loading
/-! # C91: results are reproducible -/
set_option linter.unusedSectionVars false
namespace Oelint
open Spec

section
variable [Uni]

/-- **C91** The lists of names that the stash sorts and the questions with yes or no do not depend on the order of sets. -/
theorem C91_sorted (W : World) (io : List Item → List Item) (hio : ∀ l, (io l).Perm l) (so : List Str → List Str)
    (hso : ∀ l, (so l).Perm l) (s : Stash) (q : Question) (hq : q.settled = true) :
    q.fresh (reordered W io hio so hso) s = q.fresh W s := settled_order hq

/-- **C91** (partial: false if there are ties, see the counterexamples). If the items of the file and of those linked to it have
different `Line`s, all that is computed from them in the order of `Line` does not depend on the order of sets. -/
theorem C91_questions_partial (W : World) (io : List Item → List Item) (hio : ∀ l, (io l).Perm l) (so : List Str → List Str)
    (hso : ∀ l, (so l).Perm l) (s : Stash) (q : Question) (f : Option Str) (hq : q.about = some f) (h : NoTies s f) :
    q.fresh (reordered W io hio so hso) s = q.fresh W s := about_order hq h

/-- **C91** (partial) `IsDynamicPackage`, if moreover every pattern is a valid regular expression. -/
theorem C91_dynamic_partial (W : World) (io : List Item → List Item) (hio : ∀ l, (io l).Perm l) (so : List Str → List Str)
    (hso : ∀ l, (so l).Perm l) (s : Stash) (f name : Str) (h : NoTies s (some f))
    (hp : ∀ pats e, getPackagesDynamic W s f = .ok pats → expandTerm W s f name = .ok e → ∀ p ∈ pats, ∃ b, matchDyn p e = .ok b) :
    isDynamicPackage (reordered W io hio so hso) s f name = isDynamicPackage W s f name := by
  unfold isDynamicPackage
  rw [getPackagesDynamic_order h, show expandTerm (reordered W io hio so hso) s f name = expandTerm W s f name from expandTermS_order h _ _]
  cases he : expandTerm W s f name with
  | error e => rfl
  | ok e =>
    simp only
    cases hd : getPackagesDynamic W s f with
    | error e => rfl
    | ok pats =>
      simp only
      refine anyMatch_perm ((hso _).trans (W.strOrder_perm _).symm) fun p hm => ?_
      exact hp pats e hd he p ((hso pats).mem_iff.1 hm)

/-- **C91** In any case the same items and names are returned, in some order. -/
theorem C91_same_members (W : World) (io : List Item → List Item) (hio : ∀ l, (io l).Perm l) (so : List Str → List Str)
    (hso : ∀ l, (so l).Perm l) (s : Stash) :
    (∀ f, (getItemsFor (reordered W io hio so hso) s f).Perm (getItemsFor W s f)) ∧
    (getConfFiles (reordered W io hio so hso) s).Perm (getConfFiles W s) ∧
    ∀ f, (getLinksForFile (reordered W io hio so hso) s f).Perm (getLinksForFile W s f) := by
  refine ⟨fun f => getItemsFor_reorder s f, (hso _).trans (W.strOrder_perm _).symm, fun f => ?_⟩
  unfold getLinksForFile
  split
  · rfl
  · refine List.Perm.map _ (List.Perm.filter _ ?_)
    unfold getItemsByFile
    have : (io (dedup s.items)).Perm (W.itemOrder (dedup s.items)) := (hio _).trans (W.itemOrder_perm _).symm
    split
    · exact this
    · exact this.filter _

/-- **C91** (partial: names of includes and classes that are written with references are not covered). Adding a file gives the same
result, the same exception and, apart from the fingerprint, the same stash. -/
theorem C91_add_file_partial (W : World) (io : List Item → List Item) (hio : ∀ l, (io l).Perm l) (so : List Str → List Str)
    (hso : ∀ l, (so l).Perm l) (hw : PlainLoads W) (n : Nat) (path : Str) (off : Int) (forced : Option Str) (s : Stash) :
    ∃ h, addFile (reordered W io hio so hso) n path off forced s =
      ((addFile W n path off forced s).1, { (addFile W n path off forced s).2 with hashed := h }) := by
  obtain ⟨h1, l, h2, h3⟩ := (alike_order (io := io) (hio := hio) (so := so) (hso := hso) hw s.hashed).addFile_sim n path off forced s s
    ⟨[], by simp, by simp⟩
  exact ⟨s.hashed ++ (l.map (reordered W io hio so hso).repr).flatten, Prod.ext h1.symm h3⟩

/-- **C91** (partial: false of an `inherit` that loads two classes, see the counterexample; references as above). The fingerprint is also
the same if no `inherit` loads more than one class. -/
theorem C91_fingerprint_partial (W : World) (io : List Item → List Item) (hio : ∀ l, (io l).Perm l) (so : List Str → List Str)
    (hso : ∀ l, (so l).Perm l) (hw : PlainLoads W) (n : Nat) (path : Str) (off : Int) (forced : Option Str) (s : Stash)
    (hone : ∀ x ∈ (addFile W n path off forced s).2.items, OneClass x) :
    addFile (reordered W io hio so hso) n path off forced s = addFile W n path off forced s := by
  obtain ⟨h1, l, h2, h3⟩ := (alike_order (io := io) (hio := hio) (so := so) (hso := hso) hw s.hashed).addFile_sim n path off forced s s
    ⟨[], by simp, by simp⟩
  exact addFile_fingerprint hone h1.symm h2 h3

/-- **C91** Finalize: the same files are linked to each file, and the items agree up to the order in `IncludedFrom`. -/
theorem C91_finalize (W : World) (io : List Item → List Item) (hio : ∀ l, (io l).Perm l) (so : List Str → List Str)
    (hso : ∀ l, (so l).Perm l) (ns neg : Bool) (consts : J) (uid : Nat) (s : Stash)
    (h : History W Call.loading (Stash.init ns neg consts uid) s) :
    ∃ s1 s2, finalize W s = (.ok (), s1) ∧ finalize (reordered W io hio so hso) s = (.ok (), s2) ∧
      s2.map.map (·.1) = s1.map.map (·.1) ∧ (∀ k x, x ∈ links s2 k ↔ x ∈ links s1 k) ∧
      List.Forall₂ SameItem s1.items s2.items := by
  have hs := history_sound h (sound_init W ns neg consts uid)
  obtain ⟨_, s1, h1⟩ := closed_finalize W s hs.closed
  obtain ⟨_, s2, h2⟩ := closed_finalize (reordered W io hio so hso) s hs.closed
  obtain ⟨c1, e1⟩ := finalize_ok h1
  obtain ⟨c2, e2⟩ := finalize_ok h2
  have hl := closeSteps_same (⟨rfl, fun _ _ => Iff.rfl⟩ : SameLinks s.map s.map) c1 c2
  refine ⟨s1, s2, h1, h2, hl.1, fun k x => hl.2 k x, ?_⟩
  have i1 := finalize_items hs.good h1
  have i2 := finalize_items hs.good h2
  clear h1 h2 e1 e2 c1 c2
  generalize s1.items = l1 at i1
  generalize s2.items = l2 at i2
  generalize s.items = l at i1 i2
  induction i1 generalizing l2 with
  | nil => cases i2; exact .nil
  | cons a1 _ ih =>
    cases i2 with
    | cons a2 i2 =>
      refine .cons ⟨?_, fun f => ?_⟩ (ih _ i2)
      · rw [a1.1, a2.1]
      · rw [a1.2, a2.2]
        simp only [links_eq, hl.2]

end

/-! ## concrete cases -/

section
attribute [local instance] Sample.asciiUni

/-- a recipe with two appends that assign the same variable -/
def Sample.tieWorld : World := Sample.world
  [(c!"/w/r.bb", c!"B = \"0\"\n"), (c!"/w/a/r.bbappend", c!"A = \"1\"\n"), (c!"/w/b/r.bbappend", c!"A = \"2\"\n"),
   (c!"/w/d.bb", c!"PACKAGES_DYNAMIC = \"^d ((\"\n"),
   (c!"/w/a.conf", c!"C = \"1\"\n"), (c!"/w/b.conf", c!"C = \"1\"\n")]

/-- the same files in another run -/
def Sample.tieWorld' : World := reordered Sample.tieWorld List.reverse (fun l => l.reverse_perm) List.reverse (fun l => l.reverse_perm)

/-- all files added -/
def Sample.tied : Stash :=
  [c!"/w/r.bb", c!"/w/a/r.bbappend", c!"/w/b/r.bbappend", c!"/w/d.bb", c!"/w/a.conf", c!"/w/b.conf"].foldl
    (fun s p => (addFile Sample.tieWorld 3 p 0 none s).2) Sample.stash

/-- **C91** is false: two appends of a recipe get the same `Line`s, so which assignment `ExpandTerm` finds first differs between runs.
`GetConfFiles` and `GetLinksForFile` return lists in the order of a set. `IsDynamicPackage` raises in one run and not in the other if one
of the patterns is invalid. -/
theorem C91_counterexample : (Question.expandTerm c!"/w/r.bb" c!"${A}" []).fresh Sample.tieWorld Sample.tied = .ok (.text c!"1") ∧
    (Question.expandTerm c!"/w/r.bb" c!"${A}" []).fresh Sample.tieWorld' Sample.tied = .ok (.text c!"2") ∧
    getConfFiles Sample.tieWorld' Sample.tied ≠ getConfFiles Sample.tieWorld Sample.tied ∧
    getLinksForFile Sample.tieWorld' Sample.tied c!"/w/r.bb" ≠ getLinksForFile Sample.tieWorld Sample.tied c!"/w/r.bb" ∧
    isDynamicPackage Sample.tieWorld Sample.tied c!"/w/d.bb" c!"d" = .ok true ∧
    isDynamicPackage Sample.tieWorld' Sample.tied c!"/w/d.bb" c!"d" = .error .regexError := by
  decide +kernel

/-- the names that `Sample.oneInc` loads are written without references -/
theorem Sample.oneInc_plain : PlainLoads Sample.oneInc := by
  have key : ∀ c ∈ [c!"require a.inc", c!"A = \"1\""],
      (∀ m, reMatch reInclude.re c = some m → '$' ∉ (reInclude.group m c!"incname").getD [] ∧ '(' ∉ (reInclude.group m c!"incname").getD []) ∧
      (∀ m, reMatch reInherit.re c = some m → False) ∧ (∀ m, reMatch reInheritGlob.re c = some m → False) := by
    have h1 : ∀ c ∈ [c!"require a.inc", c!"A = \"1\""], (match reMatch reInclude.re c with
        | some m => decide ('$' ∉ (reInclude.group m c!"incname").getD [] ∧ '(' ∉ (reInclude.group m c!"incname").getD [])
        | none => true) = true ∧ (reMatch reInherit.re c).isNone = true ∧ (reMatch reInheritGlob.re c).isNone = true := by decide +kernel
    intro c hc
    obtain ⟨h2, h3, h4⟩ := h1 c hc
    refine ⟨fun m hm => ?_, fun m hm => ?_, fun m hm => ?_⟩
    · rw [hm] at h2; exact of_decide_eq_true h2
    · rw [hm] at h3; cases h3
    · rw [hm] at h4; cases h4
  intro f n h
  have hl : ∀ {off neg cs} {c : Chunk}, prepareLines Sample.oneInc f off neg = .ok cs → c ∈ cs →
      c.cnt ∈ [c!"require a.inc", c!"A = \"1\""] := by
    intro off neg cs c h1 h2
    rcases Sample.oneInc_lines h1 h2 with ⟨-, hc⟩ | ⟨-, hc⟩ <;> simp [hc]
  rcases h with ⟨off, neg, cs, c, m, h1, h2, h3, rfl⟩ | ⟨off, neg, cs, c, m, h1, h2, ⟨h3, rfl⟩ | ⟨h3, rfl⟩⟩
  · exact (key _ (hl h1 h2)).1 m h3
  · exact ((key _ (hl h1 h2)).2.1 m h3).elim
  · exact ((key _ (hl h1 h2)).2.2 m h3).elim

/-- a recipe and its include, added in two runs -/
example (s : Stash) : ∃ h, addFile (reordered Sample.oneInc List.reverse (fun l => l.reverse_perm) List.reverse (fun l => l.reverse_perm)) 3
      c!"/w/b_1.bb" 0 none s =
    ((addFile Sample.oneInc 3 c!"/w/b_1.bb" 0 none s).1, { (addFile Sample.oneInc 3 c!"/w/b_1.bb" 0 none s).2 with hashed := h }) :=
  C91_add_file_partial _ _ _ _ _ Sample.oneInc_plain _ _ _ _ _

/-- a test for `OneClass` -/
def Sample.oneClass (x : Item) : Bool := match x.payload with
  | .inherit _ _ paths => decide (paths.length ≤ 1)
  | _ => true

theorem Sample.oneClass_spec {x : Item} (h : Sample.oneClass x = true) : OneClass x := by
  intro st cl paths e
  unfold Sample.oneClass at h
  rw [e] at h
  exact of_decide_eq_true h

/-- the same recipe: the fingerprints are also the same -/
example : addFile (reordered Sample.oneInc List.reverse (fun l => l.reverse_perm) List.reverse (fun l => l.reverse_perm)) 3
      c!"/w/b_1.bb" 0 none Sample.stash = addFile Sample.oneInc 3 c!"/w/b_1.bb" 0 none Sample.stash :=
  C91_fingerprint_partial _ _ _ _ _ Sample.oneInc_plain _ _ _ _ _ (by
    have h : ∀ x ∈ (addFile Sample.oneInc 3 c!"/w/b_1.bb" 0 none Sample.stash).2.items, Sample.oneClass x = true := by decide +kernel
    exact fun x hx => Sample.oneClass_spec (h x hx))

/-- a recipe that inherits two classes -/
def Sample.twoClasses : World := Sample.world
  [(c!"/w/r.bb", c!"inherit a b\n"), (c!"/w/classes/a.bbclass", c!"A = \"1\"\n"), (c!"/w/classes/b.bbclass", c!"B = \"1\"\n")]

/-- **C91** is false of the fingerprint: `FilePaths` of the `Inherit` item is a set of two names and shown in the order of that set. Two
runs on the same files have different fingerprints. -/
theorem C91_fingerprint_counterexample :
    fingerPrint (reordered Sample.twoClasses id (fun l => .refl l) List.reverse (fun l => l.reverse_perm))
        (addFile (reordered Sample.twoClasses id (fun l => .refl l) List.reverse (fun l => l.reverse_perm)) 3 c!"/w/r.bb" 0 none Sample.stash).2 ≠
      fingerPrint Sample.twoClasses (addFile Sample.twoClasses 3 c!"/w/r.bb" 0 none Sample.stash).2 ∧
    (addFile (reordered Sample.twoClasses id (fun l => .refl l) List.reverse (fun l => l.reverse_perm)) 3 c!"/w/r.bb" 0 none Sample.stash).2.items =
      (addFile Sample.twoClasses 3 c!"/w/r.bb" 0 none Sample.stash).2.items := by
  decide +kernel

/-- the stash with the recipe and its include -/
def Sample.untied : Stash := (addFile Sample.oneInc 3 c!"/w/b_1.bb" 0 none Sample.stash).2

/-- it has items of two files and no ties -/
theorem Sample.untied_noTies : Sample.untied.items.length = 2 ∧ NoTies Sample.untied (some c!"/w/b_1.bb") := by
  have h : Sample.untied.items.length = 2 ∧ ∀ x ∈ Sample.untied.items, ∀ y ∈ Sample.untied.items, x.line = y.line → x = y := by
    decide +kernel
  exact ⟨h.1, noTies_some (fun x hx y hy _ _ hl => h.2 x hx y hy hl) _⟩

example : (Question.expandTerm c!"/w/b_1.bb" c!"${A}" []).fresh
      (reordered Sample.oneInc List.reverse (fun l => l.reverse_perm) List.reverse (fun l => l.reverse_perm)) Sample.untied =
    (Question.expandTerm c!"/w/b_1.bb" c!"${A}" []).fresh Sample.oneInc Sample.untied :=
  C91_questions_partial _ _ _ _ _ _ _ _ rfl Sample.untied_noTies.2

/-- a recipe whose patterns are valid -/
def Sample.dynWorld : World := Sample.world [(c!"/w/d.bb", c!"PACKAGES_DYNAMIC = \"^d ^e\"\n")]

example : isDynamicPackage (reordered Sample.dynWorld List.reverse (fun l => l.reverse_perm) List.reverse (fun l => l.reverse_perm))
      (addFile Sample.dynWorld 3 c!"/w/d.bb" 0 none Sample.stash).2 c!"/w/d.bb" c!"dd" =
    isDynamicPackage Sample.dynWorld (addFile Sample.dynWorld 3 c!"/w/d.bb" 0 none Sample.stash).2 c!"/w/d.bb" c!"dd" := by
  refine C91_dynamic_partial _ _ _ _ _ _ _ _ ?_ ?_
  · have h : ∀ x ∈ (addFile Sample.dynWorld 3 c!"/w/d.bb" 0 none Sample.stash).2.items,
        ∀ y ∈ (addFile Sample.dynWorld 3 c!"/w/d.bb" 0 none Sample.stash).2.items, x.line = y.line → x = y := by decide +kernel
    exact noTies_some (fun x hx y hy _ _ hl => h x hx y hy hl) _
  · intro pats e h1 h2
    have e1 : getPackagesDynamic Sample.dynWorld (addFile Sample.dynWorld 3 c!"/w/d.bb" 0 none Sample.stash).2 c!"/w/d.bb" =
      .ok [c!"^d", c!"^e"] := by decide +kernel
    have e2 : expandTerm Sample.dynWorld (addFile Sample.dynWorld 3 c!"/w/d.bb" 0 none Sample.stash).2 c!"/w/d.bb" c!"dd" = .ok c!"dd" := by
      decide +kernel
    rw [e1] at h1; rw [e2] at h2
    cases h1; cases h2
    have : ∀ p ∈ [c!"^d", c!"^e"], matchDyn p c!"dd" = .ok true ∨ matchDyn p c!"dd" = .ok false := by decide +kernel
    intro p hp
    rcases this p hp with h | h <;> exact ⟨_, h⟩

/-- the questions of `C91_sorted` with an answer that is not empty -/
example : (Question.recipes).fresh Sample.tieWorld' Sample.tied = .ok (.names [c!"/w/d.bb", c!"/w/r.bb"]) ∧
    (Question.recipes).fresh Sample.tieWorld Sample.tied = .ok (.names [c!"/w/d.bb", c!"/w/r.bb"]) := by decide +kernel

/-- `C91_finalize` for the recipe and its include -/
example : History Sample.oneInc Call.loading (Stash.init false false J.empty 0)
    ((Call.addFile c!"/w/b_1.bb" 0 none).after Sample.oneInc 3 (Stash.init false false J.empty 0)) :=
  (History.nil (s := Stash.init false false J.empty 0)).snoc 3 (.addFile c!"/w/b_1.bb" 0 none) trivial

end
end Oelint

import Verif.Lemmas.TwoInstances
import Verif.Props.Known
import Verif.Props.Shipped
import Verif.Lemmas.SampleRuns
/-!
# What does not matter (C88-C90)

`observe W l c` is everything a user sees who does the things in `l` (calls and questions, with the caches) with the stash `c`.
-/
set_option linter.unusedSectionVars false
namespace Oelint
open Spec

section
variable [Uni]

/-- **C88** The kind of line ends does not matter: whatever a user does, the same files with `LF`, `CRLF` or `CR` line ends (also mixed)
give the same results and exceptions, and leave the stash in the same state. -/
theorem C88_line_ends (W : World) (g : Str → FileRes) (hg : ∀ p, SameFile (W.file p) (g p)) (l : List Act) (c : CStash) :
    observe { W with file := g } l c = observe W l c ∧ afterActs { W with file := g } l c = afterActs W l c := by
  obtain ⟨h1, h2, h3⟩ := (twin_file fun p => sameFile_read (hg p)).observe_same l (c := c) (c' := c) ⟨rfl, rfl⟩
  refine ⟨h1, ?_⟩
  cases ha : afterActs W l c
  cases hb : afterActs { W with file := g } l c
  rw [ha, hb] at h2 h3
  simp only at h2 h3
  rw [h2, h3]

/-- **C89** `negative_inline` concerns inline python only: if no file contains any, then whatever a user does, both settings give the
same results and exceptions. (`hashed` is what the fingerprint is computed of.) -/
theorem C89_no_inline (W : World) (hw : NoInlineFiles W) (l : List Act) (c : CStash) (b : Bool) (hashed : Str) :
    observe W l (withNegative c b hashed) = observe W l c :=
  ((twin_negative hw).observe_same l (c := c) (c' := withNegative c b hashed) ⟨rfl, b, hashed, rfl⟩).1

/-- **C89** Whatever the files contain: the statements of a file, their texts and their line numbers do not depend on the setting - nor
on anything else than the text of the file. -/
theorem C89_statements (W W' : World) (n n' : Nat) (path path' : Str) (off off' : Int) (forced forced' : Option Str) (s s1 s' s1' : Stash)
    (res res' : List Item) (t : Str)
    (h : addFile W n path off forced s = (.ok res, s1)) (hnew : alreadySeen s (abspath W.cwd path) = false)
    (hf : W.file (abspath W.cwd path) = .text t)
    (h' : addFile W' n' path' off' forced' s' = (.ok res', s1')) (hnew' : alreadySeen s' (abspath W'.cwd path') = false)
    (hf' : W'.file (abspath W'.cwd path') = .text t) :
    res.map (fun i => (i.realRaw, i.inFileLine)) = res'.map (fun i => (i.realRaw, i.inFileLine)) := by
  obtain ⟨k, ⟨ok⟩⟩ := addFile_file h hnew hf
  obtain ⟨k', ⟨ok'⟩⟩ := addFile_file h' hnew' hf'
  have hgs : ok.gs = ok'.gs := groups_unique (fun l hl => readlines_isLine hl) ok.groups ok'.groups
  have hr : res.map (·.realRaw) = res'.map (·.realRaw) := by rw [ok.realRaw, ok'.realRaw, hgs]
  have hlen : res.length = res'.length := by simpa using congrArg List.length hr
  apply List.ext_getElem (by simpa using hlen)
  intro i h1 h2
  have hi : i < res.length := by simpa using h1
  have hi' : i < res'.length := hlen ▸ hi
  simp only [List.getElem_map]
  have e1 : res[i].realRaw = res'[i].realRaw := by
    have := List.getElem_of_eq hr (i := i) (by simpa using hi)
    simpa using this
  have e2 := ok.inFileLine (pre := res.take i) (post := res.drop (i + 1)) (it := res[i]) (by
    rw [← List.drop_eq_getElem_cons hi, List.take_append_drop])
  have e3 := ok'.inFileLine (pre := res'.take i) (post := res'.drop (i + 1)) (it := res'[i]) (by
    rw [← List.drop_eq_getElem_cons hi', List.take_append_drop])
  rw [e1, e2, e3, List.map_take, List.map_take, hr]

/-- **C90** The known distros and machines do not matter: whatever a user does, two stashes whose constants differ in these names only
give the same results and exceptions. -/
theorem C90_known_names (W : World) (l : List Act) (c : CStash) (db : J) (h : UsableConstants c.base.consts) (h' : UsableConstants db)
    (hn : OtherNames c.base.consts db) : observe W l (withConstants c db) = observe W l c :=
  ((twin_names W).observe_same l (c := c) (c' := withConstants c db) ⟨rfl, db, rfl, h, h', hn⟩).1

/-- **C90** So what has been done with other stashes, which use the same constants, does not matter: a new stash shows a user the same
after any calls on another stash, in any world, as before. -/
theorem C90_other_stash (W W0 : World) (P : Call → Prop) (s s' : Stash) (hh : History W0 P s s') (hu : UsableConstants s.consts)
    (l : List Act) (newStyle negative : Bool) (uid : Nat) :
    observe W l (CStash.init newStyle negative s'.consts uid) = observe W l (CStash.init newStyle negative s.consts uid) := by
  obtain ⟨h1, h2⟩ := history_consts hh hu
  exact C90_known_names W l (CStash.init newStyle negative s.consts uid) s'.consts hu h1 h2.1

end

/-! ## concrete cases -/

section
attribute [local instance] Sample.asciiUni

/-- the same recipe with three kinds of line ends -/
def Sample.crText : Str := c!"A = \"x \\\r\n  y\"\rdo_x() {\n  a\r}\r\ninherit k\n"
def Sample.lfText : Str := c!"A = \"x \\\n  y\"\ndo_x() {\n  a\n}\ninherit k\n"

theorem Sample.sameLines : SameLines Sample.lfText Sample.crText := by
  have pre : ∀ (p t t' : Str), (∀ c ∈ p, c ≠ '\n' ∧ c ≠ '\r') → SameLines t t' → SameLines (p ++ t) (p ++ t') := by
    intro p t t' hp h
    induction p with
    | nil => exact h
    | cons c p ih => exact .char c (hp c (by simp)) (ih fun x hx => hp x (by simp [hx]))
  have lf : ∀ t, LineEnd c!"\n" t := fun t => Or.inl rfl
  have crlf : ∀ t, LineEnd c!"\r\n" t := fun t => Or.inr (Or.inl rfl)
  have cr : ∀ t : Str, t.head? ≠ some '\n' → LineEnd c!"\r" t := fun t h => Or.inr (Or.inr ⟨rfl, h⟩)
  refine pre c!"A = \"x \\" _ _ (by decide) (.line (lf _) (crlf _) ?_)
  refine pre c!"  y\"" _ _ (by decide) (.line (lf _) (cr _ (by decide)) ?_)
  refine pre c!"do_x() {" _ _ (by decide) (.line (lf _) (lf _) ?_)
  refine pre c!"  a" _ _ (by decide) (.line (lf _) (cr _ (by decide)) ?_)
  refine pre c!"}" _ _ (by decide) (.line (lf _) (crlf _) ?_)
  exact pre c!"inherit k" _ _ (by decide) (.line (lf _) (lf _) .nil)

def Sample.lfWorld : World := Sample.world [(c!"/w/a.bb", Sample.lfText)]
def Sample.crFile (p : Str) : FileRes := if p = c!"/w/a.bb" then .text Sample.crText else Sample.lfWorld.file p

/-- C88: the hypothesis holds for two worlds that differ, and both give three items -/
example : (∀ p, SameFile (Sample.lfWorld.file p) (Sample.crFile p)) ∧ Sample.lfWorld.file c!"/w/a.bb" ≠ Sample.crFile c!"/w/a.bb" ∧
    Sample.okAnd (addFile { Sample.lfWorld with file := Sample.crFile } 2 c!"a.bb" 0 none Sample.stash) (fun r => r.length == 3) = true := by
  refine ⟨fun p => ?_, by decide +kernel, by decide +kernel⟩
  by_cases h : p = c!"/w/a.bb"
  · subst h
    exact Or.inr ⟨_, _, rfl, rfl, Sample.sameLines⟩
  · exact Or.inl (by simp only [Sample.crFile, if_neg h])

/-- C89: a world without inline python -/
example : NoInlineFiles (Sample.world [(c!"/w/a.bb", Sample.lfText)]) := by
  intro p t h
  by_cases hp : p = c!"/w/a.bb"
  · subst hp
    have : t = Sample.lfText := by
      have h' : FileRes.text Sample.lfText = .text t := h
      exact (FileRes.text.inj h').symm
    subst this
    decide +kernel
  · have : (Sample.world [(c!"/w/a.bb", Sample.lfText)]).file p = .notFound := by
      simp [Sample.world, dget, Ne.symm hp]
    rw [this] at h; cases h

/-- C89: with inline python the setting matters for the values -/
def Sample.inlineFlag : World := Sample.world [(c!"/w/a.bb", c!"A = \"${@bb.utils.contains('X', 'y', 'yes', 'no', d)}\"\n")]
example : Sample.okAnd (addFile Sample.inlineFlag 2 c!"a.bb" 0 none Sample.stash) (fun r => r.map (·.raw) == [c!"A = \"yes\"\n"]) = true ∧
    Sample.okAnd (addFile Sample.inlineFlag 2 c!"a.bb" 0 none { Sample.stash with negative := true }) (fun r => r.map (·.raw) == [c!"A = \"no\"\n"]) = true := by
  decide +kernel

/-- C90: other distros are known after a file of a layer has been added -/
example : ∃ db, addDistroMachine Sample.confLayer c!"/l/r/b_1.bb" { Sample.stash with consts := Sample.constants } =
      (.ok (), { Sample.stash with consts := db }) ∧ OtherNames Sample.constants db ∧ UsableConstants db ∧
      namesAt c!"distros" db ≠ namesAt c!"distros" Sample.constants := by
  obtain ⟨db, h1, h2, h3, h4, h5⟩ := addDistroMachine_names (W := Sample.confLayer) (path := c!"/l/r/b_1.bb") (root := c!"/l")
    (by decide +kernel) (by decide) { Sample.stash with consts := Sample.constants } Sample.usableConstants
  refine ⟨db, h1, h5.1, h2, ?_⟩
  rw [h3]
  intro e
  have := congrArg List.length e
  rw [List.length_append] at this
  have h6 : (layerConfs Sample.confLayer c!"/l" c!"distro").length = 1 := by decide +kernel
  simp only [List.length_map, h6] at this
  omega

end
end Oelint

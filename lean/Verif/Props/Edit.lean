import Verif.Lemmas.Edit
import Verif.Props.Chunks
import Verif.Props.Recipe
import Verif.Props.Context
/-! # C102: editing a file changes the items of the edited statements only -/
set_option linter.unusedSectionVars false
namespace Oelint
open Spec

section
variable [Uni]

/-- **C102** Two versions of a file differ in the statements `m` and `m'` only. They are read into two stashes with the same settings that
have been filled with any files (the names of what the file loads refer to variables in `V` only, and none of these is assigned in either
stash). The items before the edited place say the same;
the items behind it say the same, on shifted lines, unless the edit changes whether the new override syntax is in use by then. -/
theorem C102_edit (W : World) (g : Str → FileRes) (V : Str → Prop) (ns neg : Bool) (consts : J) (hu : UsableConstants consts)
    (hc : SetsWithin consts V) (uid uid' : Nat)
    (P P' : Call → Prop) (s s' u u' : Stash) (hs : History W P (Stash.init ns neg consts uid) s)
    (hs' : History (rewritten W g) P' (Stash.init ns neg consts uid') s') (path t t' : Str)
    (hnew : alreadySeen s (abspath W.cwd path) = false) (hnew' : alreadySeen s' (abspath W.cwd path) = false)
    (hw : FileWithin W V (abspath W.cwd path)) (hw' : FileWithin (rewritten W g) V (abspath W.cwd path))
    (ht : NoneAssigned V u) (ht' : NoneAssigned V u')
    (hf : W.file (abspath W.cwd path) = .text t) (hf' : g (abspath W.cwd path) = .text t') (ls ls' : List Str)
    (hl : IsLines (univNewlines t) ls) (hl' : IsLines (univNewlines t') ls') (a m m' b : List (List Str))
    (hg : Groups ls (a ++ m ++ b)) (hg' : Groups ls' (a ++ m' ++ b))
    (n n' : Nat) (off off' : Int) (forced forced' : Option Str) (r r' : List Item)
    (h : addFile W n path off forced s = (.ok r, u)) (h' : addFile (rewritten W g) n' path off' forced' s' = (.ok r', u')) :
    r.length = (a ++ m ++ b).length ∧ r'.length = (a ++ m' ++ b).length ∧
    (r.take a.length).map content = (r'.take a.length).map content ∧
    ((ns = true ∨ (SomeNew (r.take (a.length + m.length)) ↔ SomeNew (r'.take (a.length + m'.length)))) →
      (r.drop (a.length + m.length)).map (shifted ((lineEnds m' : Int) - lineEnds m)) = (r'.drop (a.length + m'.length)).map content) := by
  have e := history_settings hs
  have e' := history_settings hs'
  have := addFile_edit ⟨hu, hc⟩ hw hw' (history_constsOf hs hu) (history_constsOf hs' hu) ht ht' (e'.1.trans e.1.symm) (e'.2.trans e.2.symm)
    hnew hnew' hf hf' hl hl' hg hg' h h'
  rwa [e.1] at this

/-- **C102** A tool reads a file, replaces the texts (`RealRaw`) of some neighbouring items `rx` by other statements and writes the file. Read
again, with the same settings (and with names of loaded files as in `C102_edit`), the file has the items of the new statements in that place; the other items say the same, those behind on
shifted lines (unless the edit changes whether the new override syntax is in use by then). -/
theorem C102_fix (W : World) (g : Str → FileRes) (V : Str → Prop) (ns neg : Bool) (consts : J) (hu : UsableConstants consts)
    (hc : SetsWithin consts V) (uid uid' : Nat)
    (P P' : Call → Prop) (s s' u u' : Stash) (hs : History W P (Stash.init ns neg consts uid) s)
    (hs' : History (rewritten W g) P' (Stash.init ns neg consts uid') s') (path t : Str)
    (hnew : alreadySeen s (abspath W.cwd path) = false) (hnew' : alreadySeen s' (abspath W.cwd path) = false)
    (hw : FileWithin W V (abspath W.cwd path)) (hw' : FileWithin (rewritten W g) V (abspath W.cwd path))
    (ht : NoneAssigned V u) (ht' : NoneAssigned V u')
    (hf : W.file (abspath W.cwd path) = .text t)
    (n n' : Nat) (off off' : Int) (forced forced' : Option Str) (ra rx rb r' : List Item)
    (h : addFile W n path off forced s = (.ok (ra ++ rx ++ rb), u)) (hne : rx ++ rb ≠ []) (ms : List (List Str)) (hms : ms ≠ [])
    (hst : ∀ m ∈ ms, Statement m ∧ ∀ l ∈ m, '\r' ∉ l)
    (hf' : g (abspath W.cwd path) = .text ((ra.map (·.realRaw)).flatten ++ ms.flatten.flatten ++ (rb.map (·.realRaw)).flatten))
    (h' : addFile (rewritten W g) n' path off' forced' s' = (.ok r', u')) :
    ∃ ra' rx' rb', r' = ra' ++ rx' ++ rb' ∧ ra'.map content = ra.map content ∧ rx'.map (·.realRaw) = ms.map List.flatten ∧
      ((ns = true ∨ (SomeNew (ra ++ rx) ↔ SomeNew (ra' ++ rx'))) →
        rb'.map content =
          rb.map (shifted ((ms.flatten.flatten.count '\n' : Int) - (rx.map (·.realRaw)).flatten.count '\n'))) := by
  obtain ⟨k, ⟨ok⟩⟩ := addFile_file h hnew hf
  obtain ⟨a, m0, b, hgs, ea, em, eb⟩ : ∃ a m0 b, ok.gs = a ++ m0 ++ b ∧ a.map List.flatten = ra.map (·.realRaw) ∧
      m0.map List.flatten = rx.map (·.realRaw) ∧ b.map List.flatten = rb.map (·.realRaw) := by
    have e := ok.realRaw
    rw [List.map_append, List.map_append] at e
    obtain ⟨x, b, h1, h2, h3⟩ := List.map_eq_append_iff.1 e.symm
    obtain ⟨a, m0, h4, h5, h6⟩ := List.map_eq_append_iff.1 h2
    exact ⟨a, m0, b, by rw [h1, h4], h5, h6, h3⟩
  have hgr := ok.groups
  rw [hgs] at hgr
  have hlines : IsLines (univNewlines t) (readlines (univNewlines t)) := readlines_isLines _
  have hne' : m0 ++ b ≠ [] := by
    intro e
    apply hne
    have : (m0 ++ b).map List.flatten = (rx ++ rb).map (·.realRaw) := by rw [List.map_append, List.map_append, em, eb]
    rw [e] at this
    exact List.map_eq_nil_iff.1 this.symm
  have hL := isLines_replace hlines hgr hne' (fun m hm => (hst m hm).1)
  have hG := groups_replace hgr hne' hms (fun m hm => (hst m hm).1)
  have htext : (ra.map (·.realRaw)).flatten ++ ms.flatten.flatten ++ (rb.map (·.realRaw)).flatten = (a ++ ms ++ b).flatten.flatten := by
    rw [← ea, ← eb]
    simp only [List.flatten_append, List.flatten_flatten]
  have hcr : '\r' ∉ (a ++ ms ++ b).flatten.flatten := by
    have hold : '\r' ∉ (a ++ m0 ++ b).flatten.flatten := by
      rw [groups_flatten hgr, hlines.1]
      exact univNewlines_no_cr _
    simp only [List.flatten_append, List.mem_append, not_or] at hold ⊢
    refine ⟨⟨hold.1.1, ?_⟩, hold.2⟩
    intro hc
    obtain ⟨l, hl, hcl⟩ := List.mem_flatten.1 hc
    obtain ⟨m, hm, hlm⟩ := List.mem_flatten.1 hl
    exact (hst m hm).2 l hlm hcl
  rw [htext] at hf'
  rw [← univNewlines_id hcr] at hL
  obtain ⟨q1, q2, q3, q4⟩ := C102_edit W g V ns neg consts hu hc uid uid' P P' s s' u u' hs hs' path t _ hnew hnew' hw hw' ht ht' hf hf' _ _ hlines hL a m0 ms b
    hgr hG n n' off off' forced forced' _ r' h h'
  have la : a.length = ra.length := by simpa using congrArg List.length ea
  have lm : m0.length = rx.length := by simpa using congrArg List.length em
  have hreal := (C08_chunk_boundaries (rewritten W g) n' path off' forced' s' u' r' _ h' hnew' hf' _ _ hL).2 hG
  refine ⟨r'.take a.length, (r'.drop a.length).take ms.length, r'.drop (a.length + ms.length), ?_, ?_, ?_, ?_⟩
  · rw [List.append_assoc, ← List.drop_drop, List.take_append_drop, List.take_append_drop]
  · rw [← q3, la, List.append_assoc, List.take_left]
  · rw [List.map_take, List.map_drop, hreal]
    simp only [List.append_assoc, List.map_append]
    rw [show a.length = (a.map List.flatten).length by simp, List.drop_left, show ms.length = (ms.map List.flatten).length by simp, List.take_left]
  · intro hn
    have ht : r'.take a.length ++ (r'.drop a.length).take ms.length = r'.take (a.length + ms.length) := by
      rw [List.take_add]
    rw [ht] at hn
    rw [la, lm, ← List.length_append, List.take_left, List.drop_left] at q4
    rw [la] at hn ⊢
    rw [← q4 hn]
    have h1 : lineEnds ms = ms.flatten.flatten.count '\n' := by
      unfold lineEnds
      rw [List.flatten_flatten, List.count_flatten, List.map_map]
      rfl
    have h2 : lineEnds m0 = (rx.map (·.realRaw)).flatten.count '\n' := by
      unfold lineEnds
      rw [← em, List.count_flatten, List.map_map]
      rfl
    rw [h1, h2]

end

section
attribute [local instance] Sample.asciiUni

/-- a recipe with an include -/
def Sample.textBefore : Str := c!"A = \"1\"\nB = \"2\"\n# c\nrequire x.inc\nC = \"3\"\n"
/-- its second line is replaced by two statements -/
def Sample.textAfter : Str := c!"A = \"1\"\nD += \"4\"\nE = \"5\"\n# c\nrequire x.inc\nC = \"3\"\n"
/-- the recipe and its include -/
def Sample.unedited : World := Sample.world [(c!"/w/r.bb", Sample.textBefore), (c!"/w/x.inc", c!"X = \"1\"\n")]
/-- the files after the edit -/
def Sample.editedFile (p : Str) : FileRes := if p = c!"/w/r.bb" then .text Sample.textAfter else Sample.unedited.file p

/-- nothing is expanded in the names of what these lines load -/
def Sample.plainLine (c : Str) : Bool :=
  (match reMatch reInclude.re c with
    | some m => decide ('$' ∉ (reInclude.group m c!"incname").getD [] ∧ '(' ∉ (reInclude.group m c!"incname").getD [])
    | none => true) && (reMatch reInherit.re c).isNone && (reMatch reInheritGlob.re c).isNone

theorem Sample.plain_of {W : World} {f : Str} (h : ∀ neg, (prepareLines W f 0 neg).toOption.map (·.all (fun c => Sample.plainLine c.cnt)) = some true) :
    PlainFile W f := by
  intro n hn
  have key : ∀ {off neg cs} {c : Chunk}, prepareLines W f off neg = .ok cs → c ∈ cs → Sample.plainLine c.cnt = true := by
    intro off neg cs c h1 h2
    obtain ⟨cs0, h3, h4⟩ : ∃ cs0, prepareLines W f 0 neg = .ok cs0 ∧ ∀ c ∈ cs0, Sample.plainLine c.cnt = true := by
      have h0 := h neg
      cases hp : prepareLines W f 0 neg with
      | error e => rw [hp] at h0; cases h0
      | ok cs0 =>
        rw [hp] at h0
        exact ⟨cs0, rfl, List.all_eq_true.1 (Option.some.inj h0)⟩
    have := prepareLines_shift h1 h3
    obtain ⟨c0, h5, h6⟩ : ∃ c0 ∈ cs0, c.cnt = c0.cnt := by
      clear h1 h3 h4
      induction this with
      | nil => simp at h2
      | @cons x y l l' hxy _ ih =>
        rcases List.mem_cons.1 h2 with rfl | h2
        · exact ⟨y, by simp, hxy.1⟩
        · obtain ⟨z, hz, e⟩ := ih h2
          exact ⟨z, by simp [hz], e⟩
    rw [h6]; exact h4 c0 h5
  rcases hn with ⟨off, neg, cs, c, m, h1, h2, h3, rfl⟩ | ⟨off, neg, cs, c, m, h1, h2, ⟨h3, rfl⟩ | ⟨h3, rfl⟩⟩
  all_goals
    have := key h1 h2
    unfold Sample.plainLine at this
    rw [h3] at this
    simp at this
  exact this.1.1

/-- the two new lines are statements -/
theorem Sample.newLines : ∀ m ∈ [[c!"D += \"4\"\n"], [c!"E = \"5\"\n"]], Statement m ∧ ∀ l ∈ m, '\r' ∉ l := by
  have single : ∀ t : Str, OneLine t → NameStart t → Statement [t ++ c!"\n"] := by
    intro t h hn
    refine ⟨.inr (.inr ⟨_, rfl, ?_, h.noHeader, h.noComment, h.noDef⟩), ?_, ?_⟩
    · rintro ⟨a, ws, e, -⟩
      have : '\\' ∈ t ++ c!"\n" := by rw [e]; simp
      simp at this
      exact (h.chars _ this).2.2 rfl
    · simp only [List.head?_cons, Option.mem_def, Option.some.injEq]
      rintro _ rfl
      obtain ⟨x, u, rfl, hx⟩ := hn
      exact ⟨⟨x, u ++ c!"\n", rfl, hx⟩, h.noComment⟩
    · simp only [List.mem_singleton]
      rintro _ rfl
      exact ⟨t, rfl, fun hc => (h.chars _ hc).1 rfl⟩
  intro m hm
  simp only [List.mem_cons, List.not_mem_nil, or_false] at hm
  rcases hm with rfl | rfl
  · exact ⟨single c!"D += \"4\"" (oneLine_of_chars (by decide +kernel) (by decide +kernel) (by decide +kernel)) ⟨'D', _, rfl, by decide⟩, by decide +kernel⟩
  · exact ⟨single c!"E = \"5\"" (oneLine_of_chars (by decide +kernel) (by decide +kernel) (by decide +kernel)) ⟨'E', _, rfl, by decide⟩, by decide +kernel⟩

/-- a tool replaces the second item of the recipe by two statements; all hypotheses of `C102_fix` hold -/
example : ∀ ra rx rb r' u u', addFile Sample.unedited 5 c!"/w/r.bb" 0 none (Stash.init false false Sample.constants 0) = (.ok (ra ++ rx ++ rb), u) →
    ra.length = 1 → rx.length = 1 →
    addFile (rewritten Sample.unedited Sample.editedFile) 5 c!"/w/r.bb" 0 none (Stash.init false false Sample.constants 9) = (.ok r', u') →
    ∃ ra' rx' rb', r' = ra' ++ rx' ++ rb' ∧ ra'.map content = ra.map content ∧ rx'.map (·.realRaw) = [c!"D += \"4\"\n", c!"E = \"5\"\n"] ∧
      ((false = true ∨ (SomeNew (ra ++ rx) ↔ SomeNew (ra' ++ rx'))) → rb'.map content = rb.map (shifted 1)) := by
  intro ra rx rb r' u u' h l1 l2 h'
  have raws : (ra ++ rx ++ rb).map (·.realRaw) = [c!"A = \"1\"\n", c!"B = \"2\"\n", c!"# c\n", c!"require x.inc\n", c!"C = \"3\"\n"] := by
    have h0 : (addFile Sample.unedited 5 c!"/w/r.bb" 0 none (Stash.init false false Sample.constants 0)).1.toOption.map (·.map (·.realRaw)) =
      some [c!"A = \"1\"\n", c!"B = \"2\"\n", c!"# c\n", c!"require x.inc\n", c!"C = \"3\"\n"] := by decide +kernel
    rw [h] at h0
    exact Option.some.inj h0
  obtain ⟨x, rfl⟩ := List.length_eq_one_iff.1 l1
  obtain ⟨y, rfl⟩ := List.length_eq_one_iff.1 l2
  simp only [List.cons_append, List.nil_append, List.map_cons, List.cons.injEq] at raws
  obtain ⟨q1, q2, q3⟩ := raws
  have := C102_fix Sample.unedited Sample.editedFile (fun _ => False) false false Sample.constants Sample.usableConstants
    (setsWithin_none _) 0 9 (fun _ => True) (fun _ => True) _ _ u u' .nil .nil
    c!"/w/r.bb" Sample.textBefore (by decide +kernel) (by decide +kernel)
    (fileWithin_plain (Sample.plain_of (by decide +kernel)))
    (fileWithin_plain (Sample.plain_of (by decide +kernel))) (noneAssigned_none _) (noneAssigned_none _)
    (by decide +kernel) 5 5 0 0 none none [x] [y] rb r' h (by simp) _ (by simp) Sample.newLines
    (by simp only [List.map_cons, List.map_nil, q1, q3]; decide +kernel) h'
  simpa [q2] using this

/-- a recipe that includes `${BPN}.inc` -/
def Sample.refBefore : Str := c!"A = \"1\"\nrequire ${BPN}.inc\nC = \"3\"\n"
/-- a line is inserted -/
def Sample.refAfter : Str := c!"A = \"1\"\nB = \"2\"\nrequire ${BPN}.inc\nC = \"3\"\n"
/-- the recipe and its include -/
def Sample.refUnedited : World := Sample.world [(c!"/w/r_1.bb", Sample.refBefore), (c!"/w/r.inc", c!"X = \"1\"\n")]
/-- the files after the edit -/
def Sample.refEdited (p : Str) : FileRes := if p = c!"/w/r_1.bb" then .text Sample.refAfter else Sample.refUnedited.file p

/-- a line is inserted before `require ${BPN}.inc`: the other items say the same -/
example : ∀ r r' u u', addFile Sample.refUnedited 5 c!"/w/r_1.bb" 0 none (Stash.init false false Sample.constants 0) = (.ok r, u) →
    addFile (rewritten Sample.refUnedited Sample.refEdited) 5 c!"/w/r_1.bb" 0 none (Stash.init false false Sample.constants 9) = (.ok r', u') →
    r.length = 3 ∧ r'.length = 4 ∧ (r.take 1).map content = (r'.take 1).map content ∧
    ((false = true ∨ (SomeNew (r.take 1) ↔ SomeNew (r'.take 2))) → (r.drop 1).map (shifted 1) = (r'.drop 2).map content) := by
  intro r r' u u' h h'
  have e1 : u = (addFile Sample.refUnedited 5 c!"/w/r_1.bb" 0 none (Stash.init false false Sample.constants 0)).2 := by rw [h]
  have e2 : u' = (addFile (rewritten Sample.refUnedited Sample.refEdited) 5 c!"/w/r_1.bb" 0 none (Stash.init false false Sample.constants 9)).2 := by rw [h']
  have hL : ∀ n ∈ [c!"${BPN}.inc"], RefersWithin (fun n => n = c!"BPN") n := by
    simp only [List.mem_singleton]
    rintro _ rfl
    exact refersWithin_one (a := []) (m := c!"BPN") (b := c!".inc") (by simp) (by simp) (by simp)
  have single : ∀ (t : Str) (rest : List Str), OneLine t → IsGroup [t ++ c!"\n"] rest := by
    intro t rest h
    refine .inr (.inr (.inr (.inr ⟨_, rfl, ?_, h.noHeader, h.noComment, h.noDef⟩)))
    rintro ⟨a, ws, e, -⟩
    have : '\\' ∈ t ++ c!"\n" := by rw [e]; simp
    simp at this
    exact (h.chars _ this).2.2 rfl
  have o1 : OneLine c!"A = \"1\"" := oneLine_of_chars (by decide +kernel) (by decide +kernel) (by decide +kernel)
  have o2 : OneLine c!"B = \"2\"" := oneLine_of_chars (by decide +kernel) (by decide +kernel) (by decide +kernel)
  have o3 : OneLine c!"require ${BPN}.inc" := oneLine_of_chars (by decide +kernel) (by decide +kernel) (by decide +kernel)
  have o4 : OneLine c!"C = \"3\"" := oneLine_of_chars (by decide +kernel) (by decide +kernel) (by decide +kernel)
  exact C102_edit Sample.refUnedited Sample.refEdited (fun n => n = c!"BPN") false false Sample.constants Sample.usableConstants
    Sample.bpn_setsWithin 0 9 (fun _ => True) (fun _ => True) _ _ u u' .nil .nil c!"/w/r_1.bb" Sample.refBefore Sample.refAfter
    (by decide +kernel) (by decide +kernel) (Sample.within_of _ hL (by decide +kernel)) (Sample.within_of _ hL (by decide +kernel))
    (by rw [e1]; exact Sample.noneAssigned (by decide +kernel)) (by rw [e2]; exact Sample.noneAssigned (by decide +kernel))
    (by decide +kernel) (by decide +kernel) _ _ (readlines_isLines _) (readlines_isLines _)
    [[c!"A = \"1\"\n"]] [] [[c!"B = \"2\"\n"]] [[c!"require ${BPN}.inc\n"], [c!"C = \"3\"\n"]]
    (.cons (single _ _ o1) (.cons (single _ _ o3) (.cons (single _ _ o4) .nil)))
    (.cons (single _ _ o1) (.cons (single _ _ o2) (.cons (single _ _ o3) (.cons (single _ _ o4) .nil))))
    5 5 0 0 none none r r' h h'

/-- both calls succeed: five items, then six -/
example : (addFile Sample.unedited 5 c!"/w/r.bb" 0 none (Stash.init false false Sample.constants 0)).1.toOption.map (·.length) = some 5 ∧
    (addFile (rewritten Sample.unedited Sample.editedFile) 5 c!"/w/r.bb" 0 none (Stash.init false false Sample.constants 9)).1.toOption.map
      (·.map (·.inFileLine)) = some [1, 2, 3, 4, 5, 6] := by decide +kernel

end
end Oelint

import Verif.Lemmas.Undisturbed
import Verif.Lemmas.Process
import Verif.Props.ReproducibleRefs
import Verif.Props.Printed
/-!
# What is added later does not change what is known about a file (C105)

`announcement f` is the line `Parsing <f>` that `AddFile` prints for every file it reads (C99).
-/
set_option linter.unusedSectionVars false
namespace Oelint
open Spec

section
variable [Uni]

theorem addCalls_loud (W : World) (l : List FileCall) (s s' : Stash) (h : QuietRel false s s') :
    QuietRel false (addCalls W l s).2 (addCalls W l s').2 := by
  induction l generalizing s s' with
  | nil => exact h
  | cons c l ih => exact ih _ _ ((twin_quiet W false).alike.addFile_sim c.depth c.path c.off c.forced s s' h).2

theorem addCalls_constsOf (W : World) {db : J} (l : List FileCall) (s : Stash) (h : ConstsOf db s) : ConstsOf db (addCalls W l s).2 := by
  induction l generalizing s with
  | nil => exact h
  | cons c l ih => exact ih _ (addFile_constsOf_any h c.depth c.path c.off c.forced)

theorem map_announcement_inj {l l' : List Str} (h : l.map announcement = l'.map announcement) : l = l' :=
  List.map_injective_iff.2 (fun _ _ h => announcement_inj h) h

theorem elsewhere_sameFor (W : World) (l : List FileCall) (s : Stash) (hu : UsableConstants s.consts) (T : List Str)
    (hT : (addCalls W l { s with quiet := false }).2.printed = s.printed ++ T.map announcement)
    (f : Str) (hf : f ≠ []) (h : Elsewhere s (addCalls W l s).2 T f) : SameFor W f s (addCalls W l s).2 := by
  have k : ConstsOf s.consts s := ⟨hu, otherNames_refl _⟩
  have names := constsOf_names k (addCalls_constsOf W l s k)
  obtain ⟨p, hp⟩ := addCalls_loud W l s { s with quiet := false } ⟨s.printed, rfl⟩
  obtain ⟨-, -, U, hU, hs⟩ := addCalls_far W f l { s with quiet := false }
  have e : U = T := map_announcement_inj (List.append_cancel_left (hU.symm.trans hT))
  subst e
  refine ⟨hf, h.links, ?_, ?_, ?_, ?_, ?_⟩
  · have := hs (by rw [hp]; exact ⟨h.links, h.fresh, h.appends⟩)
    rw [hp] at this
    exact this
  · exact (twin_names W).sets (s' := { s with consts := (addCalls W l s).2.consts }) names
  · exact (twin_names W).mirrors (s' := { s with consts := (addCalls W l s).2.consts }) names
  · exact (twin_names W).imgClasses (s' := { s with consts := (addCalls W l s).2.consts }) names
  · exact (twin_names W).imgVars (s' := { s with consts := (addCalls W l s).2.consts }) names

/-- **C105** (partial) Whatever calls of `AddFile` are made, successful or not: if the files read (those that are announced, were the stash
not quiet) have nothing to do with `f` - neither `f` nor a file linked to it is among them, the same files are linked to `f` as before,
and no append of `f` is linked to one of them - then every question about `f` has the same answer as before, exceptions included.
Missing: files that share an include, or an append, with `f`; for them the claim is false (below). -/
theorem C105_undisturbed_partial (W : World) (l : List FileCall) (s : Stash) (hu : UsableConstants s.consts) (T : List Str)
    (hT : (addCalls W l { s with quiet := false }).2.printed = s.printed ++ T.map announcement)
    (f : Str) (hf : f ≠ []) (h : Elsewhere s (addCalls W l s).2 T f) (q : Question) (hq : q.asksAbout f) :
    q.fresh W (addCalls W l s).2 = q.fresh W s :=
  (elsewhere_sameFor W l s hu T hT f hf h).answer hq

/-- **C105** (partial) The same for `GetFiles`, which also looks at the files that the `SRC_URI`s of `f` come from. -/
theorem C105_files_partial (W : World) (l : List FileCall) (s : Stash) (hu : UsableConstants s.consts) (T : List Str)
    (hT : (addCalls W l { s with quiet := false }).2.printed = s.printed ++ T.map announcement)
    (f : Str) (hf : f ≠ []) (h : ∀ g, g = f ∨ (g ≠ [] ∧ g ∈ links s f) → Elsewhere s (addCalls W l s).2 T g)
    (hn : [] ∉ links s f) (pattern : Str) :
    (Question.files f pattern).fresh W (addCalls W l s).2 = (Question.files f pattern).fresh W s := by
  have h0 := elsewhere_sameFor W l s hu T hT f hf (h f (.inl rfl))
  unfold Question.fresh getFiles
  simp only
  rw [h0.vars]
  have e : (getItemsFor W s (varFilter f c!"SRC_URI")).map (fun i => (getItemsFor W (addCalls W l s).2 { filename := some i.origin }).map
        (fun x => dirname x.origin ++ c!"/*/" ++ pattern)) =
      (getItemsFor W s (varFilter f c!"SRC_URI")).map (fun i => (getItemsFor W s { filename := some i.origin }).map
        (fun x => dirname x.origin ++ c!"/*/" ++ pattern)) := by
    refine List.map_congr_left fun i hi => ?_
    have hl := ((mem_getItemsFor W s _ i).1 hi).2.file f rfl hf
    by_cases hif : i.origin = f
    · rw [hif, h0.get rfl]
    · have hm : i.origin ∈ links s f := by
        rcases hl with hl | ⟨-, fs, h1, h2⟩
        · exact absurd hl hif
        · exact mem_links.2 ⟨fs, h1, h2⟩
      have hne : i.origin ≠ [] := fun e => hn (e ▸ hm)
      rw [(elsewhere_sameFor W l s hu T hT i.origin hne (h _ (.inr ⟨hne, hm⟩))).get rfl]
  rw [e]

end

/-! ## concrete cases -/

section
attribute [local instance] Sample.asciiUni

/-- two recipes that require the same file -/
def Sample.sharedInc : World := Sample.world
  [ (c!"/w/a.bb", c!"require c.inc\n"), (c!"/w/b.bb", c!"require c.inc\n"), (c!"/w/c.inc", c!"A += \"x\"\n") ]

/-- two versions of a recipe, an append of both and one of the first -/
def Sample.sharedAppend : World := Sample.world
  [ (c!"/w/f_1.bb", c!"B = \"1\"\n"), (c!"/w/f_2.bb", c!"B = \"1\"\n\n\n\n\n\n\nC = \"2\"\n"),
    (c!"/w/f_%.bbappend", c!"A = \"x\"\n"), (c!"/w/f_1.bbappend", c!"\nA = \"y\"\n") ]

def Sample.call (p : Str) : FileCall := ⟨5, p, 0, none⟩

/-- the value of `A` for a file -/
def Sample.valueOfA (f : Str) : Question := .expandVar (some f) (.one c!"VarName") (.one c!"A") false

/-- **C105** False of the code: an include is read again for every recipe that requires it, and its items are then in the stash once more.
Adding a second recipe changes the value of a variable of the first. -/
theorem C105_shared_include_counterexample : ∃ (W : World) (s : Stash) (f g : Str),
    f ≠ g ∧ g ∉ links (addFile W 5 g 0 none s).2 f ∧ links (addFile W 5 g 0 none s).2 f = links s f ∧
    ((addFile W 5 g 0 none s).1.toOption.isSome = true) ∧
    (Sample.valueOfA f).fresh W s = .ok (.vars [(c!"PN", [c!"a"]), (c!"PV", [c!"1.0"]), (c!"BPN", [c!"a"]), (c!"A", [c!"x"])]) ∧
    (Sample.valueOfA f).fresh W (addFile W 5 g 0 none s).2 =
      .ok (.vars [(c!"PN", [c!"a"]), (c!"PV", [c!"1.0"]), (c!"BPN", [c!"a"]), (c!"A", [c!"x", c!"x"])]) :=
  ⟨Sample.sharedInc, (addCalls Sample.sharedInc [Sample.call c!"/w/a.bb"] Sample.stash).2, c!"/w/a.bb", c!"/w/b.bb", by decide +kernel⟩

/-- **C105** False of the code: an append of two versions of a recipe is moved behind the longer one. Adding the second version changes which
of two appends of the first one comes last. -/
theorem C105_shared_append_counterexample : ∃ (W : World) (s : Stash) (f g : Str),
    f ≠ g ∧ g ∉ links (addFile W 5 g 0 none s).2 f ∧ links (addFile W 5 g 0 none s).2 f = links s f ∧
    ((addFile W 5 g 0 none s).1.toOption.isSome = true) ∧
    (Sample.valueOfA f).fresh W s = .ok (.vars [(c!"PN", [c!"f"]), (c!"PV", [c!"1"]), (c!"BPN", [c!"f"]), (c!"A", [c!"y"])]) ∧
    (Sample.valueOfA f).fresh W (addFile W 5 g 0 none s).2 =
      .ok (.vars [(c!"PN", [c!"f"]), (c!"PV", [c!"1"]), (c!"BPN", [c!"f"]), (c!"A", [c!"x"])]) :=
  ⟨Sample.sharedAppend, (addCalls Sample.sharedAppend [Sample.call c!"/w/f_1.bb", Sample.call c!"/w/f_%.bbappend",
    Sample.call c!"/w/f_1.bbappend"] Sample.stash).2, c!"/w/f_1.bb", c!"/w/f_2.bb", by decide +kernel⟩

/-- two recipes, each with an include and an append -/
def Sample.neighbours : World := Sample.world
  [ (c!"/w/a_1.bb", c!"require a.inc\nA = \"${PV}\"\n"), (c!"/w/a.inc", c!"A += \"x\"\n"), (c!"/w/a_%.bbappend", c!"A:append = \"y\"\n"),
    (c!"/w/b.bb", c!"require b.inc\nA = \"2\"\n\n\n\n"), (c!"/w/b.inc", c!"A += \"z\"\n"), (c!"/w/b.bbappend", c!"unset A\n") ]

def Sample.first : Stash :=
  (addCalls Sample.neighbours [Sample.call c!"/w/a_%.bbappend", Sample.call c!"/w/a_1.bb"]
    { Sample.stash with consts := Sample.constants }).2

def Sample.second : List FileCall := [Sample.call c!"/w/b.bbappend", Sample.call c!"/w/missing.bb", Sample.call c!"/w/b.bb"]

theorem elsewhere_of {s t : Stash} {T : List Str} {f : Str} (h : links t f = links s f ∧ (∀ p ∈ T, p ≠ f ∧ p ∉ links s f) ∧
    ∀ a ∈ f :: links s f, endsWith c!".bbappend" a = true → ∀ p ∈ T, a ∉ links t p) : Elsewhere s t T f :=
  ⟨h.1, h.2.1, fun a ha hb => h.2.2 a (by simpa using ha) (List.isSuffixOf_iff_suffix.2 hb)⟩

/-- the files that the second recipe brings -/
def Sample.secondFiles : List Str := [c!"/w/b.bbappend", c!"/w/missing.bb", c!"/w/b.bb", c!"/w/b.inc"]

theorem Sample.first_usable : UsableConstants Sample.first.consts := by
  have k : ConstsOf Sample.constants { Sample.stash with consts := Sample.constants } := ⟨Sample.usableConstants, otherNames_refl _⟩
  unfold Sample.first
  generalize { Sample.stash with consts := Sample.constants } = s at k
  exact (addCalls_constsOf Sample.neighbours [Sample.call c!"/w/a_%.bbappend", Sample.call c!"/w/a_1.bb"] s k).1

/-- the hypotheses hold for the first recipe -/
example : UsableConstants Sample.first.consts ∧
    (addCalls Sample.neighbours Sample.second { Sample.first with quiet := false }).2.printed =
      Sample.first.printed ++ Sample.secondFiles.map announcement ∧
    (∀ g, g = c!"/w/a_1.bb" ∨ (g ≠ [] ∧ g ∈ links Sample.first c!"/w/a_1.bb") →
      Elsewhere Sample.first (addCalls Sample.neighbours Sample.second Sample.first).2 Sample.secondFiles g) ∧
    [] ∉ links Sample.first c!"/w/a_1.bb" := by
  refine ⟨?_, by decide +kernel, ?_, by decide +kernel⟩
  · exact Sample.first_usable
  · intro g hg
    have h : ∀ g ∈ c!"/w/a_1.bb" :: links Sample.first c!"/w/a_1.bb",
        links (addCalls Sample.neighbours Sample.second Sample.first).2 g = links Sample.first g ∧
        (∀ p ∈ Sample.secondFiles, p ≠ g ∧ p ∉ links Sample.first g) ∧
        ∀ a ∈ g :: links Sample.first g, endsWith c!".bbappend" a = true →
          ∀ p ∈ Sample.secondFiles, a ∉ links (addCalls Sample.neighbours Sample.second Sample.first).2 p := by decide +kernel
    exact elsewhere_of (h g (hg.elim (fun e => by rw [e]; exact List.mem_cons_self) (fun e => List.mem_cons_of_mem _ e.2)))

/-- the first recipe has an include and an append, and the second ends up with items too -/
example : links Sample.first c!"/w/a_1.bb" = [c!"/w/a.inc", c!"/w/a_%.bbappend"] ∧
    (Sample.valueOfA c!"/w/a_1.bb").fresh Sample.neighbours (addCalls Sample.neighbours Sample.second Sample.first).2 =
      .ok (.vars [(c!"PN", [c!"a"]), (c!"PV", [c!"1"]), (c!"BPN", [c!"a"]), (c!"A", [c!"1y"])]) ∧
    (addCalls Sample.neighbours Sample.second Sample.first).2.items.length = 11 := by decide +kernel

end
end Oelint

import Verif.Lemmas.Apart
import Verif.Lemmas.Sample
import Verif.Lemmas.Queries
import Verif.Props.Cache
/-!
# Paths, the working directory, and files that are not needed (C94, C95)

`observe W acts c` is what a user sees of the acts, one after the other, starting with the stash `c`; `afterActs W acts c` is
the stash afterwards.
-/
set_option linter.unusedSectionVars false
namespace Oelint
section
variable [Uni]
open Spec

/-- **C94** Paths mean what they mean to the system: `.` and empty components stay, `..` goes up, names go down. -/
theorem C94_paths (ds : List Str) (hds : ∀ n ∈ ds, FileName n) (c : Str) (cs : List Str) (hc : c ≠ []) (hs : ∀ x ∈ c :: cs, '/' ∉ x) :
    abspath (full ds) (written (c :: cs)) = full ((c :: cs).foldl walk ds) ∧
    (∀ d, abspath d ('/' :: written (c :: cs)) = full ((c :: cs).foldl walk [])) ∧
    ((∀ x ∈ c :: cs, FileName x) → pathJoin (full ds) (written (c :: cs)) = full (ds ++ c :: cs)) ∧
    (FileName c → dirname (full (ds ++ [c])) = full ds ∧ basename (full (ds ++ [c])) = c) := by
  have hjoin : pathJoin (full ds) (written (c :: cs)) = '/' :: joinS c!"/" (ds ++ c :: cs) := by
    rw [written_joinS, pathJoin_full hds hc (hs c (by simp))]
  have hrel : isAbs (written (c :: cs)) = false := by rw [written_joinS, not_isAbs_joinS hc (hs c (by simp))]
  refine ⟨?_, ?_, ?_, ?_⟩
  · unfold abspath
    rw [if_neg (by rw [hrel]; simp), hjoin]
    have h1 : ∀ x ∈ ds ++ c :: cs, '/' ∉ x := by
      intro x hx
      rcases List.mem_append.1 hx with hx | hx
      · exact (hds x hx).2.2.2
      · exact hs x hx
    have h2 : (ds ++ c :: cs).foldl walk [] = (c :: cs).foldl walk ds := by
      rw [List.foldl_append, walk_of_names _ _ hds, List.nil_append]
    rw [← h2]
    cases ds with
    | nil => exact normpath_written hc h1
    | cons n ns => exact normpath_written (hds n (by simp)).1 h1
  · intro d
    unfold abspath
    rw [if_pos ((isAbs_cons _).2 ⟨_, rfl⟩), written_joinS]
    exact normpath_written hc hs
  · intro _
    rw [hjoin, full_joinS]
  · intro hn
    cases ds with
    | nil =>
      have hall : ∀ x ∈ c.reverse, (x != '/') = true := by
        intro x hx
        simp only [bne_iff_ne, ne_eq]
        rintro rfl
        exact hn.2.2.2 (List.mem_reverse.1 hx)
      have hf : full ([] ++ [c]) = '/' :: c := by simp [full]
      rw [hf]
      constructor
      · unfold dirname
        rw [List.reverse_cons, List.dropWhile_append_of_pos hall]
        rfl
      · unfold basename
        rw [List.reverse_cons, List.takeWhile_append_of_pos hall]
        simp
    | cons m ms =>
      have h1 : full (m :: ms ++ [c]) = full (m :: ms) ++ '/' :: c := by simp [full]
      rw [h1]
      refine dirname_written hn.2.2.2 (by simp [full]) ?_
      have h2 := getLast_joinS (by simp) hds
      rw [full_joinS]
      obtain ⟨x, t, -, hj⟩ := joinS_head hds
      rw [hj] at h2 ⊢
      rw [Bool.eq_false_iff] at h2 ⊢
      intro hh
      apply h2
      unfold endsWith at hh ⊢
      rw [List.isSuffixOf_iff_suffix] at hh ⊢
      rcases List.suffix_cons_iff.1 hh with hh | hh
      · simp at hh
      · exact hh

/-- **C94** The extension of a file starts at the last dot of its name, unless only dots precede it; then there is none. -/
theorem C94_extension (pre name : Str) (hpre : pre = [] ∨ pre.getLast? = some '/') (hn : '/' ∉ name) :
    (∀ stem ext, name = stem ++ '.' :: ext → '.' ∉ ext → (∃ c ∈ stem, c ≠ '.') → splitext (pre ++ name) = (pre ++ stem, '.' :: ext)) ∧
    ((∀ stem ext, name = stem ++ '.' :: ext → '.' ∉ ext → ∀ c ∈ stem, c = '.') → splitext (pre ++ name) = (pre ++ name, [])) := by
  have hb : basename (pre ++ name) = name := by
    unfold basename
    have hall : ∀ x ∈ name.reverse, (x != '/') = true := by
      intro x hx
      simp only [bne_iff_ne, ne_eq]
      rintro rfl
      exact hn (List.mem_reverse.1 hx)
    rw [List.reverse_append, List.takeWhile_append_of_pos hall]
    rcases hpre with rfl | hpre
    · simp
    · obtain ⟨a, ha⟩ := List.getLast?_eq_some_iff.1 hpre
      rw [ha]
      simp
  constructor
  · rintro stem ext rfl hext ⟨c, hc, hcd⟩
    have hall : ∀ x ∈ ext.reverse, (x != '.') = true := by
      intro x hx
      simp only [bne_iff_ne, ne_eq]
      rintro rfl
      exact hext (List.mem_reverse.1 hx)
    have hr : (stem ++ '.' :: ext).reverse = ext.reverse ++ ('.' :: stem.reverse) := by simp
    unfold splitext
    rw [hb]
    simp only [hr, List.takeWhile_append_of_pos hall, List.dropWhile_append_of_pos hall]
    simp only [List.takeWhile_cons, List.dropWhile_cons, bne_self_eq_false, Bool.false_eq_true, if_false, List.append_nil,
      List.reverse_reverse, List.reverse_cons, List.dropLast_concat]
    rw [if_neg]
    · congr 1
      have : (pre ++ (stem ++ '.' :: ext)).length - ext.length - 1 = (pre ++ stem).length := by
        simp only [List.length_append, List.length_cons]
        omega
      rw [this, ← List.append_assoc, List.take_left' rfl]
    · simp only [Bool.or_eq_true, List.isEmpty_iff, List.append_eq_nil_iff, List.all_eq_true, beq_iff_eq, not_or]
      exact ⟨by simp, fun h => hcd (h c hc)⟩
  · intro h
    unfold splitext
    rw [hb]
    simp only
    rw [if_pos]
    rw [Bool.or_eq_true]
    by_cases hd : '.' ∈ name
    · right
      obtain ⟨a, b, hab, hbn⟩ : ∃ a b, name = a ++ '.' :: b ∧ '.' ∉ b := by
        obtain ⟨x, y, hxy, hxn⟩ := List.eq_append_cons_of_mem (List.mem_reverse.2 hd)
        exact ⟨y.reverse, x.reverse, by rw [← List.reverse_reverse name, hxy]; simp, by simpa using hxn⟩
      have hall : ∀ x ∈ b.reverse, (x != '.') = true := by
        intro x hx
        simp only [bne_iff_ne, ne_eq]
        rintro rfl
        exact hbn (List.mem_reverse.1 hx)
      have hr : name.reverse = b.reverse ++ ('.' :: a.reverse) := by rw [hab]; simp
      rw [hr, List.dropWhile_append_of_pos hall]
      simp only [List.dropWhile_cons, bne_self_eq_false, Bool.false_eq_true, if_false, List.reverse_cons, List.reverse_reverse,
        List.dropLast_concat, List.all_eq_true, beq_iff_eq]
      exact h a b hab hbn
    · left
      rw [List.isEmpty_iff, List.reverse_eq_nil_iff, List.dropWhile_eq_nil_iff]
      intro x hx
      simp only [bne_iff_ne, ne_eq]
      rintro rfl
      exact hd (List.mem_reverse.1 hx)

/-- **C94** A file can be named by any path: `AddFile` does the same for the path and for its absolute form. -/
theorem C94_same_file (W : World) (depth : Nat) (path : Str) (off : Int) (forced : Option Str) :
    addFile W depth path off forced = addFile W depth (abspath W.cwd path) off forced ∧
    (Call.addFile path off forced).perform W depth = (Call.addFile (abspath W.cwd path) off forced).perform W depth := by
  constructor
  · cases depth with
    | zero => rfl
    | succ n => rw [addFile, addFile, abspath_idem]
  · show cAddFile W depth path off forced = cAddFile W depth (abspath W.cwd path) off forced
    cases depth with
    | zero => rfl
    | succ n => rw [cAddFile, cAddFile, abspath_idem]

/-- **C94** (partial) From another working directory everything is the same if the files are added by absolute paths, as long as
`oe.utils.read_file` finds the same under relative paths; missing: `GetFiles`, for which see `C94_files`. -/
theorem C94_elsewhere_partial {W W' : World} (hm : SameMachine W W') (hr : SameRelative W W') (acts : List Act)
    (ha : ∀ a ∈ acts, a.absolute) (c : CStash) (hc : PlacesRight W c) :
    observe W' acts c = observe W acts c ∧ afterActs W' acts c = afterActs W acts c := by
  have hA : Apart true W W'.file W'.pathExists W'.isFile W'.isDir W'.glob := by
    refine ⟨fun p => Or.inl ?_, hm.pathExists, hm.isFile, hm.isDir, hm.glob⟩
    cases hp : isAbs p with
    | true => exact hm.file p hp
    | false => exact hr p hp
  have h := hA.observe (hd := W'.cwd_abs) acts c hc (fun n k hk p o f hkf => abspath_abs (by subst hkf; exact ha _ hk))
    (Or.inr fun f p hh => ha _ hh) (Or.inl rfl)
  rw [apart_form hm.itemOrder hm.strOrder hm.urlparse hm.printable hm.sha1]
  exact h

/-- **C94** (partial) From another working directory everything is the same if the files are added by absolute paths, as long as
nothing was raised although no relative path could be opened. -/
theorem C94_nothing_relative_partial {W W' : World} (hm : SameMachine W W') (hr : ∀ p, isAbs p = false → W.file p = .fails)
    (acts : List Act) (ha : ∀ a ∈ acts, a.absolute) (c : CStash) (hc : PlacesRight W c) (hok : ∀ r ∈ observe W acts c, r.fine) :
    observe W' acts c = observe W acts c ∧ afterActs W' acts c = afterActs W acts c := by
  have hA : Apart false W W'.file W'.pathExists W'.isFile W'.isDir W'.glob := by
    refine ⟨fun p => ?_, hm.pathExists, hm.isFile, hm.isDir, hm.glob⟩
    cases hp : isAbs p with
    | true => exact Or.inl (hm.file p hp)
    | false => exact Or.inr ⟨rfl, hr p hp⟩
  have h := hA.observe (hd := W'.cwd_abs) acts c hc (fun n k hk p o f hkf => abspath_abs (by subst hkf; exact ha _ hk))
    (Or.inr fun f p hh => ha _ hh) (Or.inr hok)
  rw [apart_form hm.itemOrder hm.strOrder hm.urlparse hm.printable hm.sha1]
  exact h

/-- **C94** `GetFiles` does not depend on the working directory either, if the items come from absolute paths, as `AddFile`
makes them. -/
theorem C94_files {W W' : World} (hm : SameMachine W W') (s : Stash) (hs : ∀ x ∈ s.items, isAbs x.origin = true) (f pat : Str) :
    getFiles W' s f pat = getFiles W s f pat := by
  have hi : getItemsFor W' = getItemsFor W := by
    rw [apart_form hm.itemOrder hm.strOrder hm.urlparse hm.printable hm.sha1]
    rfl
  unfold getFiles
  simp only [hi]
  congr 2
  refine congrArg List.flatten (List.map_congr_left fun p hp => ?_)
  rw [mem_dedup, List.mem_append] at hp
  have hone : ∀ x ∈ s.items, isAbs (dirname x.origin ++ c!"/*/" ++ pat) = true := by
    intro x hx
    obtain ⟨t, ht⟩ := (isAbs_cons _).1 (isAbs_dirname (hs x hx))
    rw [ht]
    exact (isAbs_cons _).2 ⟨t ++ c!"/*/" ++ pat, by simp⟩
  apply hm.glob
  rcases hp with hp | hp
  · obtain ⟨x, hx, rfl⟩ := List.mem_map.1 hp
    exact hone x ((mem_getItemsFor ..).1 hx).1
  · obtain ⟨l, hl, hp⟩ := List.mem_flatten.1 hp
    obtain ⟨i, hi, rfl⟩ := List.mem_map.1 hl
    obtain ⟨x, hx, rfl⟩ := List.mem_map.1 hp
    exact hone x ((mem_getItemsFor ..).1 hx).1

/-- **C95** What is not needed does not matter: if everything goes well although some files cannot be opened (`open` raises
something else than that the file does not exist or may not be read), then the same happens whatever these files hold. -/
theorem C95_not_needed {W W' : World} (h : OnlyUnreadable W W') (acts : List Act) (c : CStash) (hc : PlacesRight W c)
    (hok : ∀ r ∈ observe W acts c, r.fine) : observe W' acts c = observe W acts c ∧ afterActs W' acts c = afterActs W acts c := by
  have hA : Apart false W W'.file W'.pathExists W'.isFile W'.isDir W'.glob :=
    ⟨fun p => (h.file p).imp_right fun hp => ⟨rfl, hp⟩, fun p _ => by rw [h.pathExists], fun p _ => by rw [h.isFile],
      fun p _ => by rw [h.isDir], fun p _ => by rw [h.glob]⟩
  have h1 := hA.observe (hd := W'.cwd_abs) acts c hc (fun n k hk p o f hkf => by rw [h.cwd]) (Or.inl fun p => by rw [h.glob])
    (Or.inr hok)
  rw [apart_form h.itemOrder h.strOrder h.urlparse h.printable h.sha1]
  exact h1

end

section
attribute [local instance] Sample.asciiUni
open Spec

/-- a recipe that reads a file by a relative path, and that file -/
def Sample.readsRelative : World :=
  Sample.world [(c!"/w/a_1.bb", c!"A = \"${@oe.utils.read_file('x')}\"\n"), (c!"x", c!"1")]

/-- the same seen from a directory without that file -/
def Sample.readsRelative' : World :=
  { Sample.readsRelative with cwd := c!"/v", cwd_abs := rfl, file := fun p => if p = c!"x" then .notFound else Sample.readsRelative.file p }

/-- what is done there -/
def Sample.readsActs : List Act :=
  [.call 9 (.addFile c!"/w/a_1.bb" 0 none), .ask (.expandTerm c!"/w/a_1.bb" c!"${A}" [])]

/-- **C94** (counterexample) The working directory does matter for `oe.utils.read_file` with a relative path: the value of the
variable is what is found under that path. -/
theorem C94_counterexample :
    ¬ (∀ (W W' : World), SameMachine W W' → ∀ acts : List Act, (∀ a ∈ acts, a.absolute) → ∀ c, observe W' acts c = observe W acts c) ∧
    ((Question.expandTerm c!"/w/a_1.bb" c!"${A}" []).ask Sample.readsRelative
      (afterActs Sample.readsRelative [.call 9 (.addFile c!"/w/a_1.bb" 0 none)] Sample.cached)).1 = .ok (.text c!"1") ∧
    ((Question.expandTerm c!"/w/a_1.bb" c!"${A}" []).ask Sample.readsRelative'
      (afterActs Sample.readsRelative' [.call 9 (.addFile c!"/w/a_1.bb" 0 none)] Sample.cached)).1 = .ok (.text []) := by
  have h1 : ((Question.expandTerm c!"/w/a_1.bb" c!"${A}" []).ask Sample.readsRelative
      (afterActs Sample.readsRelative [.call 9 (.addFile c!"/w/a_1.bb" 0 none)] Sample.cached)).1 = .ok (.text c!"1") := by
    decide +kernel
  have h2 : ((Question.expandTerm c!"/w/a_1.bb" c!"${A}" []).ask Sample.readsRelative'
      (afterActs Sample.readsRelative' [.call 9 (.addFile c!"/w/a_1.bb" 0 none)] Sample.cached)).1 = .ok (.text []) := by
    decide +kernel
  refine ⟨fun h => ?_, h1, h2⟩
  have h3 := h Sample.readsRelative Sample.readsRelative'
    ⟨fun p hp => if_neg (by rintro rfl; cases hp), fun _ _ => rfl, fun _ _ => rfl, fun _ _ => rfl, fun _ _ => rfl, rfl, rfl, rfl, rfl, rfl⟩
    Sample.readsActs (by
      intro a ha
      rcases List.mem_cons.1 ha with rfl | ha
      · exact (rfl : isAbs c!"/w/a_1.bb" = true)
      · rw [List.mem_singleton] at ha
        subst ha
        exact trivial) Sample.cached
  have h4 : (Reply.answer _ : Reply) = Reply.answer _ := (List.cons.inj (List.cons.inj h3).2).1
  have h5 := Reply.answer.inj h4
  have h6 : (Except.ok (Answer.text []) : Except PyErr Answer) = .ok (.text c!"1") := h2.symm.trans (h5.trans h1)
  cases h6

/-- C94: a path with `..` and `.` -/
example : abspath (full [c!"w", c!"x"]) c!"../b/./c.bb" = full [c!"w", c!"b", c!"c.bb"] :=
  (C94_paths [c!"w", c!"x"] (by unfold FileName; decide) c!".." [c!"b", c!".", c!"c.bb"] (by decide) (by decide)).1

/-- C94: the extension of a file, and names without one -/
example : splitext c!"/w/a.b/c_1.0.bb" = (c!"/w/a.b/c_1.0", c!".bb") ∧ splitext c!"/w/.bbclass" = (c!"/w/.bbclass", []) := by
  refine ⟨(C94_extension c!"/w/a.b/" c!"c_1.0.bb" (Or.inr rfl) (by decide)).1 c!"c_1.0" c!"bb" rfl (by decide) ⟨'c', by decide, by decide⟩,
    (C94_extension c!"/w/" c!".bbclass" (Or.inr rfl) (by decide)).2 ?_⟩
  intro stem ext h he c hc
  cases stem with
  | nil => cases hc
  | cons x stem =>
    exfalso
    have h1 := (List.cons.inj h).2
    have h2 : '.' ∈ c!"bbclass" := by
      rw [h1]
      simp
    revert h2
    decide

theorem Sample.noPlaces (W : World) : PlacesRight W Sample.cached := ⟨fun _ _ h => (by cases h), fun _ _ _ h => (by cases h)⟩

/-- C94: the theorems apply to the sample seen from another directory, and something is seen -/
example : ∃ W W' : World, W'.cwd ≠ W.cwd ∧ SameMachine W W' ∧ SameRelative W W' ∧ (∀ a ∈ Sample.readsActs, a.absolute) ∧
    observe W' Sample.readsActs Sample.cached = observe W Sample.readsActs Sample.cached ∧
    ((Question.expandTerm c!"/w/a_1.bb" c!"${A}" []).ask W' (afterActs W' [.call 9 (.addFile c!"/w/a_1.bb" 0 none)] Sample.cached)).1
      = .ok (.text c!"1") := by
  have hm : SameMachine Sample.readsRelative { Sample.readsRelative with cwd := c!"/v", cwd_abs := rfl } :=
    ⟨fun _ _ => rfl, fun _ _ => rfl, fun _ _ => rfl, fun _ _ => rfl, fun _ _ => rfl, rfl, rfl, rfl, rfl, rfl⟩
  have ha : ∀ a ∈ Sample.readsActs, a.absolute := by
    intro a ha
    rcases List.mem_cons.1 ha with rfl | ha
    · exact (rfl : isAbs c!"/w/a_1.bb" = true)
    · rw [List.mem_singleton] at ha
      subst ha
      exact trivial
  exact ⟨Sample.readsRelative, _, by decide, hm, fun _ _ => rfl, ha,
    (C94_elsewhere_partial hm (fun _ _ => rfl) Sample.readsActs ha Sample.cached (Sample.noPlaces _)).1, by decide +kernel⟩

/-- C94: a file added by a relative path and by its absolute path -/
example : abspath Sample.readsRelative.cwd c!"./x/../a_1.bb" = c!"/w/a_1.bb" ∧
    ((Call.addFile c!"./x/../a_1.bb" 0 none).perform Sample.readsRelative 9 Sample.cached).1.toOption.map List.length = some 1 := by
  decide +kernel

/-- C94: `GetFiles` after the sample was added -/
example : ∃ W W' : World, W'.cwd ≠ W.cwd ∧ SameMachine W W' ∧
    (afterActs W Sample.readsActs Sample.cached).base.items ≠ [] ∧
    ∀ f pat, getFiles W' (afterActs W Sample.readsActs Sample.cached).base f pat =
      getFiles W (afterActs W Sample.readsActs Sample.cached).base f pat := by
  have hm : SameMachine Sample.readsRelative { Sample.readsRelative with cwd := c!"/v", cwd_abs := rfl } :=
    ⟨fun _ _ => rfl, fun _ _ => rfl, fun _ _ => rfl, fun _ _ => rfl, fun _ _ => rfl, rfl, rfl, rfl, rfl, rfl⟩
  have h : (afterActs Sample.readsRelative Sample.readsActs Sample.cached).base.items.all (fun x => isAbs x.origin) = true := by
    decide +kernel
  exact ⟨Sample.readsRelative, _, by decide, hm, by decide +kernel, fun f pat => C94_files hm _ (List.all_eq_true.1 h) f pat⟩

/-- a recipe that includes one file; another one cannot be opened -/
def Sample.unreadable (text : Str) : World :=
  let W := Sample.world [(c!"/w/a_1.bb", text), (c!"/w/b.inc", c!"B = \"1\"\n"), (c!"/w/c.inc", [])]
  { W with file := fun p => if p = c!"/w/c.inc" then .fails else W.file p }

/-- what is done there -/
def Sample.unreadableActs : List Act :=
  [.call 9 (.addFile c!"/w/a_1.bb" 0 none), .ask (.expandTerm c!"/w/a_1.bb" c!"${B}" [])]

/-- whether nothing was raised -/
def Sample.isFine : Reply → Bool
  | .answer (.ok _) => true
  | .result (.ok _) => true
  | _ => false

theorem Sample.fine_of (r : Reply) (h : Sample.isFine r = true) : r.fine := by
  cases r with
  | answer r => cases r with
    | ok a => exact ⟨a, rfl⟩
    | error e => cases h
  | result r => cases r with
    | ok a => exact ⟨a, rfl⟩
    | error e => cases h

/-- C94: nothing relative is opened in the sample -/
example : ∃ W W' : World, W'.cwd ≠ W.cwd ∧ SameMachine W W' ∧ W'.file c!"x" = .text c!"1" ∧
    observe W' Sample.unreadableActs Sample.cached = observe W Sample.unreadableActs Sample.cached := by
  let W0 := Sample.world [(c!"/w/a_1.bb", c!"include b.inc\n"), (c!"/w/b.inc", c!"B = \"1\"\n"), (c!"x", c!"1")]
  let W : World := { W0 with file := fun p => if isAbs p then W0.file p else .fails }
  let W' : World := { W0 with cwd := c!"/v", cwd_abs := rfl }
  have hm : SameMachine W W' :=
    ⟨fun p hp => (if_pos hp).symm, fun _ _ => rfl, fun _ _ => rfl, fun _ _ => rfl, fun _ _ => rfl, rfl, rfl, rfl, rfl, rfl⟩
  have h : (observe W Sample.unreadableActs Sample.cached).all Sample.isFine = true := by decide +kernel
  refine ⟨W, W', by decide, hm, rfl, (C94_nothing_relative_partial hm (fun p hp => if_neg (by rw [hp]; simp)) _ ?_ _ (Sample.noPlaces _)
    fun r hr => Sample.fine_of r (List.all_eq_true.1 h r hr)).1⟩
  intro a ha
  rcases List.mem_cons.1 ha with rfl | ha
  · exact (rfl : isAbs c!"/w/a_1.bb" = true)
  · rw [List.mem_singleton] at ha
    subst ha
    exact trivial

/-- C95: the theorem applies to a recipe that includes one of two files whatever the other one holds; a recipe that includes
the other one raises -/
example : (∀ t, ∃ W', OnlyUnreadable (Sample.unreadable c!"include b.inc\n") W' ∧ W'.file c!"/w/c.inc" = .text t ∧
      observe W' Sample.unreadableActs Sample.cached =
        observe (Sample.unreadable c!"include b.inc\n") Sample.unreadableActs Sample.cached) ∧
    ((Question.expandTerm c!"/w/a_1.bb" c!"${B}" []).ask (Sample.unreadable c!"include b.inc\n")
      (afterActs (Sample.unreadable c!"include b.inc\n") [.call 9 (.addFile c!"/w/a_1.bb" 0 none)] Sample.cached)).1 = .ok (.text c!"1") ∧
    (observe (Sample.unreadable c!"include c.inc\n") Sample.unreadableActs Sample.cached).all Sample.isFine = false := by
  refine ⟨fun t => ?_, by decide +kernel, by decide +kernel⟩
  have ho : OnlyUnreadable (Sample.unreadable c!"include b.inc\n") { Sample.unreadable c!"include b.inc\n" with
      file := fun p => if p = c!"/w/c.inc" then .text t else (Sample.unreadable c!"include b.inc\n").file p } := by
    refine ⟨fun p => ?_, rfl, rfl, rfl, rfl, rfl, rfl, rfl, rfl, rfl, rfl⟩
    by_cases hp : p = c!"/w/c.inc"
    · exact Or.inr (if_pos hp)
    · exact Or.inl (if_neg hp)
  refine ⟨_, ho, by simp, (C95_not_needed ho _ _ (Sample.noPlaces _) ?_).1⟩
  have h : (observe (Sample.unreadable c!"include b.inc\n") Sample.unreadableActs Sample.cached).all Sample.isFine = true := by
    decide +kernel
  exact fun r hr => Sample.fine_of r (List.all_eq_true.1 h r hr)

end
end Oelint

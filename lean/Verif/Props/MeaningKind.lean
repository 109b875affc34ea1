import Verif.Props.MeaningSources
/-! # C122 for two files: the kind of a recipe that includes a file or has a `.bbappend` -/
set_option linter.unusedSectionVars false
namespace Oelint
section
variable [Uni]
open Spec

theorem entries_quiet {W : World} {k : Nat} {p : Str} {off : Int} {forced : Option Str} {s u : Stash} {res : List Item} (h : addFile W k p off forced s = (.ok res, u))
    (hnew : alreadySeen s (abspath W.cwd p) = false) {es : List Entry} (hf : EntryFile W p es) : ∀ x ∈ res, x.payload.loads = false := by
  obtain ⟨t, ls, gs, f1, f2, f3, f4⟩ := hf.text
  have hreal := (C08_chunk_boundaries W k p off forced _ _ res t h hnew f1 ls _ f2).2 f3
  have hE := entries_of h hnew f1 gs es res (fun _ hx => hx) hreal f4
  intro x hx
  obtain ⟨e, -, -, h2⟩ := forall₂_left hE hx
  exact h2

theorem pair_quiet {W : World} {ns neg : Bool} {consts : J} {uid k k' : Nat} {p q : Str} {off off' : Int} {forced forced' : Option Str} {s1 u : Stash}
    {res res' : List Item} {es es' : List Entry} (hpq : abspath W.cwd q ≠ abspath W.cwd p)
    (h : addFile W k p off forced (Stash.init ns neg consts uid) = (.ok res, s1)) (hf : EntryFile W p es)
    (h' : addFile W k' q off' forced' s1 = (.ok res', u)) (hf' : EntryFile W q es') : ∀ x ∈ u.items, x.payload.loads = false := by
  have hnew : alreadySeen (Stash.init ns neg consts uid) (abspath W.cwd p) = false := by simp [alreadySeen, Stash.init]
  have q1 := entries_quiet h hnew hf
  obtain ⟨⟨g, mx, i1⟩, i2, i3⟩ := addFile_own hnew h fun x hx => loads_of_idle (q1 x hx)
  have hnew' : alreadySeen s1 (abspath W.cwd q) = false := by
    unfold alreadySeen
    rw [i2, i3]
    unfold markSeen
    simp only [Stash.init, List.contains_nil, Bool.false_eq_true, if_false, List.nil_append]
    split <;> simp [hpq]
  have q2 := entries_quiet h' hnew' hf'
  obtain ⟨⟨g', mx', j1⟩, -, -⟩ := addFile_own hnew' h' fun x hx => loads_of_idle (q2 x hx)
  intro x hx
  rw [j1, i1] at hx
  rcases List.mem_append.1 hx with hx | hx
  · simp only [Stash.init, List.map_nil, List.nil_append, List.mem_map] at hx
    obtain ⟨y, hy, rfl⟩ := hx
    unfold reline
    split <;> exact q1 y hy
  · exact q2 x hx

theorem both_quiet {W : World} {ns neg : Bool} {consts : J} {uid : Nat} {p q : Str} {u : Stash} {es es' : List Entry} (hpq : abspath W.cwd q ≠ abspath W.cwd p)
    (h : BothAdded W (Stash.init ns neg consts uid) p q u) (hf : EntryFile W p es) (hf' : EntryFile W q es') : ∀ x ∈ u.items, x.payload.loads = false := by
  cases h with
  | recipeFirst _ _ h1 h2 => exact pair_quiet hpq h1 hf h2 hf'
  | appendFirst _ _ h1 h2 => exact pair_quiet hpq.symm h1 hf' h2 hf

/-- **C122** (with a `.bbappend`). A recipe of entries with its `.bbappend`, added in any order, is an image exactly if one of the two files declares one of the variables of images, and is no
package group. -/
theorem C122_appended (W D : World) (ns neg : Bool) (consts : J) (hu : UsableConstants consts) (uid : Nat) (p q : Str) (u : Stash) (h : BothAdded W (Stash.init ns neg consts uid) p q u)
    (es es' : List Entry) (hf : EntryFile W p es) (hf' : EntryFile W q es') (hne : es ≠ [])
    (stem n : Str) (ha : IsFile (abspath W.cwd q) stem c!".bbappend") (hs : PlainAppend stem) (hx : IsFile (abspath W.cwd p) n c!".bb") (hn : PlainRecipe n) (hg : Glob stem n)
    (jc jv : J) (classes vars : List Str) (hc : imagesClasses consts = .ok jc) (hcl : NamesIn jc classes) (hv : imagesVariables consts = .ok jv) (hvl : NamesIn jv vars) (he : [] ∉ vars) :
    (∃ a, isImage D u (abspath W.cwd p) = .ok a ∧ (a = true ↔ ∃ d ∈ decls es ++ decls es', d.base ∈ vars)) ∧ isPackageGroup D u (abspath W.cwd p) = false := by
  have hpq : abspath W.cwd q ≠ abspath W.cwd p := by
    intro e
    rw [e] at ha
    obtain ⟨a, h1⟩ := isFile_suffix ha
    obtain ⟨b, h2⟩ := isFile_suffix hx
    have := congrArg List.getLast? (h1.trans h2.symm)
    simp at this
  obtain ⟨its, R⟩ := both_read hu h hf hf' hne ha hs hx hn hg
  have hno : ∀ l, ¬ InheritsOneOf u (abspath W.cwd p) l := by
    rintro l ⟨x, hx, -, ⟨st, cl, fp, hpay⟩, -⟩
    have := both_quiet hpq h hf hf' x hx
    rw [hpay] at this
    cases this
  have c0 : ConstsOf consts (Stash.init ns neg consts uid) := ⟨hu, otherNames_refl _⟩
  have c1 : ConstsOf consts u := history_constsOf (bothAdded_history h) hu
  have i1 : imagesClasses u.consts = imagesClasses consts := (twin_names W).imgClasses (s' := { (Stash.init ns neg consts uid) with consts := u.consts }) (constsOf_names c0 c1)
  have i2 : imagesVariables u.consts = imagesVariables consts := (twin_names W).imgVars (s' := { (Stash.init ns neg consts uid) with consts := u.consts }) (constsOf_names c0 c1)
  obtain ⟨⟨a, h1, h2⟩, h3⟩ := C62_any_collection D u (abspath W.cwd p) classes vars jc jv (abspath_ne_nil W p) (i1.trans hc) hcl (i2.trans hv) hvl he
  refine ⟨⟨a, h1, h2.trans ?_⟩, ?_⟩
  · rw [R.setsOneOf, decls_append]
    exact ⟨fun hh => hh.resolve_left (hno _), .inr⟩
  · rw [Bool.eq_false_iff]
    exact fun hh => hno _ (h3.1 hh)

/-- **C122** (with an included file). A recipe that includes one file of entries is an image exactly if one of the two files declares one of the variables of images, and is no package group. -/
theorem C122_included (W D : World) (ns neg : Bool) (consts : J) (hu : UsableConstants consts) (uid k : Nat) (p q name : Str) (off : Int) (forced : Option Str) (u : Stash) (res : List Item)
    (h : addFile W k p off forced (Stash.init ns neg consts uid) = (.ok res, u)) (es es' es2 : List Entry) (hf : IncludingFile W p es name es2) (hf' : EntryFile W q es')
    (hp : c!".bb" <:+ abspath W.cwd p) (hq : findLocalOrLayer W name (dirname (abspath W.cwd p)) = .ok q) (hqne : q ≠ []) (hext : (splitext (abspath W.cwd q)).2 ∈ [c!".inc", c!".conf"])
    (hign : ∀ ign, includeIgnore consts = .ok ign → ign.has name = false) (b : J) (hb : setsBase consts = .ok b)
    (jc jv : J) (classes vars : List Str) (hc : imagesClasses consts = .ok jc) (hcl : NamesIn jc classes) (hv : imagesVariables consts = .ok jv) (hvl : NamesIn jv vars) (he : [] ∉ vars) :
    (∃ a, isImage D u (abspath W.cwd p) = .ok a ∧ (a = true ↔ ∃ d ∈ decls es ++ (decls es' ++ decls es2), d.base ∈ vars)) ∧ isPackageGroup D u (abspath W.cwd p) = false := by
  obtain ⟨its, it, R, -, ⟨stmt, m2⟩, m3, -⟩ := include_read' hu h hf hf' hp hq hqne hext hb hign
  have hno : ∀ l, ¬ InheritsOneOf u (abspath W.cwd p) l := by
    rintro l ⟨x, hx, -, ⟨st, cl, fp, hpay⟩, -⟩
    rcases m3 x ((R.items x).1 hx) with rfl | hl
    · rw [m2] at hpay
      cases hpay
    · rw [hpay] at hl
      cases hl
  obtain ⟨i1, i2⟩ := images_same hu h
  obtain ⟨⟨a, h1, h2⟩, h3⟩ := C62_any_collection D u (abspath W.cwd p) classes vars jc jv (abspath_ne_nil W p) (i1.trans hc) hcl (i2.trans hv) hvl he
  refine ⟨⟨a, h1, h2.trans ?_⟩, ?_⟩
  · rw [R.setsOneOf, decls_including]
    exact ⟨fun hh => hh.resolve_left (hno _), .inr⟩
  · rw [Bool.eq_false_iff]
    exact fun hh => hno _ (h3.1 hh)
end

section
attribute [local instance] Sample.asciiUni
open Spec

/-- all hypotheses of C122 hold: the `.bbappend` declares a variable of images -/
example (u : Stash) (h : BothAdded Sample.pkgsPair (Stash.init false false Sample.imageConstants 0) c!"/w/a_1.0.bb" c!"/w/a_%.bbappend" u) (D : World) :
    isImage D u c!"/w/a_1.0.bb" = .ok true ∧ isPackageGroup D u c!"/w/a_1.0.bb" = false := by
  have g1 : EntryFile Sample.pkgsPair c!"/w/a_1.0.bb" (Sample.pkgs.take 1) := entryFile_lines rfl (fun e he => Sample.pkgs_ok e (List.mem_of_mem_take he))
  have g2 : EntryFile Sample.pkgsPair c!"/w/a_%.bbappend" (Sample.pkgs.drop 1) := entryFile_lines rfl (fun e he => Sample.pkgs_ok e (List.mem_of_mem_drop he))
  obtain ⟨⟨a, h1, h2⟩, h3⟩ := C122_appended Sample.pkgsPair D false false Sample.imageConstants Sample.imageConstants_usable 0 _ _ u h _ _ g1 g2 (by decide) c!"a_%" c!"a_1.0"
    ⟨c!"/w", rfl, by decide⟩ ⟨by decide, by decide⟩ ⟨c!"/w", rfl, by decide⟩ (by unfold PlainRecipe; decide)
    (.char (by decide) (by decide) (.char (by decide) (by decide) (.percent (a := c!"1.0") (by decide) .nil))) _ _ [c!"k"] [c!"E"] rfl .list rfl .list (by decide)
  exact ⟨by rw [h2.2 (by decide)] at h1; exact h1, h3⟩

/-- all hypotheses of C122 hold: the included file declares a variable of images -/
example (k : Nat) (off : Int) (u : Stash) (res : List Item) (h : addFile Sample.pkgsInc k c!"/w/a_1.0.bb" off none (Stash.init false false Sample.imageConstants 0) = (.ok res, u)) (D : World) :
    isImage D u c!"/w/a_1.0.bb" = .ok true ∧ isPackageGroup D u c!"/w/a_1.0.bb" = false := by
  have g2 : EntryFile Sample.pkgsInc c!"/w/a.inc" ((Sample.pkgs.drop 1).take 1) := entryFile_lines rfl (fun e he => Sample.pkgs_ok e (List.mem_of_mem_drop (List.mem_of_mem_take he)))
  have hq : findLocalOrLayer Sample.pkgsInc c!"a.inc" (dirname (abspath Sample.pkgsInc.cwd c!"/w/a_1.0.bb")) = .ok c!"/w/a.inc" := by decide +kernel
  have hign : ∀ ign, includeIgnore Sample.imageConstants = .ok ign → ign.has c!"a.inc" = false := by
    intro ign h
    have : (match includeIgnore Sample.imageConstants with | .ok j => j.has c!"a.inc" | _ => false) = false := by decide +kernel
    rw [h] at this
    exact this
  obtain ⟨b, hb, -⟩ := usable_setsBase Sample.imageConstants_usable
  obtain ⟨⟨a, h1, h2⟩, h3⟩ := C122_included Sample.pkgsInc D false false Sample.imageConstants Sample.imageConstants_usable 0 k _ _ _ off none u res h _ _ _ Sample.pkgsInc_file g2 (by decide) hq (by decide)
    (by decide) hign _ hb _ _ [c!"k"] [c!"E"] rfl .list rfl .list (by decide)
  exact ⟨by rw [h2.2 (by decide)] at h1; exact h1, h3⟩

/-- the files can be read -/
example : ∀ c ∈ [(Sample.pkgsPair, [c!"/w/a_1.0.bb", c!"/w/a_%.bbappend"]), (Sample.pkgsPair, [c!"/w/a_%.bbappend", c!"/w/a_1.0.bb"]), (Sample.pkgsInc, [c!"/w/a_1.0.bb"])],
    ((Sample.addAll c.1 c.2 (Stash.init false false Sample.imageConstants 0)).bind fun u => (isImage (Sample.world []) u c!"/w/a_1.0.bb").toOption) = some true := by
  decide +kernel
end
end Oelint

import Verif.Spec.MeaningPackages
import Verif.Props.MeaningInherit
import Verif.Props.Packages
/-! C121: the packages of a recipe follow from its text. -/
set_option linter.unusedSectionVars false
namespace Oelint
section
variable [Uni]
open Spec

section
variable {D : World} {consts : J} {file : Str} {u : Stash} {res : List Item} {es : List Entry} (R : RecipeRead consts file u res es)
include R

/-- the values of the items about a variable are the declared texts -/
theorem RecipeRead.assigned_text {n t : Str} : (∃ v, Assigned u file n v ∧ varValueStripped v = t) ↔ ∃ d ∈ decls es, d.base = n ∧ d.text = t := by
  have key : ∀ {r : List Item} {es : List Entry}, List.Forall₂ EntryItem r es →
      ((∃ x ∈ r, ∃ v, x.payload = .variable v ∧ v.varName = n ∧ varValueStripped v = t) ↔ ∃ d ∈ decls es, d.base = n ∧ d.text = t) := by
    intro r es hE
    induction hE with
    | nil => simp [decls]
    | @cons it e r es hx _ ih =>
      simp only [List.mem_cons, exists_eq_or_imp]
      rw [ih]
      cases hx with
      | @decl d v hv hn hs ht ho hop hb hap hvn =>
        simp only [decls, List.mem_cons, exists_eq_or_imp]
        refine or_congr ?_ Iff.rfl
        rw [hv]
        constructor
        · rintro ⟨v', e, h1, h2⟩
          cases e
          exact ⟨hvn.symm.trans h1, ht.symm.trans h2⟩
        · rintro ⟨h1, h2⟩
          exact ⟨v, rfl, hvn.trans h1, ht.trans h2⟩
      | @other st h =>
        simp only [decls]
        refine ⟨fun hh => ?_, .inr⟩
        rcases hh with ⟨v, hv, -⟩ | hh
        · rw [hv] at h
          exact absurd (by simp [Payload.classifier]) h
        · exact hh
  rw [← key R.entries]
  constructor
  · rintro ⟨v, ⟨x, hx, -, hv, hn⟩, ht⟩
    exact ⟨x, (R.items x).1 hx, v, hv, hn, ht⟩
  · rintro ⟨x, hx, v, hv, hn, ht⟩
    exact ⟨v, ⟨x, (R.items x).2 hx, R.linked x hx, hv, hn⟩, ht⟩

theorem RecipeRead.assigned_texts {names : List Str} {t : Str} : (∃ name ∈ names, ∃ v, Assigned u file name v ∧ varValueStripped v = t) ↔ t ∈ declared names (decls es) := by
  unfold declared
  simp only [List.mem_map, List.mem_filter, List.contains_iff_mem]
  constructor
  · rintro ⟨name, hn, h⟩
    obtain ⟨d, hd, rfl, rfl⟩ := R.assigned_text.1 h
    exact ⟨d, ⟨hd, hn⟩, rfl⟩
  · rintro ⟨d, ⟨hd, hn⟩, rfl⟩
    exact ⟨d.base, hn, R.assigned_text.2 ⟨d, hd, rfl, rfl⟩⟩

variable {b : KV} (hb : setsBase consts = .ok (.dict b)) (hd : ∀ k j, b.get k = some j → ∃ t, j = .str t)
include hb hd

theorem RecipeRead.filledBut {spare : List Str} {t o : Str} (h : FilledBut spare b (decls es) file t o) : Expands D u file spare t o := by
  induction h with
  | nil => exact .nil
  | char hc _ ih => exact .char hc ih
  | dollar hc hc' _ ih => exact .dollar hc hc' ih
  | spared hn hs _ ih => exact .spared hn hs ih
  | text hn hm hs hc h1 _ ih2 => exact .defined hn hm ((R.defined hb hd hn.ne).1 hs) hc (R.filled hb hd h1) ih2
  | name hn hm hs hf ht _ ih => exact .name hn hm (R.undefined hb hd hs) hf ht ih
  | unknown hn hm hs hk _ ih => exact .unknown hn hm ⟨(R.undefined hb hd hs).1, (R.undefined hb hd hs).2, hk⟩ ih

theorem RecipeRead.expandsBut {spare : List Str} {t o : Str} (h : Expands D u file spare t o) : FilledBut spare b (decls es) file t o := by
  have none_of : ∀ n, n ≠ [] → Undefined u file n → stands b (decls es) n = none := by
    intro n hn hun
    cases hs : stands b (decls es) n with
    | none => rfl
    | some t => exact absurd hun (fun hun => defined_not_undefined ((R.defined (D := D) hb hd hn).1 hs) hun)
  induction h with
  | nil => exact .nil
  | char hc _ ih => exact .char hc ih
  | dollar hc hc' _ ih => exact .dollar hc hc' ih
  | spared hn hm _ ih => exact .spared hn hm ih
  | unknown hn hm hu _ ih => exact .unknown hn hm (none_of _ hn.ne ⟨hu.1, hu.2.1⟩) hu.2.2 ih
  | name hn hm hu hf ht _ ih => exact .name hn hm (none_of _ hn.ne hu) hf ht ih
  | defined hn hm hu hc h1 _ _ ih2 => exact .text hn hm ((R.defined hb hd hn.ne).2 hu) hc (R.expands hb hd h1) ih2

/-- the expansion of a text, if no declaration depends on itself -/
theorem RecipeRead.expansion {rank : Str → Nat} (hr : Ranked b (decls es) rank) (hempty : stands b (decls es) [] = none) (hff : ∀ n t, FromFileName file n t → '$' ∉ t)
    (spare : List Str) {value : Str} {names : List Str} (hw : Written value names) (hc : NoCalls value) :
    (∃ o, expandTermS D u file spare value = .ok o) ∧ ∀ o, expandTermS D u file spare value = .ok o ↔ FilledBut spare b (decls es) file value o := by
  have hA : Acyclic D u file rank := by
    intro n t hn
    by_cases hne : n = []
    · subst hne
      exact absurd hempty (R.defined_some hb hd hn)
    · exact hr n t ((R.defined hb hd hne).2 hn)
  obtain ⟨o, h1, h2, h3⟩ := C51_acyclic_definitions D u file spare value names b (R.base.trans hb) hd rank hA hff hw hc
  refine ⟨⟨o, h2⟩, fun o' => ⟨fun h => ?_, fun h => ?_⟩⟩
  · rw [h2] at h
    cases h
    exact R.expandsBut hb hd h1
  · rw [h3 o' (R.filledBut hb hd h)]
    exact h2

/-- the packages, if the stash has the items of these entries -/
theorem RecipeRead.packages (hfile : file ≠ []) {rank : Str → Nat} (hr : Ranked b (decls es) rank) (hempty : stands b (decls es) [] = none) (hff : ∀ n t, FromFileName file n t → '$' ∉ t)
    (hw : ∀ t ∈ declared [c!"PACKAGES", c!"PACKAGE_BEFORE_PN"] (decls es), NoCalls t ∧ ∃ names, Written t names) (strippn : Bool) :
    ∃ r, getValidPackageNames D u file strippn = .ok r ∧ r.Nodup ∧ ∀ x, x ∈ r ↔ ∃ pn ∈ [c!"${PN}", guessRecipeName file], (∃ e ∈ stdEndings, x = pn ++ e) ∨
      ∃ t ∈ declared [c!"PACKAGES", c!"PACKAGE_BEFORE_PN"] (decls es), ∃ o ws w, FilledBut [c!"PN"] b (decls es) file t o ∧ Words Blank o ws ∧ w ∈ ws ∧
        Replaced c!"${PN}" (if strippn then [] else pn) w x := by
  have hx : ∀ t ∈ declared [c!"PACKAGES", c!"PACKAGE_BEFORE_PN"] (decls es), (∃ o, expandTermS D u file [c!"PN"] t = .ok o) ∧
      ∀ o, expandTermS D u file [c!"PN"] t = .ok o ↔ FilledBut [c!"PN"] b (decls es) file t o := by
    intro t ht
    obtain ⟨h1, names, h2⟩ := hw t ht
    exact R.expansion hb hd hr hempty hff _ h2 h1
  obtain ⟨h1, h2⟩ := C60_package_names D u file hfile strippn
  obtain ⟨r, hr⟩ := h1.2 (fun name hn v hv => (hx _ (R.assigned_texts.1 ⟨name, hn, v, hv, rfl⟩)).1)
  obtain ⟨h3, h4⟩ := h2 r hr
  refine ⟨r, hr, h3, fun x => (h4 x).trans ?_⟩
  refine exists_congr fun pn => and_congr Iff.rfl (or_congr Iff.rfl ?_)
  constructor
  · rintro ⟨name, hn, v, hv, o, ws, w, q1, q2⟩
    have hm := R.assigned_texts.1 ⟨name, hn, v, hv, rfl⟩
    exact ⟨_, hm, o, ws, w, ((hx _ hm).2 o).1 q1, q2⟩
  · rintro ⟨t, ht, o, ws, w, q1, q2⟩
    obtain ⟨name, hn, v, hv, rfl⟩ := R.assigned_texts.2 ht
    exact ⟨name, hn, v, hv, o, ws, w, ((hx _ ht).2 o).2 q1, q2⟩

/-- the patterns of dynamic packages -/
theorem RecipeRead.dynamic (hfile : file ≠ []) {rank : Str → Nat} (hr : Ranked b (decls es) rank) (hempty : stands b (decls es) [] = none) (hff : ∀ n t, FromFileName file n t → '$' ∉ t)
    (hw : ∀ t ∈ declared [c!"PACKAGES_DYNAMIC"] (decls es), NoCalls t ∧ ∃ names, Written t names) :
    ∃ r, getPackagesDynamic D u file = .ok r ∧ ∀ x, x ∈ r ↔ ∃ t ∈ declared [c!"PACKAGES_DYNAMIC"] (decls es), ∃ o ps, FilledBut [] b (decls es) file t o ∧ SplitAt Blank o ps ∧ x ∈ ps := by
  have hx' : ∀ t ∈ declared [c!"PACKAGES_DYNAMIC"] (decls es), (∃ o, expandTerm D u file t = .ok o) ∧ ∀ o, expandTerm D u file t = .ok o ↔ FilledBut [] b (decls es) file t o := by
    intro t ht
    obtain ⟨h1, names, h2⟩ := hw t ht
    exact R.expansion hb hd hr hempty hff [] h2 h1
  have hx := fun t ht => (hx' t ht).2
  obtain ⟨r, hres⟩ := (C61_raises D u file hfile).2 (fun v hv => (hx' _ (R.assigned_texts.1 ⟨_, List.mem_singleton.2 rfl, v, hv, rfl⟩)).1)
  refine ⟨r, hres, fun x => ?_⟩
  rw [C61_patterns D u file hfile r hres x]
  constructor
  · rintro ⟨v, o, ps, hv, q1, q2⟩
    have hm := R.assigned_texts.1 ⟨_, List.mem_singleton.2 rfl, v, hv, rfl⟩
    exact ⟨_, hm, o, ps, (hx _ hm o).1 q1, q2⟩
  · rintro ⟨t, ht, o, ps, q1, q2⟩
    obtain ⟨name, hn, v, hv, rfl⟩ := R.assigned_texts.2 ht
    rw [List.mem_singleton] at hn
    subst hn
    exact ⟨v, o, ps, hv, (hx _ ht o).2 q1, q2⟩
end

section
variable {consts : J} {file : Str} {u : Stash} {res : List Item} {es : List Entry} (R : RecipeRead consts file u res es)
include R

theorem RecipeRead.setsOneOf {vars : List Str} : SetsOneOf u file vars ↔ ∃ d ∈ decls es, d.base ∈ vars := by
  constructor
  · rintro ⟨x, hx, hl, v, hv, hn⟩
    obtain ⟨d, hd, h1, -⟩ := R.assigned_text.1 ⟨v, ⟨x, hx, hl, hv, rfl⟩, rfl⟩
    exact ⟨d, hd, h1 ▸ hn⟩
  · rintro ⟨d, hd, hn⟩
    obtain ⟨v, ⟨x, hx, hl, hv, h1⟩, -⟩ := R.assigned_text.2 ⟨d, hd, rfl, rfl⟩
    exact ⟨x, hx, hl, v, hv, h1 ▸ hn⟩
end

theorem images_same {W : World} {ns neg : Bool} {consts : J} (hu : UsableConstants consts) {uid k : Nat} {path : Str} {off : Int} {forced : Option Str} {u : Stash} {res : List Item}
    (h : addFile W k path off forced (Stash.init ns neg consts uid) = (.ok res, u)) : imagesClasses u.consts = imagesClasses consts ∧ imagesVariables u.consts = imagesVariables consts := by
  have c0 : ConstsOf consts (Stash.init ns neg consts uid) := ⟨hu, otherNames_refl _⟩
  have c1 : ConstsOf consts u := by
    have := addFile_constsOf_any (W := W) c0 k path off forced
    rwa [h] at this
  exact ⟨(twin_names W).imgClasses (s' := { (Stash.init ns neg consts uid) with consts := u.consts }) (constsOf_names c0 c1),
    (twin_names W).imgVars (s' := { (Stash.init ns neg consts uid) with consts := u.consts }) (constsOf_names c0 c1)⟩

/-- **C121** A recipe of entries is read into a fresh stash, and no declaration depends on itself. `GetValidPackageNames` gives exactly the standard packages and the words of the texts declared
for `PACKAGES` and `PACKAGE_BEFORE_PN`, with the references but `${PN}` replaced as the declarations say. -/
theorem C121_packages (W D : World) (ns neg : Bool) (consts : J) (hu : UsableConstants consts) (uid k : Nat) (p : Str) (off : Int) (forced : Option Str) (u : Stash) (res : List Item)
    (h : addFile W k p off forced (Stash.init ns neg consts uid) = (.ok res, u)) (es : List Entry) (hf : EntryFile W p es)
    (b : KV) (hb : setsBase consts = .ok (.dict b)) (hd : ∀ k j, b.get k = some j → ∃ t, j = .str t) (rank : Str → Nat) (hr : Ranked b (decls es) rank)
    (hempty : stands b (decls es) [] = none) (hff : ∀ n t, FromFileName (abspath W.cwd p) n t → '$' ∉ t)
    (hw : ∀ t ∈ declared [c!"PACKAGES", c!"PACKAGE_BEFORE_PN"] (decls es), NoCalls t ∧ ∃ names, Written t names) (strippn : Bool) :
    ∃ r, getValidPackageNames D u (abspath W.cwd p) strippn = .ok r ∧ r.Nodup ∧ ∀ x, x ∈ r ↔ ∃ pn ∈ [c!"${PN}", guessRecipeName (abspath W.cwd p)], (∃ e ∈ stdEndings, x = pn ++ e) ∨
      ∃ t ∈ declared [c!"PACKAGES", c!"PACKAGE_BEFORE_PN"] (decls es), ∃ o ws w, FilledBut [c!"PN"] b (decls es) (abspath W.cwd p) t o ∧ Words Blank o ws ∧ w ∈ ws ∧
        Replaced c!"${PN}" (if strippn then [] else pn) w x := by
  obtain ⟨t, ls, gs, f1, f2, f3, f4⟩ := hf.text
  exact (recipe_read hu h f1 f2 f3 f4).packages hb hd (abspath_ne_nil W p) hr hempty hff hw strippn

/-- **C121** (dynamic packages). `GetPackagesDynamic` succeeds and gives exactly what stands between the blanks of the texts declared for `PACKAGES_DYNAMIC`, with the references replaced. -/
theorem C121_dynamic (W D : World) (ns neg : Bool) (consts : J) (hu : UsableConstants consts) (uid k : Nat) (p : Str) (off : Int) (forced : Option Str) (u : Stash) (res : List Item)
    (h : addFile W k p off forced (Stash.init ns neg consts uid) = (.ok res, u)) (es : List Entry) (hf : EntryFile W p es)
    (b : KV) (hb : setsBase consts = .ok (.dict b)) (hd : ∀ k j, b.get k = some j → ∃ t, j = .str t) (rank : Str → Nat) (hr : Ranked b (decls es) rank)
    (hempty : stands b (decls es) [] = none) (hff : ∀ n t, FromFileName (abspath W.cwd p) n t → '$' ∉ t)
    (hw : ∀ t ∈ declared [c!"PACKAGES_DYNAMIC"] (decls es), NoCalls t ∧ ∃ names, Written t names) :
    ∃ r, getPackagesDynamic D u (abspath W.cwd p) = .ok r ∧ ∀ x, x ∈ r ↔ ∃ t ∈ declared [c!"PACKAGES_DYNAMIC"] (decls es), ∃ o ps, FilledBut [] b (decls es) (abspath W.cwd p) t o ∧ SplitAt Blank o ps ∧ x ∈ ps := by
  obtain ⟨t, ls, gs, f1, f2, f3, f4⟩ := hf.text
  exact (recipe_read hu h f1 f2 f3 f4).dynamic hb hd (abspath_ne_nil W p) hr hempty hff hw

/-- **C121** (with a class). The packages of a recipe that inherits one class follow from the declarations of both files. -/
theorem C121_inherited (W D : World) (ns neg : Bool) (consts : J) (hu : UsableConstants consts) (uid k : Nat) (p q name : Str) (off : Int) (forced : Option Str) (u : Stash) (res : List Item)
    (h : addFile W k p off forced (Stash.init ns neg consts uid) = (.ok res, u)) (es es' es2 : List Entry) (hf : InheritingFile W p es name es2) (hf' : EntryFile W q es')
    (hp : c!".bb" <:+ abspath W.cwd p) (hq : ClassFound W (dirname (abspath W.cwd p)) name q) (hext : (splitext (abspath W.cwd q)).2 = c!".bbclass")
    (hign : ∀ ign, classIgnore consts = .ok ign → ign.has name = false)
    (b : KV) (hb : setsBase consts = .ok (.dict b)) (hd : ∀ k j, b.get k = some j → ∃ t, j = .str t) (ds : List Decl) (hds : ds = decls es ++ (decls es' ++ decls es2))
    (rank : Str → Nat) (hr : Ranked b ds rank) (hempty : stands b ds [] = none) (hff : ∀ n t, FromFileName (abspath W.cwd p) n t → '$' ∉ t)
    (hw : ∀ t ∈ declared [c!"PACKAGES", c!"PACKAGE_BEFORE_PN"] ds, NoCalls t ∧ ∃ names, Written t names) (strippn : Bool) :
    ∃ r, getValidPackageNames D u (abspath W.cwd p) strippn = .ok r ∧ r.Nodup ∧ ∀ x, x ∈ r ↔ ∃ pn ∈ [c!"${PN}", guessRecipeName (abspath W.cwd p)], (∃ e ∈ stdEndings, x = pn ++ e) ∨
      ∃ t ∈ declared [c!"PACKAGES", c!"PACKAGE_BEFORE_PN"] ds, ∃ o ws w, FilledBut [c!"PN"] b ds (abspath W.cwd p) t o ∧ Words Blank o ws ∧ w ∈ ws ∧
        Replaced c!"${PN}" (if strippn then [] else pn) w x := by
  obtain ⟨its, R⟩ := inherit_read hu h hf hf' hp hq hext hign
  have e := (decls_including es es' es2).trans hds.symm
  have := R.packages (D := D) hb hd (abspath_ne_nil W p) (by rw [e]; exact hr) (by rw [e]; exact hempty) hff (by rw [e]; exact hw) strippn
  rwa [e] at this

/-- **C121** (with an included file). The packages of a recipe that includes one file follow from the declarations of both files. -/
theorem C121_included (W D : World) (ns neg : Bool) (consts : J) (hu : UsableConstants consts) (uid k : Nat) (p q name : Str) (off : Int) (forced : Option Str) (u : Stash) (res : List Item)
    (h : addFile W k p off forced (Stash.init ns neg consts uid) = (.ok res, u)) (es es' es2 : List Entry) (hf : IncludingFile W p es name es2) (hf' : EntryFile W q es')
    (hp : c!".bb" <:+ abspath W.cwd p) (hq : findLocalOrLayer W name (dirname (abspath W.cwd p)) = .ok q) (hqne : q ≠ []) (hext : (splitext (abspath W.cwd q)).2 ∈ [c!".inc", c!".conf"])
    (hign : ∀ ign, includeIgnore consts = .ok ign → ign.has name = false)
    (b : KV) (hb : setsBase consts = .ok (.dict b)) (hd : ∀ k j, b.get k = some j → ∃ t, j = .str t) (ds : List Decl) (hds : ds = decls es ++ (decls es' ++ decls es2))
    (rank : Str → Nat) (hr : Ranked b ds rank) (hempty : stands b ds [] = none) (hff : ∀ n t, FromFileName (abspath W.cwd p) n t → '$' ∉ t)
    (hw : ∀ t ∈ declared [c!"PACKAGES", c!"PACKAGE_BEFORE_PN"] ds, NoCalls t ∧ ∃ names, Written t names) (strippn : Bool) :
    ∃ r, getValidPackageNames D u (abspath W.cwd p) strippn = .ok r ∧ r.Nodup ∧ ∀ x, x ∈ r ↔ ∃ pn ∈ [c!"${PN}", guessRecipeName (abspath W.cwd p)], (∃ e ∈ stdEndings, x = pn ++ e) ∨
      ∃ t ∈ declared [c!"PACKAGES", c!"PACKAGE_BEFORE_PN"] ds, ∃ o ws w, FilledBut [c!"PN"] b ds (abspath W.cwd p) t o ∧ Words Blank o ws ∧ w ∈ ws ∧
        Replaced c!"${PN}" (if strippn then [] else pn) w x := by
  obtain ⟨its, R⟩ := include_read hu h hf hf' hp hq hqne hext hb hign
  have e := (decls_including es es' es2).trans hds.symm
  have := R.packages (D := D) hb hd (abspath_ne_nil W p) (by rw [e]; exact hr) (by rw [e]; exact hempty) hff (by rw [e]; exact hw) strippn
  rwa [e] at this

/-- **C121** (with a `.bbappend`). The packages of a recipe with its `.bbappend`, added in any order, follow from the declarations of both files. -/
theorem C121_appended (W D : World) (ns neg : Bool) (consts : J) (hu : UsableConstants consts) (uid : Nat) (p q : Str) (u : Stash) (h : BothAdded W (Stash.init ns neg consts uid) p q u)
    (es es' : List Entry) (hf : EntryFile W p es) (hf' : EntryFile W q es') (hne : es ≠ [])
    (stem n : Str) (ha : IsFile (abspath W.cwd q) stem c!".bbappend") (hs : PlainAppend stem) (hx : IsFile (abspath W.cwd p) n c!".bb") (hn : PlainRecipe n) (hg : Glob stem n)
    (b : KV) (hb : setsBase consts = .ok (.dict b)) (hd : ∀ k j, b.get k = some j → ∃ t, j = .str t) (ds : List Decl) (hds : ds = decls es ++ decls es')
    (rank : Str → Nat) (hr : Ranked b ds rank) (hempty : stands b ds [] = none) (hff : ∀ n t, FromFileName (abspath W.cwd p) n t → '$' ∉ t)
    (hw : ∀ t ∈ declared [c!"PACKAGES", c!"PACKAGE_BEFORE_PN"] ds, NoCalls t ∧ ∃ names, Written t names) (strippn : Bool) :
    ∃ r, getValidPackageNames D u (abspath W.cwd p) strippn = .ok r ∧ r.Nodup ∧ ∀ x, x ∈ r ↔ ∃ pn ∈ [c!"${PN}", guessRecipeName (abspath W.cwd p)], (∃ e ∈ stdEndings, x = pn ++ e) ∨
      ∃ t ∈ declared [c!"PACKAGES", c!"PACKAGE_BEFORE_PN"] ds, ∃ o ws w, FilledBut [c!"PN"] b ds (abspath W.cwd p) t o ∧ Words Blank o ws ∧ w ∈ ws ∧
        Replaced c!"${PN}" (if strippn then [] else pn) w x := by
  obtain ⟨its, R⟩ := both_read hu h hf hf' hne ha hs hx hn hg
  have e := (decls_append es es').trans hds.symm
  have := R.packages (D := D) hb hd (abspath_ne_nil W p) (by rw [e]; exact hr) (by rw [e]; exact hempty) hff (by rw [e]; exact hw) strippn
  rwa [e] at this

/-- **C121** (dynamic packages). The patterns of a recipe that inherits one class follow from the declarations of both files. -/
theorem C121_dynamic_inherited (W D : World) (ns neg : Bool) (consts : J) (hu : UsableConstants consts) (uid k : Nat) (p q name : Str) (off : Int) (forced : Option Str) (u : Stash) (res : List Item)
    (h : addFile W k p off forced (Stash.init ns neg consts uid) = (.ok res, u)) (es es' es2 : List Entry) (hf : InheritingFile W p es name es2) (hf' : EntryFile W q es')
    (hp : c!".bb" <:+ abspath W.cwd p) (hq : ClassFound W (dirname (abspath W.cwd p)) name q) (hext : (splitext (abspath W.cwd q)).2 = c!".bbclass")
    (hign : ∀ ign, classIgnore consts = .ok ign → ign.has name = false)
    (b : KV) (hb : setsBase consts = .ok (.dict b)) (hd : ∀ k j, b.get k = some j → ∃ t, j = .str t) (ds : List Decl) (hds : ds = decls es ++ (decls es' ++ decls es2))
    (rank : Str → Nat) (hr : Ranked b ds rank) (hempty : stands b ds [] = none) (hff : ∀ n t, FromFileName (abspath W.cwd p) n t → '$' ∉ t)
    (hw : ∀ t ∈ declared [c!"PACKAGES_DYNAMIC"] ds, NoCalls t ∧ ∃ names, Written t names) :
    ∃ r, getPackagesDynamic D u (abspath W.cwd p) = .ok r ∧ ∀ x, x ∈ r ↔ ∃ t ∈ declared [c!"PACKAGES_DYNAMIC"] ds, ∃ o ps, FilledBut [] b ds (abspath W.cwd p) t o ∧ SplitAt Blank o ps ∧ x ∈ ps := by
  obtain ⟨its, R⟩ := inherit_read hu h hf hf' hp hq hext hign
  have e := (decls_including es es' es2).trans hds.symm
  have := R.dynamic (D := D) hb hd (abspath_ne_nil W p) (by rw [e]; exact hr) (by rw [e]; exact hempty) hff (by rw [e]; exact hw)
  rwa [e] at this

/-- **C121** (dynamic packages). The patterns of a recipe that includes one file follow from the declarations of both files. -/
theorem C121_dynamic_included (W D : World) (ns neg : Bool) (consts : J) (hu : UsableConstants consts) (uid k : Nat) (p q name : Str) (off : Int) (forced : Option Str) (u : Stash) (res : List Item)
    (h : addFile W k p off forced (Stash.init ns neg consts uid) = (.ok res, u)) (es es' es2 : List Entry) (hf : IncludingFile W p es name es2) (hf' : EntryFile W q es')
    (hp : c!".bb" <:+ abspath W.cwd p) (hq : findLocalOrLayer W name (dirname (abspath W.cwd p)) = .ok q) (hqne : q ≠ []) (hext : (splitext (abspath W.cwd q)).2 ∈ [c!".inc", c!".conf"])
    (hign : ∀ ign, includeIgnore consts = .ok ign → ign.has name = false)
    (b : KV) (hb : setsBase consts = .ok (.dict b)) (hd : ∀ k j, b.get k = some j → ∃ t, j = .str t) (ds : List Decl) (hds : ds = decls es ++ (decls es' ++ decls es2))
    (rank : Str → Nat) (hr : Ranked b ds rank) (hempty : stands b ds [] = none) (hff : ∀ n t, FromFileName (abspath W.cwd p) n t → '$' ∉ t)
    (hw : ∀ t ∈ declared [c!"PACKAGES_DYNAMIC"] ds, NoCalls t ∧ ∃ names, Written t names) :
    ∃ r, getPackagesDynamic D u (abspath W.cwd p) = .ok r ∧ ∀ x, x ∈ r ↔ ∃ t ∈ declared [c!"PACKAGES_DYNAMIC"] ds, ∃ o ps, FilledBut [] b ds (abspath W.cwd p) t o ∧ SplitAt Blank o ps ∧ x ∈ ps := by
  obtain ⟨its, R⟩ := include_read hu h hf hf' hp hq hqne hext hb hign
  have e := (decls_including es es' es2).trans hds.symm
  have := R.dynamic (D := D) hb hd (abspath_ne_nil W p) (by rw [e]; exact hr) (by rw [e]; exact hempty) hff (by rw [e]; exact hw)
  rwa [e] at this

/-- **C121** (dynamic packages). The patterns of a recipe with its `.bbappend` follow from the declarations of both files. -/
theorem C121_dynamic_appended (W D : World) (ns neg : Bool) (consts : J) (hu : UsableConstants consts) (uid : Nat) (p q : Str) (u : Stash) (h : BothAdded W (Stash.init ns neg consts uid) p q u)
    (es es' : List Entry) (hf : EntryFile W p es) (hf' : EntryFile W q es') (hne : es ≠ [])
    (stem n : Str) (ha : IsFile (abspath W.cwd q) stem c!".bbappend") (hs : PlainAppend stem) (hx : IsFile (abspath W.cwd p) n c!".bb") (hn : PlainRecipe n) (hg : Glob stem n)
    (b : KV) (hb : setsBase consts = .ok (.dict b)) (hd : ∀ k j, b.get k = some j → ∃ t, j = .str t) (ds : List Decl) (hds : ds = decls es ++ decls es')
    (rank : Str → Nat) (hr : Ranked b ds rank) (hempty : stands b ds [] = none) (hff : ∀ n t, FromFileName (abspath W.cwd p) n t → '$' ∉ t)
    (hw : ∀ t ∈ declared [c!"PACKAGES_DYNAMIC"] ds, NoCalls t ∧ ∃ names, Written t names) :
    ∃ r, getPackagesDynamic D u (abspath W.cwd p) = .ok r ∧ ∀ x, x ∈ r ↔ ∃ t ∈ declared [c!"PACKAGES_DYNAMIC"] ds, ∃ o ps, FilledBut [] b ds (abspath W.cwd p) t o ∧ SplitAt Blank o ps ∧ x ∈ ps := by
  obtain ⟨its, R⟩ := both_read hu h hf hf' hne ha hs hx hn hg
  have e := (decls_append es es').trans hds.symm
  have := R.dynamic (D := D) hb hd (abspath_ne_nil W p) (by rw [e]; exact hr) (by rw [e]; exact hempty) hff (by rw [e]; exact hw)
  rwa [e] at this

/-- **C122** A recipe of entries, read into a fresh stash, is an image exactly if it declares one of the variables of images, and is no package group. -/
theorem C122_plain (W D : World) (ns neg : Bool) (consts : J) (hu : UsableConstants consts) (uid k : Nat) (p : Str) (off : Int) (forced : Option Str) (u : Stash) (res : List Item)
    (h : addFile W k p off forced (Stash.init ns neg consts uid) = (.ok res, u)) (es : List Entry) (hf : EntryFile W p es)
    (jc jv : J) (classes vars : List Str) (hc : imagesClasses consts = .ok jc) (hcl : NamesIn jc classes) (hv : imagesVariables consts = .ok jv) (hvl : NamesIn jv vars) (he : [] ∉ vars) :
    (∃ a, isImage D u (abspath W.cwd p) = .ok a ∧ (a = true ↔ ∃ d ∈ decls es, d.base ∈ vars)) ∧ isPackageGroup D u (abspath W.cwd p) = false := by
  obtain ⟨t, ls, gs, f1, f2, f3, f4⟩ := hf.text
  have R := recipe_read hu h f1 f2 f3 f4
  have hnew : alreadySeen (Stash.init ns neg consts uid) (abspath W.cwd p) = false := by simp [alreadySeen, Stash.init]
  have hreal := (C08_chunk_boundaries W k p off forced _ _ res t h hnew f1 ls _ f2).2 f3
  have hE := entries_of h hnew f1 gs es res (fun _ hx => hx) hreal f4
  have hno : ∀ l, ¬ InheritsOneOf u (abspath W.cwd p) l := by
    rintro l ⟨x, hx, -, ⟨st, cl, fp, hpay⟩, -⟩
    obtain ⟨e, -, -, h2⟩ := forall₂_left hE ((R.items x).1 hx)
    rw [hpay] at h2
    cases h2
  obtain ⟨i1, i2⟩ := images_same hu h
  obtain ⟨⟨a, h1, h2⟩, h3⟩ := C62_any_collection D u (abspath W.cwd p) classes vars jc jv (abspath_ne_nil W p) (i1.trans hc) hcl (i2.trans hv) hvl he
  refine ⟨⟨a, h1, h2.trans ?_⟩, ?_⟩
  · rw [R.setsOneOf]
    exact ⟨fun hh => hh.resolve_left (hno _), .inr⟩
  · rw [Bool.eq_false_iff]
    exact fun hh => hno _ (h3.1 hh)

/-- a name without separators is one item -/
theorem safeLinesplit_word {name : Str} (hn : name ≠ []) (hs : ∀ c ∈ name, reSpace c = false ∧ c ≠ contMark) : safeLinesplit name = [name] := by
  rw [safeLinesplit_iff]
  have := Tokens.token (w := name) (t := []) (ts := []) hn (by
    rintro a c r e (h1 | h1)
    · rw [(hs c (by rw [e]; simp)).1] at h1; cases h1
    · exact (hs c (by rw [e]; simp)).2 h1.1) (by rintro c u ⟨⟩) .nil
  rwa [List.append_nil] at this

/-- **C122** (with a class). A recipe that inherits one class of entries is an image exactly if the class is one of the classes of images, or one of the files declares one of the variables of
images. It is a package group exactly if the class is `packagegroup`. -/
theorem C122_inherited (W D : World) (ns neg : Bool) (consts : J) (hu : UsableConstants consts) (uid k : Nat) (p q name : Str) (off : Int) (forced : Option Str) (u : Stash) (res : List Item)
    (h : addFile W k p off forced (Stash.init ns neg consts uid) = (.ok res, u)) (es es' es2 : List Entry) (hf : InheritingFile W p es name es2) (hf' : EntryFile W q es')
    (hp : c!".bb" <:+ abspath W.cwd p) (hq : ClassFound W (dirname (abspath W.cwd p)) name q) (hext : (splitext (abspath W.cwd q)).2 = c!".bbclass")
    (hign : ∀ ign, classIgnore consts = .ok ign → ign.has name = false) (hname : ∀ c ∈ name, reSpace c = false ∧ c ≠ contMark)
    (jc jv : J) (classes vars : List Str) (hc : imagesClasses consts = .ok jc) (hcl : NamesIn jc classes) (hv : imagesVariables consts = .ok jv) (hvl : NamesIn jv vars) (he : [] ∉ vars) :
    (∃ a, isImage D u (abspath W.cwd p) = .ok a ∧ (a = true ↔ name ∈ classes ∨ ∃ d ∈ decls es ++ (decls es' ++ decls es2), d.base ∈ vars)) ∧
    (isPackageGroup D u (abspath W.cwd p) = true ↔ name = c!"packagegroup") := by
  obtain ⟨its, it, R, m1, ⟨stmt, m2⟩, m3, -⟩ := inherit_read' hu h hf hf' hp hq hext hign
  have hitems : it.getItems = [name] := by
    unfold Item.getItems
    rw [m2]
    exact safeLinesplit_word hf.name.1 hname
  have hin : ∀ l, InheritsOneOf u (abspath W.cwd p) l ↔ name ∈ l := by
    intro l
    constructor
    · rintro ⟨x, hx, -, ⟨st, cl, fp, hpay⟩, c, hc, hcl⟩
      rcases m3 x ((R.items x).1 hx) with rfl | hl
      · rw [hitems, List.mem_singleton] at hc
        exact hc ▸ hcl
      · rw [hpay] at hl
        cases hl
    · exact fun hl => ⟨it, (R.items it).2 m1, R.linked it m1, ⟨_, _, _, m2⟩, name, by rw [hitems]; simp, hl⟩
  obtain ⟨i1, i2⟩ := images_same hu h
  obtain ⟨⟨a, h1, h2⟩, h3⟩ := C62_any_collection D u (abspath W.cwd p) classes vars jc jv (abspath_ne_nil W p) (i1.trans hc) hcl (i2.trans hv) hvl he
  refine ⟨⟨a, h1, h2.trans ?_⟩, ?_⟩
  · rw [R.setsOneOf, hin, decls_including]
  · rw [h3, hin]; simp
end

section
attribute [local instance] Sample.asciiUni
open Spec

/-- a declaration without overrides -/
theorem Sample.entryNamed {n op t : Str} (h1 : CapitalName n) (h3 : (∀ x ∈ n, NameChar x) ∧ n.getLast? ≠ some ':' ∧ n.getLast? ≠ some '.' ∧ n ∉ keywords ∧ n ≠ [] ∧ n.head? ≠ some 'i')
    (h4 : op ∈ operators) (h6 : '"' ∉ t ∧ '\n' ∉ t ∧ '!' ∉ t) : (Entry.decl ⟨n, [], op, t⟩).Ok := by
  obtain ⟨n1, n2, n3, n4, n5, n6⟩ := h3
  refine ⟨⟨rfl, ⟨n5, n1, ⟨n2, n3⟩, n4, ?_⟩, h4, by unfold Blanks; decide, by unfold Blanks; decide, by simpa using h6.2.1, by simp [reSpace]⟩,
    ⟨h1, by rintro o ⟨⟩⟩, by rintro ⟨⟨⟩, -⟩, fun h => h6.1 (List.mem_of_head? h), fun h => h6.1 (List.mem_of_getLast? h), ?_⟩
  · intro k e
    show False
    have e : n = _ := e
    rw [e] at n6
    exact n6 rfl
  · rintro ⟨a, b, e⟩
    exact h6.2.2 (show '!' ∈ Decl.text ⟨n, [], op, t⟩ by rw [← e]; simp)

theorem Sample.capital (c : Char) (t : Str) (h : (∀ x ∈ c :: t, 'A' ≤ x ∧ x ≤ 'Z') ∧ c :: t ≠ c!"INHERIT" ∧ '_' ∉ c :: t) : CapitalName (c :: t) :=
  ⟨fun x hx => .inl (h.1 x hx), ⟨[c :: t], ⟨by simp, rfl, by simpa using h.2.2⟩, by
    rintro p hp
    obtain rfl := List.mem_singleton.1 hp
    exact ⟨c, t, rfl, h.1 c (by simp)⟩⟩, h.2.1, fun e => h.2.2 (by rw [e]; decide)⟩

/-- a recipe with packages -/
def Sample.pkgs : List Entry := [ .decl ⟨c!"PACKAGES", [], c!"=+", c!"${PN}-x ${E}"⟩, .decl ⟨c!"E", [], c!"=", c!"e1 e2"⟩, .decl ⟨c!"PACKAGES", [], c!"+=", c!"y"⟩ ]
/-- the disk with this recipe -/
def Sample.pkgsDisk : World := Sample.world [(c!"/w/a_1.0.bb", (Sample.pkgs.map (fun e => e.stmt.text ++ c!"\n")).flatten)]

theorem Sample.pkgs_ok : ∀ e ∈ Sample.pkgs, e.Ok ∧ OneLine e.stmt.text ∧ ¬ c!"${@" <:+: e.stmt.text := by
  have hin : ∀ e ∈ Sample.pkgs, '@' ∉ e.stmt.text := by decide +kernel
  have hone : ∀ e ∈ Sample.pkgs, (∀ c ∈ e.stmt.text, c ≠ '\n' ∧ c ≠ '\r' ∧ c ≠ '\\' ∧ c ≠ '(') ∧ e.stmt.text.head? ≠ some '#' ∧
      ¬ c!"def " <+: (e.stmt.text ++ c!"\n").dropWhile pySpace := by decide +kernel
  intro e he
  refine ⟨?_, oneLine_of_chars (hone e he).1 (hone e he).2.1 (hone e he).2.2, ?_⟩
  · simp only [Sample.pkgs, List.mem_cons, List.not_mem_nil, or_false] at he
    rcases he with rfl | rfl | rfl
    · exact Sample.entryNamed (Sample.capital 'P' c!"ACKAGES" (by decide)) (by decide) (by decide) (by decide)
    · exact Sample.entryNamed (Sample.capital 'E' [] (by decide)) (by decide) (by decide) (by decide)
    · exact Sample.entryNamed (Sample.capital 'P' c!"ACKAGES" (by decide)) (by decide) (by decide) (by decide)
  · rintro ⟨a, b, e'⟩
    exact hin e he (by rw [← e']; simp)

/-- no declaration of the recipe depends on itself -/
theorem Sample.pkgs_ranked : Ranked .nil (decls Sample.pkgs) (fun _ => 0) := by
  have hst : ∀ n t, stands .nil (decls Sample.pkgs) n = some t → n = c!"E" ∧ t = c!"e1 e2" := by
    intro n t h
    by_cases hB : n = c!"E"
    · subst hB
      exact ⟨rfl, (Option.some.inj (h.symm.trans (by decide : stands .nil (decls Sample.pkgs) c!"E" = some c!"e1 e2")))⟩
    · exfalso
      have : (decls Sample.pkgs).find? (Decl.gives n) = none := by
        refine List.find?_eq_none.2 fun d hd => ?_
        have hbase : d.base = c!"E" ∨ ∀ m, Decl.gives m d ≠ true := by
          revert d
          simp [Sample.pkgs, decls, Decl.gives]
        rcases hbase with e | e
        · unfold Decl.gives
          rw [e]
          simp [Ne.symm hB]
        · exact e n
      unfold stands at h
      rw [this] at h
      cases h
  intro n t h
  obtain ⟨rfl, rfl⟩ := hst n t h
  exact ⟨⟨by decide +kernel, by unfold ReadsFile; decide +kernel⟩, [], .char (by decide) (.char (by decide) (.char (by decide) (.char (by decide) (.char (by decide) .nil)))), by decide⟩

/-- all hypotheses of C121 hold for this recipe -/
example (k : Nat) (off : Int) (u : Stash) (res : List Item) (h : addFile Sample.pkgsDisk k c!"/w/a_1.0.bb" off none (Stash.init false false Sample.constants 0) = (.ok res, u)) (D : World) :
    ∃ r, getValidPackageNames D u c!"/w/a_1.0.bb" false = .ok r ∧ c!"a-x" ∈ r ∧ c!"e2" ∈ r ∧ c!"a-dev" ∈ r := by
  have hb : setsBase Sample.constants = .ok J.empty := Sample.emptyBase (u := Stash.init false false Sample.constants 0) (by decide +kernel)
  have hff : ∀ n t, FromFileName c!"/w/a_1.0.bb" n t → '$' ∉ t := by
    intro n t h
    cases h with
    | pv h1 => rw [show guessRecipeVersion c!"/w/a_1.0.bb" = some c!"1.0" by decide +kernel] at h1; cases h1; decide
    | _ => decide +kernel
  obtain ⟨r, h1, -, h2⟩ := C121_packages Sample.pkgsDisk D false false Sample.constants Sample.usableConstants 0 k c!"/w/a_1.0.bb" off none u res h Sample.pkgs
    (entryFile_lines rfl Sample.pkgs_ok) .nil hb (by rintro k j ⟨⟩) _ Sample.pkgs_ranked (by decide) hff (by
      have : declared [c!"PACKAGES", c!"PACKAGE_BEFORE_PN"] (decls Sample.pkgs) = [c!"${PN}-x ${E}", c!"y"] := by decide
      rw [this]
      intro t ht
      simp only [List.mem_cons, List.not_mem_nil, or_false] at ht
      rcases ht with rfl | rfl
      · exact ⟨⟨by decide +kernel, by unfold ReadsFile; decide +kernel⟩, _, .ref (n := c!"PN") (r := c!"-x ${E}") (Sample.name _ (by decide))
          (.char (by decide) (.char (by decide) (.char (by decide) (.ref (n := c!"E") (r := []) (Sample.name _ (by decide)) .nil))))⟩
      · exact ⟨⟨by decide +kernel, by unfold ReadsFile; decide +kernel⟩, _, .char (by decide) .nil⟩) false
  have f1 : FilledBut [c!"PN"] .nil (decls Sample.pkgs) c!"/w/a_1.0.bb" c!"${PN}-x ${E}" c!"${PN}-x e1 e2" :=
    .spared (n := c!"PN") (r := c!"-x ${E}") (o := c!"-x e1 e2") (Sample.name _ (by decide)) (by decide) (.char (by decide) (.char (by decide) (.char (by decide)
      (.text (n := c!"E") (t := c!"e1 e2") (v := c!"e1 e2") (r := []) (o := []) (Sample.name _ (by decide)) (by decide) (by decide) ⟨by decide +kernel, by unfold ReadsFile; decide +kernel⟩
        (.char (by decide) (.char (by decide) (.char (by decide) (.char (by decide) (.char (by decide) .nil))))) .nil))))
  have f2 : Words Blank c!"${PN}-x e1 e2" [c!"${PN}-x", c!"e1", c!"e2"] :=
    .word (w := c!"${PN}-x") (s := c!" e1 e2") (by decide) (by unfold Blank; decide) (by unfold Blank; decide) (.skip (by unfold Blank; decide) (.word (w := c!"e1") (s := c!" e2") (by decide) (by unfold Blank; decide) (by unfold Blank; decide) (.skip (by unfold Blank; decide)
      (.word (w := c!"e2") (s := []) (by decide) (by unfold Blank; decide) (by unfold Blank; decide) .nil))))
  refine ⟨r, h1, (h2 _).2 ⟨c!"a", by decide +kernel, .inr ⟨_, by decide, _, _, c!"${PN}-x", f1, f2, by decide, ?_⟩⟩,
    (h2 _).2 ⟨c!"a", by decide +kernel, .inr ⟨_, by decide, _, _, c!"e2", f1, f2, by decide, .none (by decide +kernel)⟩⟩, (h2 _).2 ⟨c!"a", by decide +kernel, .inl ⟨c!"-dev", by decide, rfl⟩⟩⟩
  exact .some (a := []) (b := c!"-x") (b' := c!"-x") (by decide) (.none (by decide +kernel))

/-- the recipe can be read -/
example : ((Sample.addAll Sample.pkgsDisk [c!"/w/a_1.0.bb"] (Stash.init false false Sample.constants 0)).bind fun u =>
    (getValidPackageNames (Sample.world []) u c!"/w/a_1.0.bb" false).toOption.map (fun r => (c!"a-x" ∈ r ∧ c!"e2" ∈ r ∧ c!"y" ∈ r ∧ c!"x" ∉ r : Bool))) = some true := by
  decide +kernel

/-- the first declaration of this recipe in a recipe, the others in its `.bbappend` -/
def Sample.pkgsPair : World := Sample.world [(c!"/w/a_1.0.bb", ((Sample.pkgs.take 1).map (fun e => e.stmt.text ++ c!"\n")).flatten),
  (c!"/w/a_%.bbappend", ((Sample.pkgs.drop 1).map (fun e => e.stmt.text ++ c!"\n")).flatten)]

theorem Sample.pkgs_written : ∀ t ∈ declared [c!"PACKAGES", c!"PACKAGE_BEFORE_PN"] (decls Sample.pkgs), NoCalls t ∧ ∃ names, Written t names := by
  have : declared [c!"PACKAGES", c!"PACKAGE_BEFORE_PN"] (decls Sample.pkgs) = [c!"${PN}-x ${E}", c!"y"] := by decide
  rw [this]
  intro t ht
  simp only [List.mem_cons, List.not_mem_nil, or_false] at ht
  rcases ht with rfl | rfl
  · exact ⟨⟨by decide +kernel, by unfold ReadsFile; decide +kernel⟩, _, .ref (n := c!"PN") (r := c!"-x ${E}") (Sample.name _ (by decide))
      (.char (by decide) (.char (by decide) (.char (by decide) (.ref (n := c!"E") (r := []) (Sample.name _ (by decide)) .nil))))⟩
  · exact ⟨⟨by decide +kernel, by unfold ReadsFile; decide +kernel⟩, _, .char (by decide) .nil⟩

/-- all hypotheses of C121 hold for these two files: the package of the `.bbappend` is a package of the recipe -/
example (u : Stash) (h : BothAdded Sample.pkgsPair (Stash.init false false Sample.constants 0) c!"/w/a_1.0.bb" c!"/w/a_%.bbappend" u) (D : World) :
    ∃ r, getValidPackageNames D u c!"/w/a_1.0.bb" false = .ok r ∧ c!"y" ∈ r ∧ c!"a-dev" ∈ r := by
  have hb : setsBase Sample.constants = .ok J.empty := Sample.emptyBase (u := Stash.init false false Sample.constants 0) (by decide +kernel)
  have hff : ∀ n t, FromFileName c!"/w/a_1.0.bb" n t → '$' ∉ t := by
    intro n t h
    cases h with
    | pv h1 => rw [show guessRecipeVersion c!"/w/a_1.0.bb" = some c!"1.0" by decide +kernel] at h1; cases h1; decide
    | _ => decide +kernel
  have g1 : EntryFile Sample.pkgsPair c!"/w/a_1.0.bb" (Sample.pkgs.take 1) := entryFile_lines rfl (fun e he => Sample.pkgs_ok e (List.mem_of_mem_take he))
  have g2 : EntryFile Sample.pkgsPair c!"/w/a_%.bbappend" (Sample.pkgs.drop 1) := entryFile_lines rfl (fun e he => Sample.pkgs_ok e (List.mem_of_mem_drop he))
  obtain ⟨r, h1, -, h2⟩ := C121_appended Sample.pkgsPair D false false Sample.constants Sample.usableConstants 0 _ _ u h _ _ g1 g2 (by decide) c!"a_%" c!"a_1.0" ⟨c!"/w", rfl, by decide⟩
    ⟨by decide, by decide⟩ ⟨c!"/w", rfl, by decide⟩ (by unfold PlainRecipe; decide) (.char (by decide) (by decide) (.char (by decide) (by decide) (.percent (a := c!"1.0") (by decide) .nil)))
    .nil hb (by rintro k j ⟨⟩) (decls Sample.pkgs) rfl _ Sample.pkgs_ranked (by decide) hff Sample.pkgs_written false
  have f1 : FilledBut [c!"PN"] .nil (decls Sample.pkgs) c!"/w/a_1.0.bb" c!"y" c!"y" := .char (by decide) .nil
  have f2 : Words Blank c!"y" [c!"y"] := .word (w := c!"y") (s := []) (by decide) (by unfold Blank; decide) (by unfold Blank; decide) .nil
  exact ⟨r, h1, (h2 _).2 ⟨c!"a", by decide +kernel, .inr ⟨c!"y", by decide, _, _, c!"y", f1, f2, by decide, .none (by decide +kernel)⟩⟩, (h2 _).2 ⟨c!"a", by decide +kernel, .inl ⟨c!"-dev", by decide, rfl⟩⟩⟩

/-- both orders can be read -/
example : ∀ ps ∈ [[c!"/w/a_1.0.bb", c!"/w/a_%.bbappend"], [c!"/w/a_%.bbappend", c!"/w/a_1.0.bb"]], ((Sample.addAll Sample.pkgsPair ps (Stash.init false false Sample.constants 0)).bind fun u =>
    (getValidPackageNames (Sample.world []) u c!"/w/a_1.0.bb" false).toOption.map (fun r => (c!"a-x" ∈ r ∧ c!"e2" ∈ r ∧ c!"y" ∈ r ∧ c!"x" ∉ r : Bool))) = some true := by
  decide +kernel

/-- the second declaration of this recipe in an included file -/
def Sample.pkgsInc : World := Sample.world [(c!"/w/a_1.0.bb", ((Sample.pkgs.take 1).map (fun e => e.stmt.text ++ c!"\n")).flatten ++ c!"require a.inc\n" ++ ((Sample.pkgs.drop 2).map (fun e => e.stmt.text ++ c!"\n")).flatten),
  (c!"/w/a.inc", (((Sample.pkgs.drop 1).take 1).map (fun e => e.stmt.text ++ c!"\n")).flatten)]

theorem Sample.pkgsInc_file : IncludingFile Sample.pkgsInc c!"/w/a_1.0.bb" (Sample.pkgs.take 1) c!"a.inc" (Sample.pkgs.drop 2) := by
  refine includingFile_lines (stmt := c!"require") (ws := c!" ") rfl (fun e he => Sample.pkgs_ok e ((List.mem_append.1 he).elim List.mem_of_mem_take List.mem_of_mem_drop)) ⟨oneLine_of_chars (by decide) (by decide) (by decide), ?_⟩
    (.inr rfl) ⟨by decide, by decide⟩ ⟨by decide, by decide, by decide, by decide⟩
  rintro ⟨a, b, e'⟩
  have h1 : '@' ∈ c!"require" ++ (c!" " ++ c!"a.inc") := by rw [← e']; simp
  revert h1; decide

/-- all hypotheses of C121 hold for these two files -/
example (k : Nat) (off : Int) (u : Stash) (res : List Item) (h : addFile Sample.pkgsInc k c!"/w/a_1.0.bb" off none (Stash.init false false Sample.constants 0) = (.ok res, u)) (D : World) :
    ∃ r, getValidPackageNames D u c!"/w/a_1.0.bb" false = .ok r ∧ c!"y" ∈ r ∧ c!"a-dev" ∈ r := by
  have hb : setsBase Sample.constants = .ok J.empty := Sample.emptyBase (u := Stash.init false false Sample.constants 0) (by decide +kernel)
  have hff : ∀ n t, FromFileName c!"/w/a_1.0.bb" n t → '$' ∉ t := by
    intro n t h
    cases h with
    | pv h1 => rw [show guessRecipeVersion c!"/w/a_1.0.bb" = some c!"1.0" by decide +kernel] at h1; cases h1; decide
    | _ => decide +kernel
  have g2 : EntryFile Sample.pkgsInc c!"/w/a.inc" ((Sample.pkgs.drop 1).take 1) := entryFile_lines rfl (fun e he => Sample.pkgs_ok e (List.mem_of_mem_drop (List.mem_of_mem_take he)))
  have hq : findLocalOrLayer Sample.pkgsInc c!"a.inc" (dirname (abspath Sample.pkgsInc.cwd c!"/w/a_1.0.bb")) = .ok c!"/w/a.inc" := by decide +kernel
  have hign : ∀ ign, includeIgnore Sample.constants = .ok ign → ign.has c!"a.inc" = false := by
    intro ign h
    have : (match includeIgnore Sample.constants with | .ok j => j.has c!"a.inc" | _ => false) = false := by decide +kernel
    rw [h] at this
    exact this
  obtain ⟨r, h1, -, h2⟩ := C121_included Sample.pkgsInc D false false Sample.constants Sample.usableConstants 0 k _ _ _ off none u res h _ _ _ Sample.pkgsInc_file g2 (by decide) hq (by decide) (by decide) hign
    .nil hb (by rintro k j ⟨⟩) (decls Sample.pkgs) rfl _ Sample.pkgs_ranked (by decide) hff Sample.pkgs_written false
  have f1 : FilledBut [c!"PN"] .nil (decls Sample.pkgs) c!"/w/a_1.0.bb" c!"y" c!"y" := .char (by decide) .nil
  have f2 : Words Blank c!"y" [c!"y"] := .word (w := c!"y") (s := []) (by decide) (by unfold Blank; decide) (by unfold Blank; decide) .nil
  exact ⟨r, h1, (h2 _).2 ⟨c!"a", by decide +kernel, .inr ⟨c!"y", by decide, _, _, c!"y", f1, f2, by decide, .none (by decide +kernel)⟩⟩, (h2 _).2 ⟨c!"a", by decide +kernel, .inl ⟨c!"-dev", by decide, rfl⟩⟩⟩

/-- the files can be read -/
example : ((Sample.addAll Sample.pkgsInc [c!"/w/a_1.0.bb"] (Stash.init false false Sample.constants 0)).bind fun u =>
    (getValidPackageNames (Sample.world []) u c!"/w/a_1.0.bb" false).toOption.map (fun r => (c!"a-x" ∈ r ∧ c!"e2" ∈ r ∧ c!"y" ∈ r ∧ c!"x" ∉ r : Bool))) = some true := by
  decide +kernel

/-- a recipe with patterns of packages -/
def Sample.dyn : List Entry := [ .decl ⟨c!"PACKAGES_DYNAMIC", [], c!"+=", c!"${E}-x"⟩, .decl ⟨c!"E", [], c!"=", c!"e"⟩, .decl ⟨c!"PACKAGES_DYNAMIC", [], c!"+=", c!"y z"⟩ ]
/-- the disk with this recipe -/
def Sample.dynDisk : World := Sample.world [(c!"/w/a_1.0.bb", (Sample.dyn.map (fun e => e.stmt.text ++ c!"\n")).flatten)]
/-- its first declaration in a recipe, the others in its `.bbappend` -/
def Sample.dynPair : World := Sample.world [(c!"/w/a_1.0.bb", ((Sample.dyn.take 1).map (fun e => e.stmt.text ++ c!"\n")).flatten),
  (c!"/w/a_%.bbappend", ((Sample.dyn.drop 1).map (fun e => e.stmt.text ++ c!"\n")).flatten)]

theorem Sample.dyn_ok : ∀ e ∈ Sample.dyn, e.Ok ∧ OneLine e.stmt.text ∧ ¬ c!"${@" <:+: e.stmt.text := by
  have hin : ∀ e ∈ Sample.dyn, '@' ∉ e.stmt.text := by decide +kernel
  have hone : ∀ e ∈ Sample.dyn, (∀ c ∈ e.stmt.text, c ≠ '\n' ∧ c ≠ '\r' ∧ c ≠ '\\' ∧ c ≠ '(') ∧ e.stmt.text.head? ≠ some '#' ∧
      ¬ c!"def " <+: (e.stmt.text ++ c!"\n").dropWhile pySpace := by decide +kernel
  have hcap : CapitalName c!"PACKAGES_DYNAMIC" := ⟨by decide, ⟨[c!"PACKAGES", c!"DYNAMIC"], ⟨by decide, rfl, by decide⟩, by
    intro p hp
    simp only [List.mem_cons, List.not_mem_nil, or_false] at hp
    rcases hp with rfl | rfl
    · exact ⟨_, _, rfl, by decide⟩
    · exact ⟨_, _, rfl, by decide⟩⟩, by decide⟩
  intro e he
  refine ⟨?_, oneLine_of_chars (hone e he).1 (hone e he).2.1 (hone e he).2.2, ?_⟩
  · simp only [Sample.dyn, List.mem_cons, List.not_mem_nil, or_false] at he
    rcases he with rfl | rfl | rfl
    · exact Sample.entryNamed hcap (by decide) (by decide) (by decide)
    · exact Sample.entryNamed (Sample.capital 'E' [] (by decide)) (by decide) (by decide) (by decide)
    · exact Sample.entryNamed hcap (by decide) (by decide) (by decide)
  · rintro ⟨a, b, e'⟩
    exact hin e he (by rw [← e']; simp)

/-- no declaration of the recipe depends on itself -/
theorem Sample.dyn_ranked : Ranked .nil (decls Sample.dyn) (fun _ => 0) := by
  have hst : ∀ n t, stands .nil (decls Sample.dyn) n = some t → n = c!"E" ∧ t = c!"e" := by
    intro n t h
    by_cases hB : n = c!"E"
    · subst hB
      exact ⟨rfl, (Option.some.inj (h.symm.trans (by decide : stands .nil (decls Sample.dyn) c!"E" = some c!"e")))⟩
    · exfalso
      have : (decls Sample.dyn).find? (Decl.gives n) = none := by
        refine List.find?_eq_none.2 fun d hd => ?_
        have hbase : d.base = c!"E" ∨ ∀ m, Decl.gives m d ≠ true := by
          revert d
          simp [Sample.dyn, decls, Decl.gives]
        rcases hbase with e | e
        · unfold Decl.gives
          rw [e]
          simp [Ne.symm hB]
        · exact e n
      unfold stands at h
      rw [this] at h
      cases h
  intro n t h
  obtain ⟨rfl, rfl⟩ := hst n t h
  exact ⟨⟨by decide +kernel, by unfold ReadsFile; decide +kernel⟩, [], .char (by decide) .nil, by decide⟩

theorem Sample.dyn_written : ∀ t ∈ declared [c!"PACKAGES_DYNAMIC"] (decls Sample.dyn), NoCalls t ∧ ∃ names, Written t names := by
  have : declared [c!"PACKAGES_DYNAMIC"] (decls Sample.dyn) = [c!"${E}-x", c!"y z"] := by decide
  rw [this]
  intro t ht
  simp only [List.mem_cons, List.not_mem_nil, or_false] at ht
  rcases ht with rfl | rfl
  · exact ⟨⟨by decide +kernel, by unfold ReadsFile; decide +kernel⟩, _, .ref (n := c!"E") (r := c!"-x") (Sample.name _ (by decide)) (.char (by decide) (.char (by decide) .nil))⟩
  · exact ⟨⟨by decide +kernel, by unfold ReadsFile; decide +kernel⟩, _, .char (by decide) (.char (by decide) (.char (by decide) .nil))⟩

theorem Sample.dyn_filled : FilledBut [] .nil (decls Sample.dyn) c!"/w/a_1.0.bb" c!"${E}-x" c!"e-x" :=
  .text (n := c!"E") (t := c!"e") (v := c!"e") (r := c!"-x") (o := c!"-x") (Sample.name _ (by decide)) (by decide) (by decide) ⟨by decide +kernel, by unfold ReadsFile; decide +kernel⟩
    (.char (by decide) .nil) (.char (by decide) (.char (by decide) .nil))

theorem Sample.dyn_names : ∀ n t, FromFileName c!"/w/a_1.0.bb" n t → '$' ∉ t := by
  intro n t h
  cases h with
  | pv h1 => rw [show guessRecipeVersion c!"/w/a_1.0.bb" = some c!"1.0" by decide +kernel] at h1; cases h1; decide
  | _ => decide +kernel

/-- all hypotheses of C121 hold for the patterns of this recipe -/
example (k : Nat) (off : Int) (u : Stash) (res : List Item) (h : addFile Sample.dynDisk k c!"/w/a_1.0.bb" off none (Stash.init false false Sample.constants 0) = (.ok res, u)) (D : World) :
    ∃ r, getPackagesDynamic D u c!"/w/a_1.0.bb" = .ok r ∧ c!"e-x" ∈ r ∧ c!"z" ∈ r := by
  have hb : setsBase Sample.constants = .ok J.empty := Sample.emptyBase (u := Stash.init false false Sample.constants 0) (by decide +kernel)
  obtain ⟨r, h1, h2⟩ := C121_dynamic Sample.dynDisk D false false Sample.constants Sample.usableConstants 0 k c!"/w/a_1.0.bb" off none u res h Sample.dyn
    (entryFile_lines rfl Sample.dyn_ok) .nil hb (by rintro k j ⟨⟩) _ Sample.dyn_ranked (by decide) Sample.dyn_names Sample.dyn_written
  have f2 : SplitAt Blank c!"e-x" [c!"e-x"] := .last (by unfold Blank; decide)
  have f3 : SplitAt Blank c!"y z" [c!"y", c!"z"] := .cons (w := c!"y") (s := c!"z") (c := ' ') (by unfold Blank; decide) (by unfold Blank; decide) (.last (by unfold Blank; decide))
  exact ⟨r, h1, (h2 _).2 ⟨_, by decide, _, _, Sample.dyn_filled, f2, by decide⟩, (h2 _).2 ⟨c!"y z", by decide, _, _, .char (by decide) (.char (by decide) (.char (by decide) .nil)), f3, by decide⟩⟩

/-- all hypotheses of C121 hold for the patterns of a recipe and its `.bbappend` -/
example (u : Stash) (h : BothAdded Sample.dynPair (Stash.init false false Sample.constants 0) c!"/w/a_1.0.bb" c!"/w/a_%.bbappend" u) (D : World) :
    ∃ r, getPackagesDynamic D u c!"/w/a_1.0.bb" = .ok r ∧ c!"e-x" ∈ r := by
  have hb : setsBase Sample.constants = .ok J.empty := Sample.emptyBase (u := Stash.init false false Sample.constants 0) (by decide +kernel)
  have g1 : EntryFile Sample.dynPair c!"/w/a_1.0.bb" (Sample.dyn.take 1) := entryFile_lines rfl (fun e he => Sample.dyn_ok e (List.mem_of_mem_take he))
  have g2 : EntryFile Sample.dynPair c!"/w/a_%.bbappend" (Sample.dyn.drop 1) := entryFile_lines rfl (fun e he => Sample.dyn_ok e (List.mem_of_mem_drop he))
  obtain ⟨r, h1, h2⟩ := C121_dynamic_appended Sample.dynPair D false false Sample.constants Sample.usableConstants 0 _ _ u h _ _ g1 g2 (by decide) c!"a_%" c!"a_1.0" ⟨c!"/w", rfl, by decide⟩
    ⟨by decide, by decide⟩ ⟨c!"/w", rfl, by decide⟩ (by unfold PlainRecipe; decide) (.char (by decide) (by decide) (.char (by decide) (by decide) (.percent (a := c!"1.0") (by decide) .nil)))
    .nil hb (by rintro k j ⟨⟩) (decls Sample.dyn) rfl _ Sample.dyn_ranked (by decide) Sample.dyn_names Sample.dyn_written
  have f2 : SplitAt Blank c!"e-x" [c!"e-x"] := .last (by unfold Blank; decide)
  exact ⟨r, h1, (h2 _).2 ⟨_, by decide, _, _, Sample.dyn_filled, f2, by decide⟩⟩

/-- the files can be read -/
example : ∀ c ∈ [(Sample.dynDisk, [c!"/w/a_1.0.bb"]), (Sample.dynPair, [c!"/w/a_%.bbappend", c!"/w/a_1.0.bb"])], ((Sample.addAll c.1 c.2 (Stash.init false false Sample.constants 0)).bind fun u =>
    (getPackagesDynamic (Sample.world []) u c!"/w/a_1.0.bb").toOption.map (fun r => (c!"e-x" ∈ r ∧ c!"y" ∈ r ∧ c!"z" ∈ r : Bool))) = some true := by
  decide +kernel

/-- constants with a class and a variable of images -/
def Sample.imageConstants : J := .dict (.cons c!"images" (.dict (.cons c!"known-classes" (.list [c!"k"]) (.cons c!"known-variables" (.list [c!"E"]) .nil))) .nil)

theorem Sample.imageConstants_usable : UsableConstants Sample.imageConstants := by
  refine ⟨⟨_, rfl⟩, fun k hk x hx => ?_, fun x hx => (by cases hx), fun k hk x hx => (by cases hx)⟩
  simp only [List.mem_cons, List.not_mem_nil, or_false] at hk
  rcases hk with rfl | rfl | rfl | rfl <;> cases hx

/-- all hypotheses of C122 hold: the recipe declares a variable of images -/
example (k : Nat) (off : Int) (u : Stash) (res : List Item) (h : addFile Sample.pkgsDisk k c!"/w/a_1.0.bb" off none (Stash.init false false Sample.imageConstants 0) = (.ok res, u)) (D : World) :
    isImage D u c!"/w/a_1.0.bb" = .ok true ∧ isPackageGroup D u c!"/w/a_1.0.bb" = false := by
  obtain ⟨⟨a, h1, h2⟩, h3⟩ := C122_plain Sample.pkgsDisk D false false Sample.imageConstants Sample.imageConstants_usable 0 k c!"/w/a_1.0.bb" off none u res h Sample.pkgs
    (entryFile_lines rfl Sample.pkgs_ok) _ _ [c!"k"] [c!"E"] rfl .list rfl .list (by decide)
  exact ⟨by rw [h2.2 (by decide)] at h1; exact h1, h3⟩

/-- all hypotheses of C122 hold: the recipe inherits a class of images -/
example (k : Nat) (off : Int) (u : Stash) (res : List Item) (h : addFile Sample.clsDisk k c!"/w/a_1.0.bb" off none (Stash.init false false Sample.imageConstants 0) = (.ok res, u)) (D : World) :
    isImage D u c!"/w/a_1.0.bb" = .ok true ∧ isPackageGroup D u c!"/w/a_1.0.bb" = false := by
  have f2 : EntryFile Sample.clsDisk c!"/w/classes/k.bbclass" Sample.incInner := entryFile_lines rfl (fun e he => Sample.inc_ok e (List.mem_append_right _ he))
  have hq : ClassFound Sample.clsDisk (dirname (abspath Sample.clsDisk.cwd c!"/w/a_1.0.bb")) c!"k" c!"/w/classes/k.bbclass" :=
    ⟨c!"k.bbclass", .inr ⟨by decide, rfl⟩, .here (.inl ⟨by decide +kernel, by decide +kernel⟩) (by decide)⟩
  have hign : ∀ ign, classIgnore Sample.imageConstants = .ok ign → ign.has c!"k" = false := by
    intro ign h
    have : (match classIgnore Sample.imageConstants with | .ok j => j.has c!"k" | _ => false) = false := by decide +kernel
    rw [h] at this
    exact this
  obtain ⟨⟨a, h1, h2⟩, h3⟩ := C122_inherited Sample.clsDisk D false false Sample.imageConstants Sample.imageConstants_usable 0 k c!"/w/a_1.0.bb" _ _ off none u res h _ _ _ Sample.cls_file f2
    (by decide) hq (by decide) hign (by decide) _ _ [c!"k"] [c!"E"] rfl .list rfl .list (by decide)
  exact ⟨by rw [h2.2 (.inl (by decide))] at h1; exact h1, by rw [Bool.eq_false_iff]; exact fun hh => absurd (h3.1 hh) (by decide)⟩

/-- the files can be read -/
example : (Sample.addAll Sample.clsDisk [c!"/w/a_1.0.bb"] (Stash.init false false Sample.imageConstants 0)).isSome = true := by decide +kernel
end
end Oelint

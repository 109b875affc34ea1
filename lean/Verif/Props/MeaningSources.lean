import Verif.Props.MeaningPackages
/-! # C123: the named sources of a recipe follow from its text -/
set_option linter.unusedSectionVars false
namespace Oelint
section
variable [Uni]
open Spec

/-- the known mirrors do not change when a file is added -/
theorem mirrors_same {W : World} {ns neg : Bool} {consts : J} (hu : UsableConstants consts) {uid k : Nat} {path : Str} {off : Int} {forced : Option Str} {u : Stash} {res : List Item}
    (h : addFile W k path off forced (Stash.init ns neg consts uid) = (.ok res, u)) : mirrorsKnown u.consts = mirrorsKnown consts := by
  have c0 : ConstsOf consts (Stash.init ns neg consts uid) := ⟨hu, otherNames_refl _⟩
  have c1 : ConstsOf consts u := by
    have := addFile_constsOf_any (W := W) c0 k path off forced
    rwa [h] at this
  exact (twin_names W).mirrors (s' := { (Stash.init ns neg consts uid) with consts := u.consts }) (constsOf_names c0 c1)

/-- the option of a source, read from its text -/
theorem source_option {D : World} {s : Stash} {mirrors : List (Str × Str)} {d : KV} (hd : mirrorsKnown s.consts = .ok (.dict d)) (hm : d.toList = mirrors.map (fun m => (m.1, J.str m.2)))
    (hne : ∀ m ∈ mirrors, m.1 ≠ []) (w n : Str) : (∃ c, getScrComponents D s w = .ok c ∧ dget c!"name" c.options = some n) ↔ SourceOption D mirrors w c!"name" n := by
  obtain ⟨raw, h1, h2⟩ := C58_mirrors_functional mirrors hne w
  obtain ⟨k1, k2⟩ := C58_source_components D s mirrors d hd hm hne w raw h1
  constructor
  · rintro ⟨c, hc, hn⟩
    cases hu : D.urlparse raw with
    | none =>
      rw [k1 hu] at hc
      cases hc
      cases hn
    | some r =>
      obtain ⟨scheme, host, path⟩ := r
      have hp : Spec.Pieces ';' raw (splitC ';' raw) := pieces_splitC ';' raw
      cases hsp : splitC ';' raw with
      | nil => rw [hsp] at hp; exact absurd rfl hp.1
      | cons url fields =>
        rw [hsp] at hp
        obtain ⟨c', h3, -, -, -, h4⟩ := k2 _ _ _ url fields hu hp
        rw [hc] at h3
        cases h3
        exact ⟨raw, url, fields, h1, by rw [hu]; simp, hp, (h4 _ _).1 hn⟩
  · rintro ⟨raw', url, fields, q1, q2, q3, q4⟩
    obtain rfl := h2 raw' q1
    cases hu : D.urlparse raw' with
    | none => exact absurd hu q2
    | some r =>
      obtain ⟨scheme, host, path⟩ := r
      obtain ⟨c', h3, -, -, -, h4⟩ := k2 _ _ _ url fields hu q3
      exact ⟨c', h3, (h4 _ _).2 q4⟩

section
variable {consts : J} {file : Str} {u : Stash} {res : List Item} {es : List Entry} (R : RecipeRead consts file u res es)
include R

theorem RecipeRead.sources {D : World} (hfile : file ≠ []) {mirrors : List (Str × Str)} {d : KV} (hd : mirrorsKnown u.consts = .ok (.dict d))
    (hm : d.toList = mirrors.map (fun m => (m.1, J.str m.2))) (hne : ∀ m ∈ mirrors, m.1 ≠ []) :
    ∃ r, getValidNamedResources D u file = .ok r ∧ ∀ x, x ∈ r ↔ x = guessRecipeName file ∨ ∃ t ∈ declared [c!"SRC_URI"] (decls es), ∃ ws w n, Words Blank t ws ∧ w ∈ ws ∧
      SourceOption D mirrors w c!"name" n ∧ Replaced c!"${PN}" (guessRecipeName file) n x := by
  obtain ⟨r, hr⟩ := (C66_raises D u file hfile).2 (.inl ⟨d, hd, by
    rw [hm]
    intro kv hkv
    obtain ⟨m, -, rfl⟩ := List.mem_map.1 hkv
    exact ⟨_, rfl⟩⟩)
  refine ⟨r, hr, fun x => (C66_named_resources D u file hfile r hr x).trans (or_congr Iff.rfl ?_)⟩
  constructor
  · rintro ⟨v, hv, ws, w, c, n, q1, q2, q3, q4, q5⟩
    exact ⟨_, R.assigned_texts.1 ⟨_, List.mem_singleton.2 rfl, v, hv, rfl⟩, ws, w, n, q1, q2, (source_option hd hm hne w n).1 ⟨c, q3, q4⟩, q5⟩
  · rintro ⟨t, ht, ws, w, n, q1, q2, q3, q4⟩
    obtain ⟨name, hn, v, hv, rfl⟩ := R.assigned_texts.2 ht
    rw [List.mem_singleton] at hn
    subst hn
    obtain ⟨c, h1, h2⟩ := (source_option hd hm hne w n).2 q3
    exact ⟨v, hv, ws, w, c, n, q1, q2, h1, h2, q4⟩
end

/-- **C123** A recipe of entries is read into a fresh stash. `GetValidNamedResources` succeeds and gives exactly the name of the recipe and the names that the sources declared for `SRC_URI`
have, with `${PN}` replaced by the name of the recipe. -/
theorem C123_sources (W D : World) (ns neg : Bool) (consts : J) (hu : UsableConstants consts) (uid k : Nat) (p : Str) (off : Int) (forced : Option Str) (u : Stash) (res : List Item)
    (h : addFile W k p off forced (Stash.init ns neg consts uid) = (.ok res, u)) (es : List Entry) (hf : EntryFile W p es)
    (mirrors : List (Str × Str)) (d : KV) (hd : mirrorsKnown consts = .ok (.dict d)) (hm : d.toList = mirrors.map (fun m => (m.1, J.str m.2))) (hne : ∀ m ∈ mirrors, m.1 ≠ []) :
    ∃ r, getValidNamedResources D u (abspath W.cwd p) = .ok r ∧ ∀ x, x ∈ r ↔ x = guessRecipeName (abspath W.cwd p) ∨
      ∃ t ∈ declared [c!"SRC_URI"] (decls es), ∃ ws w n, Words Blank t ws ∧ w ∈ ws ∧ SourceOption D mirrors w c!"name" n ∧ Replaced c!"${PN}" (guessRecipeName (abspath W.cwd p)) n x := by
  obtain ⟨t, ls, gs, f1, f2, f3, f4⟩ := hf.text
  exact (recipe_read hu h f1 f2 f3 f4).sources (abspath_ne_nil W p) ((mirrors_same hu h).trans hd) hm hne

/-- **C123** (with a class). The names of the sources of a recipe that inherits one class follow from the declarations of both files. -/
theorem C123_inherited (W D : World) (ns neg : Bool) (consts : J) (hu : UsableConstants consts) (uid k : Nat) (p q name : Str) (off : Int) (forced : Option Str) (u : Stash) (res : List Item)
    (h : addFile W k p off forced (Stash.init ns neg consts uid) = (.ok res, u)) (es es' es2 : List Entry) (hf : InheritingFile W p es name es2) (hf' : EntryFile W q es')
    (hp : c!".bb" <:+ abspath W.cwd p) (hq : ClassFound W (dirname (abspath W.cwd p)) name q) (hext : (splitext (abspath W.cwd q)).2 = c!".bbclass")
    (hign : ∀ ign, classIgnore consts = .ok ign → ign.has name = false)
    (mirrors : List (Str × Str)) (d : KV) (hd : mirrorsKnown consts = .ok (.dict d)) (hm : d.toList = mirrors.map (fun m => (m.1, J.str m.2))) (hne : ∀ m ∈ mirrors, m.1 ≠ []) :
    ∃ r, getValidNamedResources D u (abspath W.cwd p) = .ok r ∧ ∀ x, x ∈ r ↔ x = guessRecipeName (abspath W.cwd p) ∨
      ∃ t ∈ declared [c!"SRC_URI"] (decls es ++ (decls es' ++ decls es2)), ∃ ws w n, Words Blank t ws ∧ w ∈ ws ∧ SourceOption D mirrors w c!"name" n ∧
        Replaced c!"${PN}" (guessRecipeName (abspath W.cwd p)) n x := by
  obtain ⟨its, R⟩ := inherit_read hu h hf hf' hp hq hext hign
  have := R.sources (D := D) (abspath_ne_nil W p) ((mirrors_same hu h).trans hd) hm hne
  rwa [decls_including] at this

/-- **C123** (with an included file). The names of the sources of a recipe that includes one file follow from the declarations of both files. -/
theorem C123_included (W D : World) (ns neg : Bool) (consts : J) (hu : UsableConstants consts) (uid k : Nat) (p q name : Str) (off : Int) (forced : Option Str) (u : Stash) (res : List Item)
    (h : addFile W k p off forced (Stash.init ns neg consts uid) = (.ok res, u)) (es es' es2 : List Entry) (hf : IncludingFile W p es name es2) (hf' : EntryFile W q es')
    (hp : c!".bb" <:+ abspath W.cwd p) (hq : findLocalOrLayer W name (dirname (abspath W.cwd p)) = .ok q) (hqne : q ≠ []) (hext : (splitext (abspath W.cwd q)).2 ∈ [c!".inc", c!".conf"])
    (b : J) (hbase : setsBase consts = .ok b) (hign : ∀ ign, includeIgnore consts = .ok ign → ign.has name = false)
    (mirrors : List (Str × Str)) (d : KV) (hd : mirrorsKnown consts = .ok (.dict d)) (hm : d.toList = mirrors.map (fun m => (m.1, J.str m.2))) (hne : ∀ m ∈ mirrors, m.1 ≠ []) :
    ∃ r, getValidNamedResources D u (abspath W.cwd p) = .ok r ∧ ∀ x, x ∈ r ↔ x = guessRecipeName (abspath W.cwd p) ∨
      ∃ t ∈ declared [c!"SRC_URI"] (decls es ++ (decls es' ++ decls es2)), ∃ ws w n, Words Blank t ws ∧ w ∈ ws ∧ SourceOption D mirrors w c!"name" n ∧
        Replaced c!"${PN}" (guessRecipeName (abspath W.cwd p)) n x := by
  obtain ⟨its, R⟩ := include_read hu h hf hf' hp hq hqne hext hbase hign
  have := R.sources (D := D) (abspath_ne_nil W p) ((mirrors_same hu h).trans hd) hm hne
  rwa [decls_including] at this
theorem bothAdded_history {W : World} {s u : Stash} {p q : Str} (h : BothAdded W s p q u) : History W Call.forward s u := by
  cases h with
  | recipeFirst h0 h1 h2 h3 => exact two_forward h0 h1 h2 h3
  | appendFirst h0 h1 h2 h3 => exact two_forward h1 h0 h2 h3

/-- **C123** (with a `.bbappend`). The names of the sources of a recipe with its `.bbappend`, added in any order, follow from the declarations of both files. -/
theorem C123_appended (W D : World) (ns neg : Bool) (consts : J) (hu : UsableConstants consts) (uid : Nat) (p q : Str) (u : Stash) (h : BothAdded W (Stash.init ns neg consts uid) p q u)
    (es es' : List Entry) (hf : EntryFile W p es) (hf' : EntryFile W q es') (hes : es ≠ [])
    (stem n : Str) (ha : IsFile (abspath W.cwd q) stem c!".bbappend") (hs : PlainAppend stem) (hx : IsFile (abspath W.cwd p) n c!".bb") (hn : PlainRecipe n) (hg : Glob stem n)
    (mirrors : List (Str × Str)) (d : KV) (hd : mirrorsKnown consts = .ok (.dict d)) (hm : d.toList = mirrors.map (fun m => (m.1, J.str m.2))) (hne : ∀ m ∈ mirrors, m.1 ≠ []) :
    ∃ r, getValidNamedResources D u (abspath W.cwd p) = .ok r ∧ ∀ x, x ∈ r ↔ x = guessRecipeName (abspath W.cwd p) ∨
      ∃ t ∈ declared [c!"SRC_URI"] (decls es ++ decls es'), ∃ ws w n, Words Blank t ws ∧ w ∈ ws ∧ SourceOption D mirrors w c!"name" n ∧
        Replaced c!"${PN}" (guessRecipeName (abspath W.cwd p)) n x := by
  obtain ⟨its, R⟩ := both_read hu h hf hf' hes ha hs hx hn hg
  have c0 : ConstsOf consts (Stash.init ns neg consts uid) := ⟨hu, otherNames_refl _⟩
  have c1 : ConstsOf consts u := history_constsOf (bothAdded_history h) hu
  have hk : mirrorsKnown u.consts = mirrorsKnown consts := (twin_names W).mirrors (s' := { (Stash.init ns neg consts uid) with consts := u.consts }) (constsOf_names c0 c1)
  have := R.sources (D := D) (abspath_ne_nil W p) (hk.trans hd) hm hne
  rwa [decls_append] at this
end

section
attribute [local instance] Sample.asciiUni
open Spec

/-- a recipe with sources, in two declarations -/
def Sample.srcs : List Entry := [ .decl ⟨c!"SRC_URI", [], c!"=", c!"git://h/p;name=${PN}z;name=a file://f"⟩, .decl ⟨c!"SRC_URI", [], c!"+=", c!"git://g;name=${PN}-b"⟩ ]
/-- the disk with this recipe -/
def Sample.srcsDisk : World := Sample.world [(c!"/w/a_1.0.bb", (Sample.srcs.map (fun e => e.stmt.text ++ c!"\n")).flatten)]

theorem Sample.srcs_ok : ∀ e ∈ Sample.srcs, e.Ok ∧ OneLine e.stmt.text ∧ ¬ c!"${@" <:+: e.stmt.text := by
  have hin : ∀ e ∈ Sample.srcs, '@' ∉ e.stmt.text := by decide +kernel
  have hone : ∀ e ∈ Sample.srcs, (∀ c ∈ e.stmt.text, c ≠ '\n' ∧ c ≠ '\r' ∧ c ≠ '\\' ∧ c ≠ '(') ∧ e.stmt.text.head? ≠ some '#' ∧
      ¬ c!"def " <+: (e.stmt.text ++ c!"\n").dropWhile pySpace := by decide +kernel
  have hcap : CapitalName c!"SRC_URI" := ⟨by decide, ⟨[c!"SRC", c!"URI"], ⟨by decide, rfl, by decide⟩, by
    intro p hp
    simp only [List.mem_cons, List.not_mem_nil, or_false] at hp
    rcases hp with rfl | rfl
    · exact ⟨_, _, rfl, by decide⟩
    · exact ⟨_, _, rfl, by decide⟩⟩, by decide⟩
  intro e he
  refine ⟨?_, oneLine_of_chars (hone e he).1 (hone e he).2.1 (hone e he).2.2, ?_⟩
  · simp only [Sample.srcs, List.mem_cons, List.not_mem_nil, or_false] at he
    rcases he with rfl | rfl
    · exact Sample.entryNamed hcap (by decide) (by decide) (by decide)
    · exact Sample.entryNamed hcap (by decide) (by decide) (by decide)
  · rintro ⟨a, b, e'⟩
    exact hin e he (by rw [← e']; simp)

/-- all hypotheses of C123 hold for this recipe -/
example (k : Nat) (off : Int) (u : Stash) (res : List Item) (h : addFile Sample.srcsDisk k c!"/w/a_1.0.bb" off none (Stash.init false false Sample.constants 0) = (.ok res, u)) :
    ∃ r, getValidNamedResources (Sample.world []) u c!"/w/a_1.0.bb" = .ok r ∧ c!"a" ∈ r ∧ c!"a-b" ∈ r := by
  have hd : mirrorsKnown Sample.constants = .ok (.dict .nil) := by
    have h : (match mirrorsKnown Sample.constants with | .ok (.dict .nil) => true | _ => false) = true := by decide +kernel
    cases e : mirrorsKnown Sample.constants with
    | error _ => rw [e] at h; cases h
    | ok b => rw [e] at h; cases b <;> first | cases h | (rename_i d; cases d <;> first | rfl | cases h)
  obtain ⟨r, h1, h2⟩ := C123_sources Sample.srcsDisk (Sample.world []) false false Sample.constants Sample.usableConstants 0 k c!"/w/a_1.0.bb" off none u res h Sample.srcs
    (entryFile_lines rfl Sample.srcs_ok) [] .nil hd rfl (by simp)
  have hw : Words Blank c!"git://g;name=${PN}-b" [c!"git://g;name=${PN}-b"] :=
    .word (w := c!"git://g;name=${PN}-b") (s := []) (by decide) (by unfold Blank; decide) (by unfold Blank; decide) .nil
  refine ⟨r, h1, (h2 _).2 (.inl (by decide +kernel)), (h2 _).2 (.inr ⟨c!"git://g;name=${PN}-b", by decide, _, _, c!"${PN}-b", hw, List.mem_singleton.2 rfl,
    ⟨_, c!"git://g", [c!"name=${PN}-b"], .nil, by decide +kernel, ⟨by decide, rfl, by decide⟩, ?_⟩, .some (a := []) (b := c!"-b") (b' := c!"-b") (by decide) (.none (by decide +kernel))⟩)⟩
  exact ⟨[], _, [], rfl, ⟨by decide, by decide, .inl rfl⟩, by simp⟩

/-- the recipe can be read -/
example : ((Sample.addAll Sample.srcsDisk [c!"/w/a_1.0.bb"] (Stash.init false false Sample.constants 0)).bind fun u =>
    (getValidNamedResources (Sample.world []) u c!"/w/a_1.0.bb").toOption) = some [c!"a", c!"a-b"] := by
  decide +kernel
/-- the first declaration of this recipe in a recipe, the second in its `.bbappend` -/
def Sample.srcsPair : World := Sample.world [(c!"/w/a_1.0.bb", ((Sample.srcs.take 1).map (fun e => e.stmt.text ++ c!"\n")).flatten),
  (c!"/w/a_%.bbappend", ((Sample.srcs.drop 1).map (fun e => e.stmt.text ++ c!"\n")).flatten)]

/-- all hypotheses of C123 hold for these two files: the source of the `.bbappend` is a source of the recipe -/
example (u : Stash) (h : BothAdded Sample.srcsPair (Stash.init false false Sample.constants 0) c!"/w/a_1.0.bb" c!"/w/a_%.bbappend" u) :
    ∃ r, getValidNamedResources (Sample.world []) u c!"/w/a_1.0.bb" = .ok r ∧ c!"a" ∈ r ∧ c!"a-b" ∈ r := by
  have hd : mirrorsKnown Sample.constants = .ok (.dict .nil) := by
    have h : (match mirrorsKnown Sample.constants with | .ok (.dict .nil) => true | _ => false) = true := by decide +kernel
    cases e : mirrorsKnown Sample.constants with
    | error _ => rw [e] at h; cases h
    | ok b => rw [e] at h; cases b <;> first | cases h | (rename_i d; cases d <;> first | rfl | cases h)
  have g1 : EntryFile Sample.srcsPair c!"/w/a_1.0.bb" (Sample.srcs.take 1) := entryFile_lines rfl (fun e he => Sample.srcs_ok e (List.mem_of_mem_take he))
  have g2 : EntryFile Sample.srcsPair c!"/w/a_%.bbappend" (Sample.srcs.drop 1) := entryFile_lines rfl (fun e he => Sample.srcs_ok e (List.mem_of_mem_drop he))
  obtain ⟨r, h1, h2⟩ := C123_appended Sample.srcsPair (Sample.world []) false false Sample.constants Sample.usableConstants 0 _ _ u h _ _ g1 g2 (by decide) c!"a_%" c!"a_1.0"
    ⟨c!"/w", rfl, by decide⟩ ⟨by decide, by decide⟩ ⟨c!"/w", rfl, by decide⟩ (by unfold PlainRecipe; decide)
    (.char (by decide) (by decide) (.char (by decide) (by decide) (.percent (a := c!"1.0") (by decide) .nil))) [] .nil hd rfl (by simp)
  have hw : Words Blank c!"git://g;name=${PN}-b" [c!"git://g;name=${PN}-b"] :=
    .word (w := c!"git://g;name=${PN}-b") (s := []) (by decide) (by unfold Blank; decide) (by unfold Blank; decide) .nil
  refine ⟨r, h1, (h2 _).2 (.inl (by decide +kernel)), (h2 _).2 (.inr ⟨c!"git://g;name=${PN}-b", by decide, _, _, c!"${PN}-b", hw, List.mem_singleton.2 rfl,
    ⟨_, c!"git://g", [c!"name=${PN}-b"], .nil, by decide +kernel, ⟨by decide, rfl, by decide⟩, ?_⟩, .some (a := []) (b := c!"-b") (b' := c!"-b") (by decide) (.none (by decide +kernel))⟩)⟩
  exact ⟨[], _, [], rfl, ⟨by decide, by decide, .inl rfl⟩, by simp⟩

/-- both orders can be read -/
example : ∀ ps ∈ [[c!"/w/a_1.0.bb", c!"/w/a_%.bbappend"], [c!"/w/a_%.bbappend", c!"/w/a_1.0.bb"]], ((Sample.addAll Sample.srcsPair ps (Stash.init false false Sample.constants 0)).bind fun u =>
    (getValidNamedResources (Sample.world []) u c!"/w/a_1.0.bb").toOption) = some [c!"a", c!"a-b"] := by
  decide +kernel
end
end Oelint

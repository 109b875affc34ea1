import Verif.Lemmas.RecipeNames
import Verif.Lemmas.LayerLoop
import Verif.Lemmas.Sample
/-! Names of recipes and layers: C56, C57, C59. -/
set_option linter.unusedSectionVars false
namespace Oelint
variable [Uni]
open Spec

/-! ## C56 -/

/-- **C56**. `DIR/NAME_VERSION.EXT`. -/
theorem C56_name_and_version (path name version ext : Str) (h : IsFile path (name ++ c!"_" ++ version) ('.' :: ext))
    (h1 : '_' ∉ name) (h2 : '_' ∉ version) (h3 : '/' ∉ ext) (h4 : '.' ∉ ext) :
    guessRecipeName path = name ∧ guessRecipeVersion path = some version := by
  have hs := recipeStem h h3 h4 ⟨'_', by simp, by decide⟩
  have e : name ++ c!"_" ++ version = name ++ '_' :: version := by simp
  unfold guessRecipeName guessRecipeVersion
  rw [hs, e, splitC_append_sep _ _ h1, splitC_of_not_mem h2]
  exact ⟨rfl, rfl⟩

/-- **C56** (no version). `DIR/NAME.EXT`. -/
theorem C56_no_version (path name ext : Str) (h : IsFile path name ('.' :: ext))
    (h1 : '_' ∉ name) (h3 : '/' ∉ ext) (h4 : '.' ∉ ext) (h5 : ∃ c ∈ name, c ≠ '.') :
    guessRecipeName path = name ∧ guessRecipeVersion path = none := by
  unfold guessRecipeName guessRecipeVersion
  rw [recipeStem h h3 h4 h5, splitC_of_not_mem h1]
  exact ⟨rfl, rfl⟩

/-- **C56** (more than one `_`). Only the part up to the next `_` is the version. -/
theorem C56_more_parts (path name version rest ext : Str)
    (h : IsFile path (name ++ c!"_" ++ version ++ c!"_" ++ rest) ('.' :: ext))
    (h1 : '_' ∉ name) (h2 : '_' ∉ version) (h3 : '/' ∉ ext) (h4 : '.' ∉ ext) :
    guessRecipeName path = name ∧ guessRecipeVersion path = some version := by
  have hs := recipeStem h h3 h4 ⟨'_', by simp, by decide⟩
  have e : name ++ c!"_" ++ version ++ c!"_" ++ rest = name ++ '_' :: (version ++ '_' :: rest) := by simp
  unfold guessRecipeName guessRecipeVersion
  rw [hs, e, splitC_append_sep _ _ h1, splitC_append_sep _ _ h2]
  exact ⟨rfl, rfl⟩

/-! ## C57 -/

/-- **C57**. -/
theorem C57_base_name (path o : Str) (h : BaseName (guessRecipeName path) o) (hl : '\n' ∉ guessRecipeName path) :
    guessBaseRecipeName path = o := guessBase_spec rfl h hl

/-- **C57** (the result of the rule exists and is determined). -/
theorem C57_one_base_name (n : Str) (hl : '\n' ∉ n) (h1 : '/' ∉ n) (h2 : '_' ∉ n) (h3 : ∃ c ∈ n, c ≠ '.') :
    ∃ o, BaseName n o ∧ ∀ o', BaseName n o' → o' = o := by
  obtain ⟨o, ho⟩ := baseName_exists n
  have hg := (C56_no_version (c!"/" ++ n ++ c!".bb") n c!"bb" ⟨[], by simp, h1⟩ h2 (by decide) (by decide) h3).1
  exact ⟨o, ho, fun o' h' => (guessBase_spec hg h' hl).symm.trans (guessBase_spec hg ho hl)⟩

/-- **C57** (all in one). A plain name between prefixes and suffixes. -/
theorem C57_all_parts (path base ext : Str) (k : Nat) (nat cross : Bool)
    (h : IsFile path ((List.replicate k c!"nativesdk-").flatten ++ base ++ (if cross then c!"-cross" else [])
      ++ (if nat then c!"-native" else [])) ('.' :: ext))
    (hb : base ≠ []) (h1 : ¬ c!"-native" <:+ base) (h2 : ¬ c!"-cross" <:+ base)
    (hu : '_' ∉ base) (hl : '\n' ∉ base) (hd : ∃ c ∈ base, c ≠ '.') (h3 : '/' ∉ ext) (h4 : '.' ∉ ext)
    (h5 : ¬ c!"nativesdk-" <+: base ++ (if cross then c!"-cross" else []) ++ (if nat then c!"-native" else [])) :
    guessBaseRecipeName path = base := by
  have hmem : ∀ c, c ∈ (List.replicate k c!"nativesdk-").flatten → c ∈ c!"nativesdk-" := by
    intro c hc
    obtain ⟨l, hl, hc⟩ := List.mem_flatten.1 hc
    rwa [(List.mem_replicate.1 hl).2] at hc
  have hsuf : ∀ c, (c = '_' ∨ c = '\n') → c ∉ (if cross then c!"-cross" else []) ∧ c ∉ (if nat then c!"-native" else []) := by
    rintro c (rfl | rfl) <;> cases cross <;> cases nat <;> decide
  have hnot : ∀ c, (c = '_' ∨ c = '\n') → c ∉ base → c ∉ (List.replicate k c!"nativesdk-").flatten ++ base ++
      (if cross then c!"-cross" else []) ++ (if nat then c!"-native" else []) := by
    intro c hc hcb hm
    simp only [List.mem_append] at hm
    rcases hm with ((hm | hm) | hm) | hm
    · have := hmem c hm
      rcases hc with rfl | rfl
      · exact absurd this (by decide)
      · exact absurd this (by decide)
    · exact hcb hm
    · exact (hsuf c hc).1 hm
    · exact (hsuf c hc).2 hm
  have hg := (C56_no_version path _ ext h (hnot _ (Or.inl rfl) hu) h3 h4 (by
    obtain ⟨c, hc, hne⟩ := hd
    exact ⟨c, by simp [hc], hne⟩)).1
  refine guessBase_spec hg ?_ (hnot _ (Or.inr rfl) hl)
  refine ⟨base ++ (if cross then c!"-cross" else []) ++ (if nat then c!"-native" else []),
    base ++ (if cross then c!"-cross" else []), ?_, ?_, ?_⟩
  · clear h hg hmem hnot
    have hne : base ++ (if cross then c!"-cross" else []) ++ (if nat then c!"-native" else []) ≠ [] := by
      simp [hb]
    rw [List.append_assoc, List.append_assoc, ← List.append_assoc base]
    generalize base ++ (if cross then c!"-cross" else []) ++ (if nat then c!"-native" else []) = t at h5 hne
    induction k with
    | zero => exact .done fun r hr => absurd ⟨r, hr.symm⟩ h5
    | succ k ih =>
      rw [List.replicate_succ, List.flatten_cons, List.append_assoc]
      exact .step (by simp [hne]) ih
  · cases nat with
    | true => exact Or.inl ⟨by simp [hb], rfl⟩
    | false =>
      refine Or.inr ⟨fun b hbb => ?_, by simp⟩
      exfalso
      simp only [Bool.false_eq_true, if_false, List.append_nil] at hbb
      cases cross with
      | false =>
        simp only [Bool.false_eq_true, if_false, List.append_nil] at hbb
        exact h1 ⟨b, hbb.symm⟩
      | true =>
        simp only [if_true] at hbb
        have h6 : c!"-cross" <:+ b ++ c!"-native" := ⟨base, hbb⟩
        have h7 : c!"-cross" <:+ c!"-native" :=
          List.suffix_of_suffix_length_le h6 (List.suffix_append _ _) (by decide)
        exact absurd h7 (by decide)
  · cases cross with
    | true => exact Or.inl ⟨hb, rfl⟩
    | false => exact Or.inr ⟨fun b hbb => absurd ⟨b, by simpa using hbb.symm⟩ h2, by simp⟩

/-! ## C59

Full statement: both functions return for every path, `FindLocalOrLayer` the file next to the given directory or else the
one in the nearest enclosing layer, `GetLayerRoot` the nearest enclosing layer root.  Missing: paths that start with `//`
(the loops never end) and the directory itself as layer root (see the counterexamples). -/

/-- **C59** (part: paths that do not start with two slashes; layer roots above the given directory). -/
theorem C59_find_local_or_layer_partial (W : World) (hw : W.isDir [] = false) (name dir : Str) (h : ¬ c!"//" <+: dir) :
    ∃ p, findLocalOrLayer W name dir = .ok p ∧ (p ≠ [] → Finds W dir name p) ∧ (p = [] → ∀ q, Finds W dir name q → q = []) := by
  obtain ⟨p, hp⟩ := findLocalOrLayer_ends (name := name) hw h
  exact ⟨p, hp, findLocalOrLayer_spec hp⟩

/-- **C59** (part: as above). -/
theorem C59_layer_root_partial (W : World) (hw : W.isDir [] = false) (name : Str) (h : ¬ c!"//" <+: name) :
    ∃ r, getLayerRoot W name = .ok r ∧
      (r ≠ [] → LayerOf W (if W.isFile name then dirname name else name) r) ∧
      (r = [] → ∀ q, LayerOf W (if W.isFile name then dirname name else name) q → q = []) := by
  obtain ⟨r, hr⟩ := getLayerRoot_ends hw h
  exact ⟨r, hr, getLayerRoot_spec hr⟩

/-- **C59** (what is found). The layer of a directory is the nearest directory above it that has `conf/layer.conf`, if
there are only directories on the way and the root directory is not passed. -/
theorem C59_nearest (W : World) (d r : Str) : LayerOf W d r ↔
    ∃ k, r = upDir (k + 1) d ∧ W.pathExists (pathJoin r c!"conf/layer.conf") = true ∧
      (∀ j ≤ k, W.isDir (upDir j d) = true ∧ upDir j d ≠ c!"/") ∧
      ∀ j < k, W.pathExists (pathJoin (upDir (j + 1) d) c!"conf/layer.conf") = false := layerOf_iff

/-- **C59 is false**: for a path starting with two slashes the loops never end, unless there is a layer on the way or
something is not a directory. -/
theorem C59_two_slashes_counterexample (W : World) (h1 : W.isDir c!"//" = true)
    (h2 : W.pathExists c!"//conf/layer.conf" = false) (name : Str) (h3 : W.pathExists (pathJoin c!"//" name) = false) :
    (∀ n, layerRootLoop W n c!"//" = none ∧ findLoop W name n c!"//" = none) ∧
    findLocalOrLayer W name c!"//" = .error .diverges := by
  have key : ∀ n, layerRootLoop W n c!"//" = none ∧ findLoop W name n c!"//" = none := by
    intro n
    have e : dirname c!"//" = c!"//" := by decide
    have e2 : pathJoin c!"//" c!"conf/layer.conf" = c!"//conf/layer.conf" := by decide
    induction n with
    | zero => exact ⟨rfl, rfl⟩
    | succ n ih =>
      constructor
      · rw [layerRootLoop, if_pos h1, if_neg (by decide)]
        simp only [e]
        rw [e2, h2]
        exact ih.1
      · rw [findLoop, if_pos h1, if_neg (by decide)]
        simp only [e]
        rw [e2, h2]
        exact ih.2
  refine ⟨key, ?_⟩
  unfold findLocalOrLayer
  rw [h3, (key _).2]
  rfl

end Oelint

namespace Oelint
open Spec
attribute [local instance] Sample.asciiUni

/-- a layer with a recipe in its root directory and one below -/
def Sample.layerTree : World := Sample.world [(c!"/l/conf/layer.conf", []), (c!"/l/a.bb", []), (c!"/l/r/b_1.bb", []), (c!"/l/c.inc", [])]

/-- **C59 is false**: the directory of the file itself is not considered, so a recipe in the root directory of a layer has
no layer. -/
theorem C59_own_directory_counterexample : Sample.layerTree.pathExists c!"/l/conf/layer.conf" = true ∧
    getLayerRoot Sample.layerTree c!"/l/a.bb" = .ok [] ∧ getLayerRoot Sample.layerTree c!"/l" = .ok [] := by
  decide +kernel

/-- C59: the hypotheses are met, and both find something -/
example : Sample.layerTree.isDir [] = false ∧ getLayerRoot Sample.layerTree c!"/l/r/b_1.bb" = .ok c!"/l" ∧
    findLocalOrLayer Sample.layerTree c!"c.inc" c!"/l/r" = .ok c!"/l/c.inc" ∧
    findLocalOrLayer Sample.layerTree c!"b_1.bb" c!"/l/r" = .ok c!"/l/r/b_1.bb" ∧
    findLocalOrLayer Sample.layerTree c!"d.inc" c!"/l/r" = .ok [] := by
  decide +kernel

/-- C56: the hypotheses are met -/
example : guessRecipeName c!"/a/b/my-recipe_1.2.3.bb" = c!"my-recipe" ∧
    guessRecipeVersion c!"/a/b/my-recipe_1.2.3.bb" = some c!"1.2.3" :=
  C56_name_and_version _ _ _ c!"bb" ⟨c!"/a/b", by decide, by decide⟩ (by decide) (by decide) (by decide) (by decide)

example : guessRecipeName c!"/a/b/x.y.bb" = c!"x.y" ∧ guessRecipeVersion c!"/a/b/x.y.bb" = none :=
  C56_no_version _ _ c!"bb" ⟨c!"/a/b", by decide, by decide⟩ (by decide) (by decide) (by decide) ⟨'x', by decide, by decide⟩

example : guessRecipeName c!"/a/b/x_1_2.bb" = c!"x" ∧ guessRecipeVersion c!"/a/b/x_1_2.bb" = some c!"1" :=
  C56_more_parts _ _ _ c!"2" c!"bb" ⟨c!"/a/b", by decide, by decide⟩ (by decide) (by decide) (by decide) (by decide)

/-- C57: the hypotheses are met -/
example : guessBaseRecipeName c!"/a/nativesdk-nativesdk-foo-cross-native.bb" = c!"foo" :=
  C57_all_parts _ _ c!"bb" 2 true true ⟨c!"/a", by decide, by decide⟩ (by decide) (by decide) (by decide)
    (by decide) (by decide) ⟨'f', by decide, by decide⟩ (by decide) (by decide) (by decide)

end Oelint

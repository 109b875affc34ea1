import Verif.Lemmas.Shipped
import Verif.Props.Paths
import Verif.Props.Queries
/-!
# Loading data bases (C84), the shipped data base (C85), expansion with it (C86)
-/
set_option linter.unusedSectionVars false
namespace Oelint
open Spec

/-! ## C84 -/

/-- **C84** A file whose text is the JSON text of a value - `FileText` says which texts those are - is loaded as that value; in it no
key occurs twice. -/
theorem C84_load (t : Str) (v : J) (h : FileText v t) : loadDb (.text t) = v ∧ WF v := by
  refine ⟨?_, fileText_wf h⟩
  show (jsonLoad (univNewlines t)).getD J.empty = v
  rw [univNewlines_self (fileText_cr h), jsonLoad_text h]
  rfl

/-- **C84** carriage returns: the newlines of the text are translated before it is read -/
theorem C84_newlines (t : Str) (v : J) (h : FileText v (univNewlines t)) : loadDb (.text t) = v := by
  show (jsonLoad (univNewlines t)).getD J.empty = v
  rw [jsonLoad_text h]
  rfl

/-- **C84** any other text (within the fragment that is modelled) and a file that cannot be opened give the empty data base -/
theorem C84_fallback (r : FileRes) (h : ∀ t v, r = .text t → ¬ FileText v (univNewlines t)) : loadDb r = .dict .nil := by
  cases r with
  | text t =>
    show (jsonLoad (univNewlines t)).getD J.empty = _
    cases hl : jsonLoad (univNewlines t) with
    | none => rfl
    | some v => exact absurd (jsonLoad_sound (univNewlines_no_cr t) hl) (h t v rfl)
  | _ => rfl

/-- **C84** the constructor: a dictionary becomes the data base itself, a path stands for the value of the file there, and any other
file for the empty data base -/
theorem C84_constructor (W : World) (d : KV) (path : Str) (v : J) :
    newConstants W (.inl d) = .dict d ∧
    ((∃ t, W.file path = .text t ∧ FileText v (univNewlines t)) → newConstants W (.inr path) = v) ∧
    ((∀ t v, W.file path = .text t → ¬ FileText v (univNewlines t)) → newConstants W (.inr path) = .dict .nil) := by
  refine ⟨rfl, ?_, C84_fallback _⟩
  rintro ⟨t, ht, hv⟩
  show loadDb (W.file path) = v
  rw [ht, C84_newlines t v hv]

/-! ## C85 -/

/-- **C85** the shipped file is the text of the shipped data base, which is what `Constants()` holds -/
theorem C85_loaded : FileText shippedDb shippedText ∧ loadDb (.text shippedText) = shippedDb :=
  ⟨shipped_text, (C84_load _ _ shipped_text).1⟩

/-- **C85** the data base is well formed and its constants can be used: the theorems about constants and about sessions apply to it -/
theorem C85_usable : WF shippedDb ∧ Readable shippedDb ∧ UsableConstants shippedDb :=
  ⟨(C84_load _ _ shipped_text).2, shipped_readable, shipped_usable⟩

/-- **C85** (partial: all constants but `VariablesKnown`) every constant of the shipped data base has its documented type -/
theorem C85_documented_types_partial (k : Known) (hk : k ≠ .variablesKnown) : ∃ v, readKnown k shippedDb = .ok v ∧ Documented k v := by
  rw [readKnown_eq k shipped_readable]
  refine ⟨_, rfl, ?_⟩
  cases k with
  | variablesKnown => exact absurd rfl hk
  | mirrorsKnown => exact textDictB_spec (by decide +kernel)
  | setsBase => exact textDictB_spec (by decide +kernel)
  | functionsKnown => exact isListB_spec (by decide +kernel)
  | functionsOrder => exact isListB_spec (by decide +kernel)
  | classIgnore => exact isListB_spec (by decide +kernel)
  | includeIgnore => exact isListB_spec (by decide +kernel)
  | imagesClasses => exact isListB_spec (by decide +kernel)
  | imagesVariables => exact isListB_spec (by decide +kernel)
  | distrosKnown => exact isListB_spec (by decide +kernel)
  | machinesKnown => exact isListB_spec (by decide +kernel)

/-- the full statement -/
def DocumentedTypes : Prop := ∀ k, ∃ v, readKnown k shippedDb = .ok v ∧ Documented k v

/-- **C85** (counterexample) `VariablesKnown` is documented as a list, but is the empty dictionary -/
theorem C85_counterexample : readKnown .variablesKnown shippedDb = .ok (.dict .nil) ∧ ¬ DocumentedTypes := by
  have h : readKnown .variablesKnown shippedDb = .ok (.dict .nil) := by
    rw [readKnown_eq _ shipped_readable]; rfl
  refine ⟨h, fun hd => ?_⟩
  obtain ⟨v, h1, l, h2⟩ := hd .variablesKnown
  rw [h, h2] at h1
  cases h1

section
variable [Uni]

/-- **C85** (after any calls on a stash that started with it) the constants other than the known distros and machines read as shipped,
and the documented types are kept -/
theorem C85_kept_partial (W : World) (s : Stash) (h : StartsShipped W s) (k : Known) :
    (k ∉ [.distrosKnown, .machinesKnown] → readKnown k s.consts = readKnown k shippedDb) ∧
    (k ≠ .variablesKnown → ∃ v, readKnown k s.consts = .ok v ∧ Documented k v) := by
  obtain ⟨h1, h2, h3⟩ := startsShipped_consts h
  have e : k ∉ [.distrosKnown, .machinesKnown] → readKnown k s.consts = readKnown k shippedDb := by
    intro hk
    rw [readKnown_eq k h3, readKnown_eq k shipped_readable, h2.1 _ (by simp) (by simp) (by revert hk; cases k <;> decide)
      (by revert hk; cases k <;> decide)]
  refine ⟨e, fun hv => ?_⟩
  by_cases hk : k ∈ [Known.distrosKnown, .machinesKnown]
  · have hl : ∃ l, (valueAt [k.sec, k.key] s.consts).getD (.dict .nil) = .list l := by
      have hlist := h1.lists k.key (by revert hk; cases k <;> decide)
      cases hx : valueAt [k.sec, k.key] s.consts with
      | some x =>
        have hsec : k.sec = c!"replacements" := by revert hk; cases k <;> decide
        rw [hsec] at hx
        obtain ⟨l, rfl⟩ := hlist x hx
        exact ⟨l, rfl⟩
      | none =>
        have := h2.2 k.key (by revert hk; cases k <;> decide) (by
          simp only [List.mem_cons, List.not_mem_nil, or_false] at hk
          rcases hk with rfl | rfl <;> exact fun e => by cases e)
        have hsec : k.sec = c!"replacements" := by revert hk; cases k <;> decide
        rw [hsec] at hx
        exact absurd hx this
    obtain ⟨l, hl⟩ := hl
    refine ⟨_, readKnown_eq k h3, ?_⟩
    rw [hl]
    revert hk; cases k <;> simp [Documented]
  · rw [e hk]
    exact C85_documented_types_partial k hv

/-! ## C86 -/

/-- **C86** (the base set does not depend on itself) If nothing is assigned, every text in which each `${` starts a reference has exactly
one full expansion, and `ExpandTerm` returns it. -/
theorem C86_base_set_expands (W : World) (s : Stash) (file : Str) (h : StartsShipped W s) (hn : ∀ n, Unassigned s file n)
    (hf : ∀ n t, FromFileName file n t → '$' ∉ t) (value : Str) (ns : List Str) (hw : Written value ns) (hc : NoCalls value) :
    ∃ o, Expands W s file [] value o ∧ expandTerm W s file value = .ok o ∧ ∀ o', Expands W s file [] value o' → o' = o := by
  refine C51_acyclic_definitions W s file [] value ns shippedBase (startsShipped_base h)
    (fun k j hj => ?_) shippedRank ?_ hf hw hc
  · obtain ⟨t, ht, -⟩ := shipped_definition hj
    exact ⟨t, ht⟩
  · rintro n t (⟨⟨_, _, _, hx, _⟩, _⟩ | ⟨_, hb, hg⟩)
    · exact absurd hx (hn n _)
    · rw [startsShipped_base h] at hb
      cases hb
      obtain ⟨t', ht, h1, h2⟩ := shipped_definition hg
      cases ht
      exact ⟨h1, h2⟩

/-- the names the file name gives a value to are not in the base set -/
theorem undefined_name {W : World} {s : Stash} {file n : Str} (h : StartsShipped W s) (hu : Unassigned s file n)
    (hn : shippedBase.get n = none) : Undefined s file n := by
  refine ⟨hu, fun b hb => ?_⟩
  rw [startsShipped_base h] at hb
  cases hb
  simp [J.has, hn]

/-- a reference to a name of the base set -/
theorem expands_base {W : World} {s : Stash} {file n t v r o : Str} (h : StartsShipped W s) (hu : Unassigned s file n)
    (hn : Name n) (hg : shippedBase.get n = some (.str t)) (hv : Expands W s file [] t v) (hr : Expands W s file [] r o) :
    Expands W s file [] (refText n ++ r) (v ++ o) := by
  obtain ⟨t', ht, h1, -⟩ := shipped_definition hg
  cases ht
  exact .defined hn (by simp) (.base hu (startsShipped_base h) hg) h1 hv hr

/-- **C86** `${P}`, `${BP}` and `${PACKAGES}` for the file `DIR/NAME_VERSION.EXT`, if the names involved are not assigned -/
theorem C86_standard_names (W : World) (s : Stash) (file name version ext base : Str) (h : StartsShipped W s)
    (hfile : IsFile file (name ++ c!"_" ++ version) ('.' :: ext)) (h1 : '_' ∉ name) (h2 : '_' ∉ version) (h3 : '/' ∉ ext) (h4 : '.' ∉ ext)
    (hv : version ≠ []) (hd : '$' ∉ name ++ version) (hl : '\n' ∉ name) (hb : BaseName name base) (hdb : '$' ∉ base)
    (hu : ∀ n ∈ [c!"PN", c!"BPN", c!"PV", c!"P", c!"BP", c!"PACKAGES", c!"PACKAGE_BEFORE_PN"], Unassigned s file n) :
    expandTerm W s file c!"${P}" = .ok (name ++ c!"-" ++ version) ∧
    expandTerm W s file c!"${BP}" = .ok (base ++ c!"-" ++ version) ∧
    expandTerm W s file c!"${PACKAGES}" = .ok (name ++ c!"-src " ++ name ++ c!"-dbg " ++ name ++ c!"-staticdev " ++ name ++ c!"-dev " ++
      name ++ c!"-doc " ++ name ++ c!"-locale " ++ c!" " ++ name) := by
  obtain ⟨g1, g2⟩ := C56_name_and_version file name version ext hfile h1 h2 h3 h4
  have g3 : guessBaseRecipeName file = base := C57_base_name file base (by rw [g1]; exact hb) (by rw [g1]; exact hl)
  simp only [List.mem_append, not_or] at hd
  have pn : ∀ {r o}, Expands W s file [] r o → Expands W s file [] (refText c!"PN" ++ r) (name ++ o) := fun hr =>
    .name ⟨by decide, by decide, by decide, by decide⟩ (by simp) (undefined_name h (hu _ (by simp)) (by rfl)) (g1 ▸ .pn) hd.1 hr
  have bpn : ∀ {r o}, Expands W s file [] r o → Expands W s file [] (refText c!"BPN" ++ r) (base ++ o) := fun hr =>
    .name ⟨by decide, by decide, by decide, by decide⟩ (by simp) (undefined_name h (hu _ (by simp)) (by rfl)) (g3 ▸ .bpn) hdb hr
  have pv : Expands W s file [] (refText c!"PV" ++ []) (version ++ []) :=
    .name ⟨by decide, by decide, by decide, by decide⟩ (by simp) (undefined_name h (hu _ (by simp)) (by rfl)) (.pv g2 hv) hd.2 .nil
  have lit : ∀ {l r o : Str}, '$' ∉ l → Expands W s file [] r o → Expands W s file [] (l ++ r) (l ++ o) := by
    intro l r o hl hr
    induction l with
    | nil => exact hr
    | cons c l ih => exact .char (fun e => hl (by simp [e])) (ih (fun hm => hl (by simp [hm])))
  have fin : ∀ {n t v : Str}, Name n → n ∈ [c!"PN", c!"BPN", c!"PV", c!"P", c!"BP", c!"PACKAGES", c!"PACKAGE_BEFORE_PN"] →
      shippedBase.get n = some (.str t) → Expands W s file [] t v → NoCalls (refText n) → expandTerm W s file (refText n) = .ok v := by
    intro n t v hn hm hg hx hc
    have := expands_base h (hu n hm) hn hg hx .nil
    rw [List.append_nil, List.append_nil] at this
    exact C51_expansion_substitutes W s file [] _ v _ (startsShipped_base h) hc this
  have nc : ∀ n ∈ [c!"P", c!"BP", c!"PACKAGES"], NoCalls (refText n) := by
    intro n hn
    simp only [List.mem_cons, List.not_mem_nil, or_false] at hn
    rcases hn with rfl | rfl | rfl <;>
      exact ⟨by rw [← hasSub_false_iff]; rfl, by rw [ReadsFile, ← hasSub_false_iff]; rfl⟩
  refine ⟨?_, ?_, ?_⟩
  · refine fin (n := c!"P") (t := c!"${PN}-${PV}") ⟨by decide, by decide, by decide, by decide⟩ (by decide) (by rfl) ?_ (nc _ (by decide))
    have := pn (lit (l := c!"-") (by decide) pv)
    simpa [refText] using this
  · refine fin (n := c!"BP") (t := c!"${BPN}-${PV}") ⟨by decide, by decide, by decide, by decide⟩ (by decide) (by rfl) ?_ (nc _ (by decide))
    have := bpn (lit (l := c!"-") (by decide) pv)
    simpa [refText] using this
  · refine fin (n := c!"PACKAGES") (t := c!"${PN}-src ${PN}-dbg ${PN}-staticdev ${PN}-dev ${PN}-doc ${PN}-locale ${PACKAGE_BEFORE_PN} ${PN}")
      ⟨by decide, by decide, by decide, by decide⟩ (by decide) (by rfl) ?_ (nc _ (by decide))
    have last := lit (l := c!" ") (by decide) (pn .nil)
    have bef : Expands W s file [] (refText c!"PACKAGE_BEFORE_PN" ++ _) ([] ++ _) :=
      expands_base h (hu _ (by decide)) ⟨by decide, by decide, by decide, by decide⟩ (by rfl) .nil last
    have := pn (lit (l := c!"-src ") (by decide) (pn (lit (l := c!"-dbg ") (by decide) (pn (lit (l := c!"-staticdev ") (by decide)
      (pn (lit (l := c!"-dev ") (by decide) (pn (lit (l := c!"-doc ") (by decide) (pn (lit (l := c!"-locale ") (by decide) bef)))))))))))
    simpa [refText] using this

/-- **C86** with the shipped constants `IsImage` is true exactly if an item linked to the file inherits or sets one of these -/
theorem C86_images (W : World) (s : Stash) (file : Str) (hf : file ≠ []) (h : StartsShipped W s) :
    ∃ b, isImage W s file = .ok b ∧ (b = true ↔
      InheritsOneOf s file [c!"baremetal-image", c!"core-image", c!"image", c!"image-container", c!"image-live", c!"kernel-fitimage",
        c!"kernel-uimage", c!"license_image", c!"testimage"] ∨
      SetsOneOf s file [c!"IMAGE_FEATURES", c!"IMAGE_INSTALL", c!"IMAGE_LINGUAS", c!"IMAGE_ROOTFS_SIZE", c!"IMAGE_ROOTFS_EXTRA_SPACE"]) := by
  have hc := (C85_kept_partial W s h .imagesClasses).1 (by decide)
  have hv := (C85_kept_partial W s h .imagesVariables).1 (by decide)
  rw [readKnown_eq _ shipped_readable] at hc hv
  exact (C62_images_and_package_groups W s file _ _ hf hc hv (by decide)).1

end
end Oelint

/-! ## examples -/
namespace Oelint
open Spec
section
attribute [local instance] Sample.asciiUni

/-- C84: a text with an escape, white space and a key that occurs twice -/
example : loadDb (.text c!"{ \"a\": \"x\\\"\",\n\t\"b\" : [\"y\", \"z\"], \"a\":{} }\n") =
    .dict (.cons c!"a" (.dict .nil) (.cons c!"b" (.list [c!"y", c!"z"]) .nil)) := by
  refine (C84_load _ _ (jsonLoad_sound (by decide) ?_)).1
  rfl

/-- C84: a text that ends too early, and one with something behind the value -/
example : loadDb (.text c!"{\"a\": []") = .dict .nil ∧ loadDb (.text c!"{} x") = .dict .nil ∧ loadDb .notFound = .dict .nil := by
  refine ⟨C84_fallback _ ?_, C84_fallback _ ?_, C84_fallback _ (by rintro t v ⟨⟩)⟩ <;>
  · rintro t v ⟨⟩ h
    have := jsonLoad_text h
    cases this

/-- a stash with the shipped constants -/
def Sample.shipped : Stash := { Sample.stash with consts := shippedDb }

/-- C85, C86: the hypotheses are met, also after a file was added -/
theorem Sample.shipped_starts (W : World) (depth : Nat) (p : Str) :
    StartsShipped W Sample.shipped ∧ StartsShipped W (addFile W depth p 0 none Sample.shipped).2 :=
  ⟨⟨_, fun _ => True, rfl, .nil⟩, ⟨_, fun _ => True, rfl, .snoc .nil depth (.addFile p 0 none) trivial⟩⟩

/-- C85: the machines stay a list when a layer with a machine is loaded -/
example (p : Str) : ∃ l, readKnown .machinesKnown (addFile (Sample.world []) 3 p 0 none Sample.shipped).2.consts = .ok (.list l) := by
  obtain ⟨v, h, l, rfl⟩ := (C85_kept_partial _ _ (Sample.shipped_starts (Sample.world []) 3 p).2 .machinesKnown).2 (by decide)
  exact ⟨l, h⟩

/-- C86: the standard names of a native recipe -/
example : expandTerm (Sample.world []) Sample.shipped c!"/a/foo-native_1.2.bb" c!"${P}" = .ok c!"foo-native-1.2" ∧
    expandTerm (Sample.world []) Sample.shipped c!"/a/foo-native_1.2.bb" c!"${BP}" = .ok c!"foo-1.2" := by
  obtain ⟨h1, h2, -⟩ := C86_standard_names (Sample.world []) Sample.shipped c!"/a/foo-native_1.2.bb" c!"foo-native" c!"1.2" c!"bb" c!"foo"
    (Sample.shipped_starts _ 0 []).1 ⟨c!"/a", rfl, by decide⟩ (by decide) (by decide) (by decide) (by decide) (by decide) (by decide)
    (by decide) ⟨c!"foo-native", c!"foo", .done (fun r hr => by cases hr), Or.inl ⟨by decide, rfl⟩,
      Or.inr ⟨fun b hb => absurd (congrArg List.length hb) (by simp), rfl⟩⟩ (by decide)
    (fun n _ x hx => List.not_mem_nil hx.1)
  exact ⟨h1, h2⟩

/-- C86: any text -/
example : ∃ o, expandTerm (Sample.world []) Sample.shipped c!"/a/foo_1.2.bb" c!"x ${SOLIBS} ${U}" = .ok o := by
  obtain ⟨o, -, h, -⟩ := C86_base_set_expands (Sample.world []) Sample.shipped c!"/a/foo_1.2.bb" (Sample.shipped_starts _ 0 []).1
    (fun n x hx => List.not_mem_nil hx.1)
    (by
      intro n t h
      cases h with
      | pv h => rw [show guessRecipeVersion c!"/a/foo_1.2.bb" = some c!"1.2" from rfl] at h; cases h; decide
      | _ => decide)
    c!"x ${SOLIBS} ${U}" [c!"SOLIBS", c!"U"] (refsOf_spec 100 _ _ (by rfl))
    ⟨by rw [← hasSub_false_iff]; rfl, by rw [ReadsFile, ← hasSub_false_iff]; rfl⟩
  exact ⟨o, h⟩

/-- C86: no image without items -/
example : isImage (Sample.world []) Sample.shipped c!"/a/foo_1.2.bb" = .ok false := by
  obtain ⟨b, h1, h2⟩ := C86_images (Sample.world []) Sample.shipped c!"/a/foo_1.2.bb" (by decide) (Sample.shipped_starts _ 0 []).1
  have : b = false := by
    cases b with
    | false => rfl
    | true =>
      rcases h2.1 rfl with ⟨x, hx, -⟩ | ⟨x, hx, -⟩ <;> exact absurd hx List.not_mem_nil
  rw [h1, this]

end
end Oelint
